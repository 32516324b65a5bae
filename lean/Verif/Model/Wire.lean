/-
Model of what src/console.c puts on the line: encoding a message as CBOR into a buffer of 16384 bytes, the answer to a
request, event messages, the feed, and one pass of `console_process`.

The CBOR library (contrib/tinycbor) is an empty submodule in the repository.  What is modelled of its encoder is what
its documentation says: numbers in the shortest form, texts with their length, containers with their length or open
ended; a piece that does not fit is not stored and neither is anything after it, and closing the container reports
`CborErrorOutOfMemory`.  How the 32 bits of a float are chosen is a parameter (`bits`).
-/
import Verif.Model.Console
import Verif.Model.EventLog

namespace Verif

/-- What the console hands to the encoder.  `definite` is whether a container is created with its length (the number
of entries) or with `CborIndefiniteLength`. -/
inductive Wire
  | num (n : Int)
  | flt (x : Fl)
  | bool (b : Bool)
  | null
  | text (s : String)
  | arr (definite : Bool) (l : List Wire)
  /-- keys and values in turn -/
  | map (definite : Bool) (l : List Wire)

/-- The `k` bytes of a number, the most significant first. -/
def beBytes : Nat → Nat → List Byte
  | 0, _ => []
  | k + 1, n => beBytes k (n / 256) ++ [BitVec.ofNat 8 n]

/-- The head of an item: the major type in the upper three bits, and the argument in the shortest form. -/
def headBytes (major n : Nat) : List Byte :=
  if n < 24 then [BitVec.ofNat 8 (major * 32 + n)]
  else if n < 2 ^ 8 then BitVec.ofNat 8 (major * 32 + 24) :: beBytes 1 n
  else if n < 2 ^ 16 then BitVec.ofNat 8 (major * 32 + 25) :: beBytes 2 n
  else if n < 2 ^ 32 then BitVec.ofNat 8 (major * 32 + 26) :: beBytes 4 n
  else BitVec.ofNat 8 (major * 32 + 27) :: beBytes 8 n

/-- `cbor_encode_int`, `cbor_encode_uint`. -/
def intBytes (n : Int) : List Byte := if 0 ≤ n then headBytes 0 n.toNat else headBytes 1 (-1 - n).toNat

/-- The bytes of a text. -/
def utf8Bytes (s : String) : List Byte := s.toByteArray.data.toList.map UInt8.toBitVec

/-- sizeof(response), src/console.c:1565; sizeof(txbuffer), 1592. -/
def txCapacity : Nat := 16384

/-- A `CborEncoder` on a buffer of `txCapacity` bytes: what has been stored, and whether something did not fit. -/
structure Enc where
  buf : List Byte
  over : Bool

/-- Storing the next piece. -/
def Enc.put (e : Enc) (bs : List Byte) : Enc :=
  if e.over then e
  else if e.buf.length + bs.length ≤ txCapacity then { e with buf := e.buf ++ bs }
  else { e with over := true }

/-- The head of a container. -/
def openBytes (major : Nat) (definite : Bool) (n : Nat) : List Byte :=
  if definite then headBytes major n else [BitVec.ofNat 8 (major * 32 + 31)]

/-- The end of a container. -/
def closeBytes (definite : Bool) : List Byte := if definite then [] else [0xff]

mutual
/-- The calls of the encoder for one item: `cbor_encode_int`, `cbor_encode_float`, `cbor_encode_boolean`,
`cbor_encode_null`, `cbor_encode_text_stringz`, and `cbor_encoder_create_array` or `_map` up to
`cbor_encoder_close_container`. -/
def Enc.wire (bits : Fl → BitVec 32) : Wire → Enc → Enc
  | .num n, e => e.put (intBytes n)
  | .flt x, e => e.put (0xfa :: beBytes 4 (bits x).toNat)
  | .bool b, e => e.put [if b then 0xf5 else 0xf4]
  | .null, e => e.put [0xf6]
  | .text s, e => (e.put (headBytes 3 s.utf8ByteSize)).put (utf8Bytes s)
  | .arr d l, e => (Enc.wires bits l (e.put (openBytes 4 d l.length))).put (closeBytes d)
  | .map d l, e => (Enc.wires bits l (e.put (openBytes 5 d (l.length / 2)))).put (closeBytes d)
/-- One item after the other. -/
def Enc.wires (bits : Fl → BitVec 32) : List Wire → Enc → Enc
  | [], e => e
  | w :: ws, e => Enc.wires bits ws (Enc.wire bits w e)
end

/-- `cbor_encoder_init`. -/
def Enc.init : Enc := ⟨[], false⟩

mutual
/-- How the items of an answer are encoded: `render_map_object`, `render_array_object` and
`console_process_request_raw` make containers of indefinite length (src/console.c:604, 649, 1576).  Items that the
console never writes (`half`, `dbl`, `other`) are given as null. -/
def Item.wire : Item → Wire
  | .int n => .num n
  | .flt x => .flt x
  | .bool b => .bool b
  | .null => .null
  | .text s => .text s
  | .arr _ l => .arr false (Item.wires l)
  | .map l => .map false (Item.wires l)
  | .half _ => .null
  | .dbl _ => .null
  | .other => .null
def Item.wires : List Item → List Wire
  | [] => []
  | a :: l => Item.wire a :: Item.wires l
end

/-- src/console.c:1567 and 1575-1588: the answer whose items are `l` is put into the buffer; if closing the map
reports an error nothing is written, else the buffer is. -/
def sendReply (bits : Fl → BitVec 32) (l : List Wire) : Option (List Byte) :=
  let e := Enc.wire bits (.map false l) Enc.init
  if e.over then none else some e.buf

/-- src/console.c:129-181 `console_event_message` and 1605: the event, as a message. -/
def eventWire (ev : LogEvent) : Wire :=
  let inner := match ev.type with
    | .output => [Wire.map true [.text "type", .text "output", .text "outputs", .num ev.value.toNat]]
    | .gpio => [Wire.map true [.text "type", .text "gpio", .text "outputs", .num ev.value.toNat]]
    | .trigger => [Wire.map true [.text "type", .text "trigger", .text "pin", .num ev.value.toNat]]
    | .none => []
  .map true ([.text "type", .text "event", .text "time", .num ev.time.toNat, .text "seq", .num ev.seq.toNat,
    .text "event"] ++ inner)

/-- src/console.c:231-255 `console_feed_line_keys`. -/
def descriptionWire {σ : Type} (nodes : List (FeedNode σ)) (now : Time) : Except Fault Wire :=
  match feedKeys nodes with
  | .error e => .error e
  | .ok l => .ok (.map true [.text "type", .text "description", .text "time", .num now.toNat, .text "keys",
      .arr false (Item.wires l)])

/-- src/console.c:257-292 `console_feed_line`. -/
def feedWire {σ : Type} (nodes : List (FeedNode σ)) (now : Time) (s : σ) : Except Fault Wire :=
  match feedValues s nodes with
  | .error e => .error e
  | .ok l => .ok (.map true [.text "type", .text "feed", .text "time", .num now.toNat, .text "values",
      .arr false (Item.wires l)])

/-- A message written into `txbuffer` and sent (src/console.c:1603-1606, 1612-1613, 1617-1618).  The functions do not
look whether it fitted; `cbor_encoder_get_buffer_size` is then not the size of anything, which is a fault here. -/
def sendMessage (bits : Fl → BitVec 32) (w : Wire) : Except Fault (List Byte) :=
  let e := Enc.wire bits w Enc.init
  if e.over then .error .oob else .ok e.buf

/-- src/console.c:1601-1607: the events taken out of the log until it is empty. -/
def sendEvents (bits : Fl → BitVec 32) : List LogEvent → Except Fault (List Byte)
  | [] => .ok []
  | ev :: evs =>
    match sendMessage bits (eventWire ev), sendEvents bits evs with
    | .ok a, .ok b => .ok (a ++ b)
    | .error f, _ => .error f
    | _, .error f => .error f

end Verif
