/-
A client's side of a conversation with the console: the requests it sends and the answers it reads.
-/
import Verif.Spec.Stream
import Verif.Spec.Wire
import Verif.Spec.Console
import Verif.Spec.Request

namespace Verif

/-- A request as a client sends it: a map, with its length or open ended, with these keys and values. -/
structure ClientReq where
  definite : Bool
  entries : List Wire

/-- Its bytes. -/
def ClientReq.bytes (bits : Fl → BitVec 32) (q : ClientReq) : List Byte := Wire.bytes bits (.map q.definite q.entries)

/-- What the console is to understand.  `r` is what becomes of a float on its way through 32 bits. -/
def ClientReq.meaning (r : Fl → Fl) (q : ClientReq) : List Item := Wire.items (Wire.seenAll r q.entries)

/-- What a client may send: at most 16384 bytes, and if the number of entries is given at most 23 entries. -/
structure ClientReq.Good (bits : Fl → BitVec 32) (q : ClientReq) : Prop where
  ok : (Wire.map q.definite q.entries).Ok
  early : q.definite = true → q.entries.length / 2 < 24
  size : (q.bytes bits).length ≤ 16384

/-- Decoding a request, as RFC 8949 says. -/
def readRequest (unbits : BitVec 32 → Fl) (m : List Byte) : List Item :=
  match readItem unbits (3 * m.length) m with
  | some (.map _ l, _) => Wire.items l
  | _ => []

section
variable [FloatFmt] [LibM] (rate : BitVec 32) (version : String)

/-- Requests and the answers to them, one after the other.  Before each, other things may have happened to the configuration:
`others`. -/
inductive Exchange (others : Console → Console → Prop) : Console → List (List Item) → List Wire → Prop
  | nil (c) : Exchange others c [] []
  | cons {c c1 c2 : Console} {req l : List Item} {e : Effect} {reqs : List (List Item)} {ws : List Wire}
      (ho : others c c1) (h : processRequest rate version (Wire.items structureWires) req c1 = .ok (c2, l, e))
      (ht : Exchange others c2 reqs ws) : Exchange others c (req :: reqs) (.map false (answerWires req l) :: ws)

end

/-- What a client reads of a single value that is sent. -/
def heard (r : Fl → Fl) : Item → Item
  | .flt x => .flt (r x)
  | .half _ => .null
  | .dbl _ => .null
  | .other => .null
  | x => x

/-- What a message, a map, has for a key. -/
def Wire.entry (k : String) : Wire → Option Item
  | .map _ l => lookupKey k (Wire.items l)
  | _ => none

end Verif
