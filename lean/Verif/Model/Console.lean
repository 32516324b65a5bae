/-
Model of the request handling of src/console.c (descending into the configuration, getting and
setting values) and of src/console.h.

The renderers of src/console.c are functions that call one of a few helpers (`render_uint32_map_field`,
`render_map_map_field`, …) once per field.  Here the calls a renderer makes are data, a `Node`, and
`render` gives the helpers' meaning; `consoleTree` below lists the calls of `console_toplevel_request`
and of the renderers it calls, in the order of the source.

The "structure" request (CONSOLE_STRUCTURE, CONSOLE_DESCRIBE) is in Model/Structure, the 16384 byte response
buffer in Model/Wire.  A request is handled in one step: interrupts that update sensors or the decoder
in the middle of it are not modelled (what they find of the settings is in Model/ConsoleTrace).  CBOR tags are not modelled, and a text is one piece
(tinycbor also accepts a text sent in chunks).
-/
import Verif.Model.ConsoleIo
import Verif.Model.Config
import Verif.Model.Calc

namespace Verif

/-- A decoded CBOR item, as the tinycbor functions the console uses tell them apart.  A map is the list
of its keys and values in the order sent; `definite` is whether an array was sent with its length. -/
inductive Item
  | int (n : Int)
  | half (h : BitVec 16)
  | flt (x : Fl)
  | dbl (x : Fl)
  | bool (b : Bool)
  | null
  | text (s : String)
  | arr (definite : Bool) (l : List Item)
  | map (l : List Item)
  | other

/-- A member of a structure: how it is read and written. -/
structure Lens (σ α : Type) where
  get : σ → α
  set : α → σ → σ

def Lens.comp {σ τ α : Type} (l : Lens σ τ) (m : Lens τ α) : Lens σ α :=
  ⟨fun s => m.get (l.get s), fun a s => l.set (m.set a (l.get s)) s⟩

/-- Element `i` of an array. -/
def Lens.ix {α : Type} {n : Nat} (i : Fin n) : Lens (Fin n → α) α :=
  ⟨fun f => f i, fun a f j => if j = i then a else f j⟩

/-- What a pointer points to; `d` stands for what is read through a null pointer (`Node.deref` stops
before that happens). -/
def Lens.some {α : Type} (d : α) : Lens (Option α) α :=
  ⟨fun o => o.getD d, fun a o => o.map fun _ => a⟩

/-- A call of one of the render helpers. -/
inductive Node (σ : Type)
  /-- `render_uint32_object` -/
  | u32 (l : Lens σ (BitVec 32))
  /-- `render_float_object` -/
  | flt (l : Lens σ Fl)
  /-- `render_bool_object` -/
  | bool (l : Lens σ Bool)
  /-- `render_enum_object`, with the copy into an `int` before it and the copy back after it -/
  | enum (choices : List (Int × String)) (l : Lens σ Int)
  /-- `render_table_title`, `render_table_axis_name` -/
  | text (l : Lens σ String)
  /-- `render_version` -/
  | const (s : String)
  /-- `render_map_object` with a renderer that renders the fields `ids` and then runs `post` (only on a
  set) -/
  | map (ids : List String) (child : Nat → Node σ) (post : σ → Except Fault σ)
  /-- `render_array_object` with a renderer that renders `count` elements, after setting the number of
  elements (only on a set, only for the axis values) -/
  | arr (resize : Option (Lens σ Nat)) (count : σ → Nat) (elem : Nat → Node σ)
  /-- a renderer that is handed a pointer; `null` says whether the pointer is null.  Simplification: the
  access through the null pointer is a fault as soon as the renderer is called. -/
  | deref (null : σ → Bool) (n : Node σ)
  /-- an element outside its array -/
  | oob

/-- A map renderer from the list of its calls. -/
def Node.fields {σ : Type} (l : List (String × Node σ)) (post : σ → Except Fault σ := .ok) : Node σ :=
  .map (l.map Prod.fst) (fun i => (l.getD i ("", .oob)).2) post

/-- What a render helper changes: the configuration, the rest of the path (`ctx->path` is a pointer
shared by all contexts), and the items written into the current container of the response. -/
structure RSt (σ : Type) where
  s : σ
  path : List Item
  out : List Item

/-- tinycbor `cbor_value_map_find_value`: the value after the first key that is this text; `none` is
`CborInvalidType`. -/
def mapFind (id : String) : List Item → Option Item
  | .text t :: v :: rest => if t = id then some v else mapFind id rest
  | _ :: _ :: rest => mapFind id rest
  | _ => none

/-- tinycbor `cbor_value_get_int_checked`: only what fits an `int`. -/
def getIntChecked (n : Int) : Option Int := if -2 ^ 31 ≤ n ∧ n < 2 ^ 31 then some n else none

/-- tinycbor `cbor_value_get_int`: the low 32 bits. -/
def getInt (n : Int) : Int := (BitVec.ofInt 32 n).toInt

/-- src/console.c:205-211 `console_path_match_str`. -/
def pathMatchStr (path : List Item) (id : String) : Bool :=
  match path with
  | .text t :: _ => t = id
  | _ => false

/-- src/console.c:213-222 `console_path_match_int`. -/
def pathMatchInt (path : List Item) (index : Nat) : Bool :=
  match path with
  | .int n :: _ => getIntChecked n = some (index : Int)
  | _ => false

/-- src/console.c:678-690: the value handed to a map field on a set; `none` means `return false`, and
`some none` an invalid value (the key is not in the map). -/
def mapValue (isSet filtered : Bool) (value : Option Item) (id : String) : Option (Option Item) :=
  if isSet && !filtered then
    match value with
    | some (.map l) => some (mapFind id l)
    | _ => none
  else some value

/-- src/console.c:559-572: the value handed to an array element on a set. -/
def arrValue (isSet filtered : Bool) (value : Option Item) (index : Nat) : Option (Option Item) :=
  if isSet && !filtered then
    match value with
    | some (.arr _ l) => if index ≤ l.length then some l[index]? else none
    | _ => none
  else some value

/-- The common part of src/console.c:693-703 and 574-585: match the path, take its first entry off, and
say whether there is more of it.  `none` means `return false`; otherwise the deeper context's
`is_filtered` and `value`, and the new state. -/
def descend {σ : Type} (hit : Bool) (filtered : Bool) (value : Option (Option Item)) (key : List Item)
    (st : RSt σ) : Option (Bool × Option Item × RSt σ) :=
  match value with
  | none => none
  | some v =>
    if filtered then
      if hit then some (!st.path.tail.isEmpty, v, { st with path := st.path.tail }) else none
    else some (false, v, { st with out := st.out ++ key })

/-- src/console.c:666-713 `descend_map_field`, past the test of `is_completed`. -/
def descendMap {σ : Type} (isSet filtered : Bool) (value : Option Item) (id : String) (st : RSt σ) :
    Option (Bool × Option Item × RSt σ) :=
  descend (pathMatchStr st.path id) filtered (mapValue isSet filtered value id) [.text id] st

/-- src/console.c:549-593 `descend_array_field`, past the test of `is_completed`. -/
def descendArr {σ : Type} (isSet filtered : Bool) (value : Option Item) (index : Nat) (st : RSt σ) :
    Option (Bool × Option Item × RSt σ) :=
  descend (pathMatchInt st.path index) filtered (arrValue isSet filtered value index) [] st

/-- The calls of a renderer, one field after the other: `completed` is `ctx->is_completed`. -/
def fieldLoop {σ : Type} (desc : Nat → RSt σ → Option (Bool × Option Item × RSt σ)) (filtered : Bool)
    (body : Nat → Bool → Option Item → RSt σ → Except Fault (RSt σ)) :
    List Nat → Bool → RSt σ → Except Fault (Bool × RSt σ)
  | [], completed, st => .ok (completed, st)
  | i :: is, completed, st =>
    if completed then fieldLoop desc filtered body is completed st
    else match desc i st with
      | none => fieldLoop desc filtered body is completed st
      | some (f, v, st') =>
        match body i f v st' with
        | .error e => .error e
        | .ok st'' => fieldLoop desc filtered body is filtered st''

/-- src/console.c:602-612 and 647-657, after the renderer has run: a filtered request that matched
nothing gets a null. -/
def addNull {σ : Type} (filtered completed : Bool) (st : RSt σ) : RSt σ :=
  if filtered && !completed then { st with out := st.out ++ [.null] } else st

section
variable [FloatFmt]

/-- `*ptr = val` from a double (src/console.c:468). -/
def dblToFloat : Fl → Fl
  | .fin q => FloatFmt.rnd q
  | x => x

/-- src/console.c:458-474: what a value of a float field is set to. -/
def floatOf : Option Item → Option Fl
  | some (.flt x) => some x
  | some (.half h) => some (decodeHalf h)
  | some (.dbl x) => some (dblToFloat x)
  | some (.int n) => some (FloatFmt.rnd (getInt n))
  | _ => none

/-- src/console.c:405-407: what a value of an integer field is set to. -/
def u32Of : Option Item → Option (BitVec 32)
  | some (.int n) => (getIntChecked n).map (BitVec.ofInt 32)
  | _ => none

/-- src/console.c:508-510. -/
def boolOf : Option Item → Option Bool
  | some (.bool b) => some b
  | _ => none

/-- MAX_TABLE_TITLE_SIZE, src/table.h:7. -/
abbrev maxTitle : Nat := 24

/-- A text as a C string: up to the first zero. -/
def cString (s : String) : String := String.ofList (s.toList.takeWhile (· ≠ '\x00'))

/-- src/console.c:775-779 and 803-807: a title of at most 24 bytes is copied; of a longer one, nothing is
copied. -/
def titleOf : Option Item → Option String
  | some (.text s) => if s.utf8ByteSize ≤ maxTitle then some (cString s) else none
  | _ => none

/-- src/console.c:743-747: each listed string that equals the value sets the field. -/
def enumSet (choices : List (Int × String)) (value : Option Item) (cur : Int) : Int :=
  match value with
  | some (.text t) => choices.foldl (fun c m => if t = m.2 then m.1 else c) cur
  | _ => cur

/-- src/console.c:750-758: every listed choice that equals the field, or null. -/
def enumOut (choices : List (Int × String)) (cur : Int) : List Item :=
  let l := (choices.filter fun m => m.1 = cur).map fun m => Item.text m.2
  if l.isEmpty then [.null] else l

/-- A field of the configuration set to `v` if there is a value for it. -/
def setOpt {σ α : Type} (l : Lens σ α) (v : Option α) (s : σ) : σ :=
  match v with
  | none => s
  | some a => l.set a s

/-- src/console.c:841-850: the number of axis values on a set. -/
def resizeTo {σ : Type} (isSet : Bool) (value : Option Item) (resize : Option (Lens σ Nat)) (s : σ) : σ :=
  match resize, value with
  | some l, some (.arr true items) => if isSet then l.set (min items.length 24) s else s
  | _, _ => s

/-- The renderer run inside `render_map_object` and `render_array_object` writes into a new container
unless the request is filtered (src/console.c:595-618 and 640-664). -/
def wrap {σ : Type} (filtered : Bool) (mk : List Item → Item) (outer : List Item) (st : RSt σ) : RSt σ :=
  if filtered then st else { st with out := outer ++ [mk st.out] }

/-- The response encoder at the start of `render_map_object` and `render_array_object`. -/
def openOut {σ : Type} (filtered : Bool) (st : RSt σ) : RSt σ :=
  if filtered then st else { st with out := [] }

/-- The render helpers, for a get (`isSet = false`) or a set:
`render_uint32_object` 400-425, `render_float_object` 452-490, `render_bool_object` 503-527,
`render_enum_object` 726-768, `render_table_title` 770-795, `render_table_axis_name` 797-824,
`render_version` 1373-1394, `render_map_object` 640-664, `render_array_object` 595-618 with
`render_table_axis_values` 826-850 for the resize. -/
def render {σ : Type} : Node σ → Bool → Bool → Option Item → RSt σ → Except Fault (RSt σ)
  | .u32 l, isSet, _, value, st =>
    let s := if isSet then setOpt l (u32Of value) st.s else st.s
    .ok { st with s := s, out := st.out ++ [.int (l.get s).toNat] }
  | .flt l, isSet, _, value, st =>
    let s := if isSet then setOpt l (floatOf value) st.s else st.s
    .ok { st with s := s, out := st.out ++ [.flt (l.get s)] }
  | .bool l, isSet, _, value, st =>
    let s := if isSet then setOpt l (boolOf value) st.s else st.s
    .ok { st with s := s, out := st.out ++ [.bool (l.get s)] }
  | .enum choices l, isSet, _, value, st =>
    let cur := if isSet then enumSet choices value (l.get st.s) else l.get st.s
    .ok { st with s := l.set cur st.s, out := st.out ++ enumOut choices cur }
  | .text l, isSet, _, value, st =>
    let s := if isSet then setOpt l (titleOf value) st.s else st.s
    .ok { st with s := s, out := st.out ++ [.text (l.get s)] }
  | .const t, _, _, _, st => .ok { st with out := st.out ++ [.text t] }
  | .map ids child post, isSet, filtered, value, st =>
    match fieldLoop (fun i => descendMap isSet filtered value (ids.getD i "")) filtered
        (fun i f v st' => render (child i) isSet f v st') (List.range ids.length) false
        (openOut filtered st) with
    | .error e => .error e
    | .ok (completed, st1) =>
      match (if isSet then post st1.s else .ok st1.s) with
      | .error e => .error e
      | .ok s2 => .ok (wrap filtered .map st.out (addNull filtered completed { st1 with s := s2 }))
  | .arr resize count elem, isSet, filtered, value, st =>
    let st0 := openOut filtered { st with s := resizeTo isSet value resize st.s }
    match fieldLoop (descendArr isSet filtered value) filtered
        (fun i f v st' => render (elem i) isSet f v st') (List.range (count st0.s)) false st0 with
    | .error e => .error e
    | .ok (completed, st1) =>
      .ok (wrap filtered (.arr false) st.out (addNull filtered completed st1))
  | .deref null n, isSet, filtered, value, st =>
    if null st.s then .error .nullDeref else render n isSet filtered value st
  | .oob, _, _, _, _ => .error .oob

/-- src/console.c:1446-1457 `console_request_get` and 1459-1471 `console_request_set`: the configuration
afterwards and the item after the "response" key. -/
def request {σ : Type} (tree : Node σ) (isSet : Bool) (path : List Item) (value : Option Item) (s : σ) :
    Except Fault (σ × List Item) :=
  match render tree isSet (!path.isEmpty) value { s := s, path := path, out := [] } with
  | .error e => .error e
  | .ok st => .ok (st.s, st.out)

end

/-- src/sensors.h:87-91 `trigger_edge`. -/
inductive TrigEdge
  | rising
  | falling
  | both
  deriving DecidableEq

/-- src/sensors.h:93-97 `freq_type`. -/
inductive FreqType
  | none
  | freq
  | trigger
  deriving DecidableEq

/-- src/sensors.h:99-102 `struct freq_input`. -/
structure FreqInput where
  edge : TrigEdge
  type : FreqType
  deriving DecidableEq

/-- What the console can read and change: the configuration with the texts of its ten tables, the
frequency inputs, `event_log.enabled` and the test trigger speed.  `testArmed` records that
`set_test_trigger_rpm` (src/sim.c:60-65) has scheduled the test trigger. -/
structure Console where
  cfg : Config
  title : Fin 10 → String
  colName : Fin 10 → String
  rowName : Fin 10 → String
  freq : Fin 4 → FreqInput
  logging : Bool
  testRpm : BitVec 32
  testArmed : Bool

/-- The member `x` of a structure, or the member of a member. -/
macro "fld% " x:ident : term => do
  let c := Lean.mkIdent `c
  let p := Lean.mkIdent (`c ++ x.getId)
  `(Lens.mk (fun $c => $p) (fun v $c => { $c with $x:ident := v }))

section
variable [FloatFmt]

/-- The members of `enum` types, as the `int` the console copies them to (src/decoder.h:7-28). -/
def DecType.code : DecType → Int
  | .evenNosync => 0 | .evenCamsync => 1 | .missingNosync => 2 | .missingCamsync => 3
def DecType.ofCode (n : Int) : DecType :=
  if n = 0 then .evenNosync else if n = 1 then .evenCamsync else if n = 2 then .missingNosync
  else .missingCamsync

/-- src/scheduler.h:8-12 -/
def EvType.code : EvType → Int
  | .disabled => 0 | .fuel => 1 | .ignition => 2
def EvType.ofCode (n : Int) : EvType :=
  if n = 0 then .disabled else if n = 1 then .fuel else .ignition

/-- src/sensors.h:23-29 -/
def SensorSource.code : SensorSource → Int
  | .none => 0 | .adc => 1 | .freq => 2 | .pulsewidth => 3 | .const => 4
def SensorSource.ofCode (n : Int) : SensorSource :=
  if n = 0 then .none else if n = 1 then .adc else if n = 2 then .freq else if n = 3 then .pulsewidth
  else .const

/-- src/sensors.h:31-35 -/
def SensorMethod.code : SensorMethod → Int
  | .linear => 0 | .linearWindowed => 1 | .therm => 2
def SensorMethod.ofCode (n : Int) : SensorMethod :=
  if n = 0 then .linear else if n = 1 then .linearWindowed else .therm

/-- src/sensors.h:87-91 -/
def TrigEdge.code : TrigEdge → Int
  | .rising => 0 | .falling => 1 | .both => 2
def TrigEdge.ofCode (n : Int) : TrigEdge :=
  if n = 0 then .rising else if n = 1 then .falling else .both

/-- src/sensors.h:93-97 -/
def FreqType.code : FreqType → Int
  | .none => 0 | .freq => 1 | .trigger => 2
def FreqType.ofCode (n : Int) : FreqType :=
  if n = 0 then .none else if n = 1 then .freq else .trigger

/-- An enumerated member as the `int` copy the console works on. -/
def codeLens {α : Type} (code : α → Int) (ofCode : Int → α) : Lens α Int := ⟨code, fun n _ => ofCode n⟩

/-- src/console.c:997-1048 `render_decoder`. -/
def decoderNode : Node Console :=
  .fields [
    ("offset", .flt (fld% cfg.decoder.offset)),
    ("max-variance", .flt (fld% cfg.decoder.maxRpmChange)),
    ("min-rpm", .u32 (fld% cfg.decoder.minRpm)),
    ("rpm-limit-stop", .u32 (fld% cfg.rpmStop)),
    ("rpm-limit-start", .u32 (fld% cfg.rpmStart)),
    ("trigger-type", .enum [(0, "even"), (1, "even+camsync"), (2, "missing"), (3, "missing+camsync")]
      (Lens.comp (fld% cfg.decoder.type) (codeLens DecType.code DecType.ofCode))),
    ("num-triggers", .u32 (fld% cfg.decoder.numTriggers)),
    ("degrees-per-trigger", .flt (fld% cfg.decoder.degreesPerTrigger)),
    ("min-triggers-rpm", .u32 (fld% cfg.decoder.requiredTriggersRpm)),
    ("rpm-window-size", .u32 (fld% cfg.decoder.rpmWindowSize))]

/-- src/console.c:1050-1073 `output_console_renderer`. -/
def outputNode (l : Lens Console OEvent) : Node Console :=
  .fields [
    ("pin", .u32 (l.comp (fld% pin))),
    ("inverted", .bool (l.comp (fld% inverted))),
    ("angle", .flt (l.comp (fld% angle))),
    ("type", .enum [(0, "disabled"), (1, "fuel"), (2, "ignition")]
      (l.comp (Lens.comp (fld% type) (codeLens EvType.code EvType.ofCode))))]

/-- An array of fixed size whose elements are rendered one by one. -/
def fixedArr {σ : Type} (n : Nat) (elem : Fin n → Node σ) : Node σ :=
  .arr none (fun _ => n) fun i => if h : i < n then elem ⟨i, h⟩ else .oob

/-- src/console.c:1075-1081 `render_outputs`. -/
def outputsNode : Node Console :=
  fixedArr maxEvents fun i => outputNode (Lens.comp (fld% cfg.events) (Lens.ix i))

/-- src/console.c:1110-1192 `render_sensor_object`. -/
def sensorNode (l : Lens Console Sensor) : Node Console :=
  .fields [
    ("pin", .u32 (l.comp (fld% pin))),
    ("lag", .flt (l.comp (fld% lag))),
    ("source", .enum [(0, "none"), (1, "adc"), (2, "freq"), (3, "pulsewidth"), (4, "const")]
      (l.comp (Lens.comp (fld% source) (codeLens SensorSource.code SensorSource.ofCode)))),
    ("method", .enum [(0, "linear"), (1, "linear-window"), (2, "therm")]
      (l.comp (Lens.comp (fld% method) (codeLens SensorMethod.code SensorMethod.ofCode)))),
    ("range-min", .flt (l.comp (fld% rangeMin))),
    ("range-max", .flt (l.comp (fld% rangeMax))),
    ("raw-min", .flt (l.comp (fld% rawMin))),
    ("raw-max", .flt (l.comp (fld% rawMax))),
    ("fixed-value", .flt (l.comp (fld% value))),
    ("therm-a", .flt (l.comp (fld% thermA))),
    ("therm-b", .flt (l.comp (fld% thermB))),
    ("therm-c", .flt (l.comp (fld% thermC))),
    ("therm-bias", .flt (l.comp (fld% bias))),
    ("fault-min", .flt (l.comp (fld% faultMin))),
    ("fault-max", .flt (l.comp (fld% faultMax))),
    ("fault-value", .flt (l.comp (fld% faultValue))),
    ("window-capture-width", .u32 (l.comp (fld% window.captureWidth))),
    ("window-total-width", .u32 (l.comp (fld% window.totalWidth))),
    ("window-offset", .u32 (l.comp (fld% window.offset)))]

/-- src/console.c:1204-1208: on a set, both knock inputs are configured again. -/
def knockPost [LibM] (rate : BitVec 32) (c : Console) : Except Fault Console := do
  let k0 ← knockConfigure rate (c.cfg.knock 0)
  let k1 ← knockConfigure rate (c.cfg.knock 1)
  return { c with cfg.knock := fun i => if i = 0 then k0 else k1 }

/-- src/console.c:1194-1209 `render_knock_object`. -/
def knockNode [LibM] (rate : BitVec 32) (l : Lens Console Knock) : Node Console :=
  .fields [
    ("frequency", .flt (l.comp (fld% frequency))),
    ("threshold", .flt (l.comp (fld% threshold)))] (knockPost rate)

/-- src/console.c:1083-1108 `sensor_name_from_type`, for the ten sensors in the order of
src/sensors.h:9-20. -/
def sensorNames : List String :=
  ["map", "iat", "clt", "brv", "tps", "aap", "frt", "ego", "frp", "eth"]

/-- src/console.c:1211-1221 `render_sensors`; `rate` is `platform_knock_samplerate()`. -/
def sensorsNode [LibM] (rate : BitVec 32) : Node Console :=
  .map (sensorNames ++ ["knock1", "knock2"]) (fun i =>
    if h : i < numSensors then sensorNode (Lens.comp (fld% cfg.sensors) (Lens.ix ⟨i, h⟩))
    else if i = 10 then knockNode rate (Lens.comp (fld% cfg.knock) (Lens.ix 0))
    else knockNode rate (Lens.comp (fld% cfg.knock) (Lens.ix 1))) .ok

/-- src/console.c:826-850 `render_table_axis_values` and 863-872 `render_table_axis`.  The loop runs up
to the smaller of the number of values and MAX_AXIS_SIZE. -/
def axisNode (l : Lens Console Axis) (name : Lens Console String) : Node Console :=
  .fields [
    ("name", .text name),
    ("values", .arr (some (l.comp (fld% num))) (fun c => min (l.get c).num maxAxis) fun i =>
      if h : i < maxAxis then .flt (l.comp (Lens.comp (fld% values) (Lens.ix ⟨i, h⟩))) else .oob)]

def noAxis : Axis := ⟨0, fun _ => .nan⟩
def noTable1 : Table1d := ⟨noAxis, fun _ => .nan⟩
def noTable2 : Table2d := ⟨noAxis, noAxis, fun _ _ => .nan⟩

/-- src/console.c:940-957 `render_table_1d_object` with 906-916 `render_table_1d_data`; `k` numbers the
table. -/
def table1Node (t : Lens Console (Option Table1d)) (k : Fin 10) : Node Console :=
  let l := t.comp (Lens.some noTable1)
  .deref (fun c => (t.get c).isNone) (.fields [
    ("title", .text (Lens.comp (fld% title) (Lens.ix k))),
    ("horizontal-axis", axisNode (l.comp (fld% cols)) (Lens.comp (fld% colName) (Lens.ix k))),
    ("data", .arr none (fun c => (l.get c).cols.num) fun i =>
      if h : i < maxAxis then .flt (l.comp (Lens.comp (fld% data) (Lens.ix ⟨i, h⟩))) else .oob)])

/-- src/console.c:918-938 `render_table_2d_object` with 879-889 `render_table_second_axis_data` and
918-928 `render_table_2d_data`. -/
def table2Node (t : Lens Console (Option Table2d)) (k : Fin 10) : Node Console :=
  let l := t.comp (Lens.some noTable2)
  .deref (fun c => (t.get c).isNone) (.fields [
    ("title", .text (Lens.comp (fld% title) (Lens.ix k))),
    ("horizontal-axis", axisNode (l.comp (fld% cols)) (Lens.comp (fld% colName) (Lens.ix k))),
    ("vertical-axis", axisNode (l.comp (fld% rows)) (Lens.comp (fld% rowName) (Lens.ix k))),
    ("data", .arr none (fun c => (l.get c).rows.num) fun r =>
      .arr none (fun c => (l.get c).cols.num) fun i =>
        if h : r < maxAxis ∧ i < maxAxis then
          .flt (l.comp (Lens.comp (fld% data) (Lens.comp (Lens.ix ⟨r, h.1⟩) (Lens.ix ⟨i, h.2⟩))))
        else .oob)])

/-- src/console.c:974-995 `render_tables`. -/
def tablesNode : Node Console :=
  .fields [
    ("ve", table2Node (fld% cfg.ve) 0),
    ("lambda", table2Node (fld% cfg.lambda) 1),
    ("dwell", table1Node (fld% cfg.dwell) 2),
    ("timing", table2Node (fld% cfg.timing) 3),
    ("injector_dead_time", table1Node (fld% cfg.deadtime) 4),
    ("injector_pw_correction", table1Node (fld% cfg.pwCorrection) 5),
    ("temp-enrich", table2Node (fld% cfg.tempEnrich) 6),
    ("tipin-amount", table2Node (fld% cfg.tipinAmount) 7),
    ("tipin-time", table1Node (fld% cfg.tipinDuration) 8)]

/-- src/console.c:1223-1240 `render_crank_enrich`. -/
def crankNode : Node Console :=
  .fields [
    ("crank-rpm", .flt (fld% cfg.fueling.crankRpm)),
    ("crank-temp", .flt (fld% cfg.fueling.crankTemp)),
    ("enrich-amt", .flt (fld% cfg.fueling.crankAmt))]

/-- src/console.c:1242-1266 `render_fueling`. -/
def fuelingNode : Node Console :=
  .fields [
    ("injector-cc", .flt (fld% cfg.fueling.injectorCc)),
    ("cylinder-cc", .flt (fld% cfg.fueling.cylinderCc)),
    ("fuel-stoich-ratio", .flt (fld% cfg.fueling.stoich)),
    ("injections-per-cycle", .u32 (fld% cfg.fueling.injections)),
    ("fuel-pump-pin", .u32 (fld% cfg.fueling.pumpPin)),
    ("fuel-density", .flt (fld% cfg.fueling.fuelDensity)),
    ("crank-enrich", crankNode)]

/-- src/console.c:1268-1278 `render_ignition`. -/
def ignitionNode : Node Console :=
  .fields [
    ("min-fire-time", .u32 (fld% cfg.ignition.minFireUs)),
    ("dwell-time", .flt (fld% cfg.ignition.dwellUs))]

/-- src/console.c:1280-1304 `render_boost_control`. -/
def boostNode : Node Console :=
  .fields [
    ("pin", .u32 (fld% cfg.boost.pin)),
    ("enable-threshold", .flt (fld% cfg.boost.enableKpa)),
    ("control-threshold", .flt (fld% cfg.boost.controlKpa)),
    ("control-threshold-tps", .flt (fld% cfg.boost.controlTps)),
    ("overboost", .flt (fld% cfg.boost.overboost)),
    ("pwm", table1Node (fld% cfg.boost.duty) 9)]

/-- src/console.c:1306-1318 `render_cel`. -/
def celNode : Node Console :=
  .fields [
    ("pin", .u32 (fld% cfg.cel.pin)),
    ("lean-boost-kpa", .flt (fld% cfg.cel.leanKpa)),
    ("lean-boost-ego", .flt (fld% cfg.cel.leanEgo))]

/-- src/console.c:1320-1345 `render_freq_object`.  Both members are copied before the two fields are
rendered and copied back after them. -/
def freqNode (l : Lens Console FreqInput) : Node Console :=
  .fields [
    ("edge", .enum [(0, "rising"), (1, "falling"), (2, "both")]
      (l.comp (Lens.comp (fld% edge) (codeLens TrigEdge.code TrigEdge.ofCode)))),
    ("type", .enum [(0, "none"), (1, "freq"), (2, "trigger")]
      (l.comp (Lens.comp (fld% type) (codeLens FreqType.code FreqType.ofCode))))]

/-- src/console.c:1347-1352 `render_freq_list`. -/
def freqListNode : Node Console :=
  fixedArr 4 fun i => freqNode (Lens.comp (fld% freq) (Lens.ix i))

/-- src/console.c:1354-1367 `render_test`: a new speed is handed to `set_test_trigger_rpm`
(src/sim.c:60-65). -/
def testNode : Node Console :=
  .fields [
    ("event-logging", .bool (fld% logging)),
    ("test-trigger-rpm", .u32 ⟨fun c => c.testRpm, fun v c =>
      { c with testRpm := v, testArmed := c.testArmed || decide (v ≠ c.testRpm) }⟩)]

/-- src/console.c:1400-1424 `console_toplevel_request` with 1395-1398 `render_info`; `version` is
GIT_DESCRIBE. -/
def consoleTree [LibM] (rate : BitVec 32) (version : String) : Node Console :=
  .fields [
    ("decoder", decoderNode),
    ("sensors", sensorsNode rate),
    ("outputs", outputsNode),
    ("fueling", fuelingNode),
    ("ignition", ignitionNode),
    ("tables", tablesNode),
    ("boost-control", boostNode),
    ("check-engine-light", celNode),
    ("freq", freqListNode),
    ("test", testNode),
    ("info", .fields [("version", .const version)])]

/-- What the rest of the firmware has to do after a request. -/
inductive Effect
  | none
  /-- `platform_save_config()` -/
  | flash
  /-- `platform_reset_into_bootloader()` -/
  | bootloader
  deriving DecidableEq

/-- src/console.c:194-197 `report_success`. -/
def reportSuccess (b : Bool) : List Item := [.text "success", .bool b]

/-- src/console.c:199-203 `report_parsing_error`. -/
def reportError (msg : String) : List Item := [.text "error", .text msg] ++ reportSuccess false

/-- src/console.c:1487-1495: the request's id, or -1. -/
def requestId (req : List Item) : Int :=
  match mapFind "id" req with
  | some (.int n) => getInt n
  | _ => -1

/-- tinycbor `cbor_value_text_string_equals`. -/
def itemIs (i : Item) (s : String) : Bool :=
  match i with
  | .text t => t = s
  | _ => false

/-- src/console.c:1528-1557: the requests that have a path. -/
def pathRequest [LibM] (rate : BitVec 32) (version : String) (req : List Item) (method : Item)
    (c : Console) : Except Fault (Console × List Item) :=
  match mapFind "path" req with
  | some (.arr _ path) =>
    if itemIs method "get" then
      match request (consoleTree rate version) false path none c with
      | .error e => .error e
      | .ok (c', r) => .ok (c', .text "response" :: r ++ reportSuccess true)
    else
      match mapFind "value" req with
      | none => .ok (c, reportError "invalid 'value' provided")
      | some v =>
        if itemIs method "set" then
          match request (consoleTree rate version) true path (some v) c with
          | .error e => .error e
          | .ok (c', r) => .ok (c', .text "response" :: r ++ reportSuccess true)
        else .ok (c, [])
  | _ => .ok (c, reportError "no 'path' provided'")

/-- src/console.c:1483-1558 `console_process_request`, with 383-388 `console_request_ping`, 1473-1481
`console_request_flash` and `console_request_bootloader`.  The request is the map with items `req`; the
result is the configuration, the items of the response map, and what else is done.  `struct`
is what `console_request_structure` (1426-1444) writes before its `success`, see Model/Structure. -/
def processRequest [LibM] (rate : BitVec 32) (version : String) (struct : List Item) (req : List Item)
    (c : Console) : Except Fault (Console × List Item × Effect) :=
  let head := [.text "type", .text "response", .text "id", .int (requestId req)]
  match mapFind "method" req with
  | none => .ok (c, head ++ reportError "request has no 'method'" ++ reportSuccess false, .none)
  | some m =>
    if itemIs m "ping" then
      .ok (c, head ++ [.text "response", .text "pong"] ++ reportSuccess true, .none)
    else if itemIs m "structure" then .ok (c, head ++ struct ++ reportSuccess true, .none)
    else if itemIs m "flash" then .ok (c, head ++ reportSuccess true, .flash)
    else if itemIs m "bootloader" then .ok (c, head ++ reportSuccess true, .bootloader)
    else match pathRequest rate version req m c with
      | .error e => .error e
      | .ok (c', r) => .ok (c', head ++ r, .none)

end

/-- src/console.h `struct console_feed_node`: a key and one of four ways to read the value. -/
structure FeedNode (σ : Type) where
  id : Option String
  u32 : Option (σ → BitVec 32) := none
  flt : Option (σ → Fl) := none
  u32Fn : Option (σ → BitVec 32) := none
  fltFn : Option (σ → Fl) := none

/-- src/console.c:247-251: the keys, up to the node without an id.  Running past the end of the array is
a fault. -/
def feedKeys {σ : Type} : List (FeedNode σ) → Except Fault (List Item)
  | [] => .error .oob
  | n :: rest =>
    match n.id with
    | none => .ok []
    | some id =>
      match feedKeys rest with
      | .error e => .error e
      | .ok l => .ok (.text id :: l)

/-- src/console.c:275-287, one node. -/
def feedValue {σ : Type} (n : FeedNode σ) (s : σ) : Item :=
  match n.u32, n.flt, n.u32Fn, n.fltFn with
  | some f, _, _, _ => .int (f s).toNat
  | none, some f, _, _ => .flt (f s)
  | none, none, some f, _ => .int (f s).toNat
  | none, none, none, some f => .flt (f s)
  | none, none, none, none => .text "invalid"

/-- src/console.c:272-288: the values. -/
def feedValues {σ : Type} (s : σ) : List (FeedNode σ) → Except Fault (List Item)
  | [] => .error .oob
  | n :: rest =>
    match n.id with
    | none => .ok []
    | some _ =>
      match feedValues s rest with
      | .error e => .error e
      | .ok l => .ok (feedValue n s :: l)

/-- What the feed shows: the configuration, the calculated values and the time. -/
structure FeedState where
  cfg : Config
  vals : CalcValues
  now : Time

/-- src/decoder.h:36-43 -/
def DecLoss.code : DecLoss → BitVec 32
  | .noLoss => 0 | .variation => 1 | .triggercountHigh => 2 | .triggercountLow => 3 | .expired => 4
  | .overflow => 5

/-- A flag that is a `uint32_t` in the source. -/
def flagU32 (b : Bool) : BitVec 32 := if b then 1 else 0

/-- src/console.c:15-69 `console_feed_nodes`; the last node is the terminator `{ 0 }`. -/
def feedNodes : List (FeedNode FeedState) := [
  { id := "cputime", u32Fn := some fun s => s.now },
  { id := "ve", flt := some fun s => s.vals.ve },
  { id := "lambda", flt := some fun s => s.vals.lambda },
  { id := "fuel_pulsewidth_us", u32 := some fun s => s.vals.fuelingUs },
  { id := "temp_enrich_percent", flt := some fun s => s.vals.ete },
  { id := "injector_dead_time", flt := some fun s => s.vals.idt },
  { id := "injector_pw_correction", flt := some fun s => s.vals.pwc },
  { id := "accel_enrich_percent", flt := some fun s => s.vals.tipin },
  { id := "airmass_per_cycle", flt := some fun s => s.vals.airmass },
  { id := "advance", flt := some fun s => s.vals.timingAdvance },
  { id := "dwell", u32 := some fun s => s.vals.dwellUs },
  { id := "rpm_cut", u32 := some fun s => flagU32 s.vals.rpmLimitCut },
  { id := "boost_cut", u32 := some fun s => flagU32 s.vals.boostCut },
  { id := "fuel_overduty_cut", u32 := some fun s => flagU32 s.vals.overdutyCut },
  { id := "sensor.map", flt := some fun s => (s.cfg.sensors 0).value },
  { id := "sensor.iat", flt := some fun s => (s.cfg.sensors 1).value },
  { id := "sensor.clt", flt := some fun s => (s.cfg.sensors 2).value },
  { id := "sensor.brv", flt := some fun s => (s.cfg.sensors 3).value },
  { id := "sensor.tps", flt := some fun s => (s.cfg.sensors 4).value },
  { id := "sensor.tps.rate", flt := some fun s => (s.cfg.sensors 4).derivative },
  { id := "sensor.aap", flt := some fun s => (s.cfg.sensors 5).value },
  { id := "sensor.frt", flt := some fun s => (s.cfg.sensors 6).value },
  { id := "sensor.ego", flt := some fun s => (s.cfg.sensors 7).value },
  { id := "sensor.frp", flt := some fun s => (s.cfg.sensors 8).value },
  { id := "knock1.value", flt := some fun s => (s.cfg.knock 0).value },
  { id := "knock2.value", flt := some fun s => (s.cfg.knock 1).value },
  { id := "sensor.eth", flt := some fun s => (s.cfg.sensors 9).value },
  { id := "sensor_faults", u32Fn := some fun s => faultStatus s.cfg.sensors },
  { id := "rpm", u32 := some fun s => s.cfg.decoder.rpm },
  { id := "tooth_rpm", u32 := some fun s => s.cfg.decoder.toothRpm },
  { id := "sync", u32 := some fun s => flagU32 s.cfg.decoder.valid },
  { id := "loss", u32Fn := some fun s => s.cfg.decoder.loss.code },
  { id := "rpm_variance", flt := some fun s => s.cfg.decoder.curRpmChange },
  { id := "last_trigger_angle", flt := some fun s => s.cfg.decoder.lastTriggerAngle },
  { id := "t0_count", u32 := some fun s => s.cfg.decoder.t0Count },
  { id := "t1_count", u32 := some fun s => s.cfg.decoder.t1Count },
  { id := none }]

/-- src/console.c:231-254 `console_feed_line_keys`. -/
def feedDescription {σ : Type} (nodes : List (FeedNode σ)) (now : Time) : Except Fault Item :=
  match feedKeys nodes with
  | .error e => .error e
  | .ok l => .ok (.map [.text "type", .text "description", .text "time", .int now.toNat, .text "keys",
      .arr false l])

/-- src/console.c:256-292 `console_feed_line`. -/
def feedLine {σ : Type} (nodes : List (FeedNode σ)) (now : Time) (s : σ) : Except Fault Item :=
  match feedValues s nodes with
  | .error e => .error e
  | .ok l => .ok (.map [.text "type", .text "feed", .text "time", .int now.toNat, .text "values",
      .arr false l])

end Verif
