/-
What a client of the console relies on, in terms of the items it sends and receives: which part of a
dump a path addresses, and what the dump is after one value has changed.
-/
import Verif.Model.Console

namespace Verif

/-- A value that is neither a map nor a list. -/
def Item.isLeaf : Item → Bool
  | .map _ => false
  | .arr _ _ => false
  | _ => true

/-- The value a map (keys and values in turn) gives for a text key. -/
def lookupKey (k : String) : List Item → Option Item
  | .text t :: v :: rest => if t = k then some v else lookupKey k rest
  | _ :: _ :: rest => lookupKey k rest
  | _ => none

/-- The same map with another value for this key. -/
def replaceKey (k : String) (f : Item → Item) : List Item → List Item
  | .text t :: v :: rest => if t = k then .text t :: f v :: rest else .text t :: v :: replaceKey k f rest
  | a :: v :: rest => a :: v :: replaceKey k f rest
  | l => l

/-- One step of a path: a text selects from a map, a number from a list. -/
def Item.step (k : Item) : Item → Option Item
  | .map l => match k with
    | .text t => lookupKey t l
    | _ => none
  | .arr _ l => match k with
    | .int n => if 0 ≤ n then l[n.toNat]? else none
    | _ => none
  | _ => none

/-- The part of `d` a path addresses. -/
def Item.follow : List Item → Item → Option Item
  | [], d => some d
  | k :: p, d => (Item.step k d).bind (Item.follow p)

/-- `d` with the part at one step changed. -/
def Item.stepMap (k : Item) (f : Item → Item) : Item → Item
  | .map l => match k with
    | .text t => .map (replaceKey t f l)
    | _ => .map l
  | .arr b l => match k with
    | .int n => if 0 ≤ n then .arr b (l.modify n.toNat f) else .arr b l
    | _ => .arr b l
  | d => d

/-- `d` with the part at the path replaced by `r`. -/
def Item.replace : List Item → Item → Item → Item
  | [], _, r => r
  | k :: p, d, r => Item.stepMap k (fun x => Item.replace p x r) d

/-- The path goes on after it has reached a value that is neither a map nor a list. -/
def PastLeaf (p : List Item) (d : Item) : Prop :=
  ∃ q k r x, p = q ++ k :: r ∧ d.follow q = some x ∧ x.isLeaf = true

/-- The texts of the enumerated settings and where they are. -/
def enumFields : List (List Item × List String) :=
  [([.text "decoder", .text "trigger-type"], ["even", "even+camsync", "missing", "missing+camsync"])] ++
  (List.range 16).map (fun i => ([.text "outputs", .int i, .text "type"], ["disabled", "fuel", "ignition"])) ++
  ["map", "iat", "clt", "brv", "tps", "aap", "frt", "ego", "frp", "eth"].map (fun n =>
    ([.text "sensors", .text n, .text "source"], ["none", "adc", "freq", "pulsewidth", "const"])) ++
  ["map", "iat", "clt", "brv", "tps", "aap", "frt", "ego", "frp", "eth"].map (fun n =>
    ([.text "sensors", .text n, .text "method"], ["linear", "linear-window", "therm"])) ++
  (List.range 4).map (fun i => ([.text "freq", .int i, .text "edge"], ["rising", "falling", "both"])) ++
  (List.range 4).map (fun i => ([.text "freq", .int i, .text "type"], ["none", "freq", "trigger"]))

/-- A table is there and its axes have at most 24 values. -/
def Has2 (t : Option Table2d) : Prop := ∃ T, t = some T ∧ T.rows.num ≤ maxAxis ∧ T.cols.num ≤ maxAxis
def Has1 (t : Option Table1d) : Prop := ∃ T, t = some T ∧ T.cols.num ≤ maxAxis

/-- All tables of the configuration are there and have axes of at most 24 values. -/
def Loaded (c : Console) : Prop :=
  Has2 c.cfg.ve ∧ Has2 c.cfg.lambda ∧ Has1 c.cfg.dwell ∧ Has2 c.cfg.timing ∧ Has1 c.cfg.deadtime ∧
  Has1 c.cfg.pwCorrection ∧ Has2 c.cfg.tempEnrich ∧ Has2 c.cfg.tipinAmount ∧ Has1 c.cfg.tipinDuration ∧
  Has1 c.cfg.boost.duty

/-- The parts of the configuration structures that no request shows: what the decoder, the scheduler and
the sensors keep there while running, and settings that have no path.  The state of a knock filter is left
out: a set below a knock sensor starts the filters anew. -/
def Console.hidden (c : Console) :=
  ((c.cfg.decoder.valid, c.cfg.decoder.rpm, c.cfg.decoder.toothRpm, c.cfg.decoder.lastTriggerTime,
    c.cfg.decoder.lastTriggerAngle, c.cfg.decoder.expiration, c.cfg.decoder.curRpmChange,
    c.cfg.decoder.t0Count, c.cfg.decoder.t1Count, c.cfg.decoder.loss,
    c.cfg.decoder.state, c.cfg.decoder.currentTriggersRpm, c.cfg.decoder.triggersSinceLastSync,
    c.cfg.decoder.times, c.cfg.decoder.camThis, c.cfg.decoder.camLast),
   (fun i => ((c.cfg.events i).start, (c.cfg.events i).stop)),
   (fun i => ((c.cfg.sensors i).time, (c.cfg.sensors i).rawValue,
     (c.cfg.sensors i).derivative, (c.cfg.sensors i).fault)),
   c.cfg.fueling.airDensity, c.cfg.ignition.dwell, c.cfg.ignition.dwellDuty)

/-- The paths below a knock sensor. -/
def KnockPath (p : List Item) : Prop :=
  ∃ r, p = .text "sensors" :: .text "knock1" :: r ∨ p = .text "sensors" :: .text "knock2" :: r

/-! ### Messages -/

/-- A request to read what is at path `p`. -/
structure IsGet (req : List Item) (p : List Item) : Prop where
  method : lookupKey "method" req = some (.text "get")
  path : ∃ b, lookupKey "path" req = some (.arr b p)

/-- A request to set what is at path `p` to `v`. -/
structure IsSet (req : List Item) (p : List Item) (v : Item) : Prop where
  method : lookupKey "method" req = some (.text "set")
  path : ∃ b, lookupKey "path" req = some (.arr b p)
  value : lookupKey "value" req = some v

/-- The request is handled, leaves the configuration `c` and is answered with the value `x`. -/
def Answers (res : Except Fault (Console × List Item × Effect)) (c : Console) (x : Item) : Prop :=
  ∃ l, res = .ok (c, l, .none) ∧ lookupKey "response" l = some x ∧ lookupKey "success" l = some (.bool true)

/-- What may be stored in a setting that shows `x` when `v` is sent: a number in an integer or float
setting, a truth value in a truth value setting, a text in a setting that is a text; anything else leaves
it as it was.  Which texts are stored is said separately for titles and for enumerated settings. -/
def Stored [FloatFmt] (x v r : Item) : Prop :=
  match x with
  | .int _ => match v with
    | .int m => 0 ≤ m ∧ m < 2 ^ 31 → r = .int m
    | _ => r = x
  | .flt _ => match v with
    | .int m => -2 ^ 31 ≤ m ∧ m < 2 ^ 31 → r = .flt (FloatFmt.rnd m)
    | .flt y => r = .flt y
    | .half h => r = .flt (decodeHalf h)
    | .dbl y => r = .flt (dblToFloat y)
    | _ => r = x
  | .bool _ => match v with
    | .bool b => r = .bool b
    | _ => r = x
  | _ => match v with
    | .text _ => r.isLeaf = true
    | _ => r = x

/-- The settings that are free texts: titles of tables and names of their axes. -/
def titleFields : List (List Item) :=
  (["ve", "lambda", "dwell", "timing", "injector_dead_time", "injector_pw_correction", "temp-enrich",
    "tipin-amount", "tipin-time"].flatMap fun t =>
      [[.text "tables", .text t, .text "title"],
       [.text "tables", .text t, .text "horizontal-axis", .text "name"]]) ++
  (["ve", "lambda", "timing", "temp-enrich", "tipin-amount"].map fun t =>
      [.text "tables", .text t, .text "vertical-axis", .text "name"]) ++
  [[.text "boost-control", .text "pwm", .text "title"],
   [.text "boost-control", .text "pwm", .text "horizontal-axis", .text "name"]]

end Verif
