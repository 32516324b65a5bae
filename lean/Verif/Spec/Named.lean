/-
Which quantity of the firmware each name of the console and of the feed stands for (C84).
-/
import Verif.Spec.Request

namespace Verif

/-- Numbers are shown as integers. -/
def num32 (n : BitVec 32) : Item := .int n.toNat

def decoderSettings : List (String × (Config → Item)) := [
  ("offset", fun c => .flt c.decoder.offset),
  ("max-variance", fun c => .flt c.decoder.maxRpmChange),
  ("min-rpm", fun c => num32 c.decoder.minRpm),
  ("rpm-limit-stop", fun c => num32 c.rpmStop),
  ("rpm-limit-start", fun c => num32 c.rpmStart),
  ("trigger-type", fun c => .text (match c.decoder.type with
    | .evenNosync => "even" | .evenCamsync => "even+camsync"
    | .missingNosync => "missing" | .missingCamsync => "missing+camsync")),
  ("num-triggers", fun c => num32 c.decoder.numTriggers),
  ("degrees-per-trigger", fun c => .flt c.decoder.degreesPerTrigger),
  ("min-triggers-rpm", fun c => num32 c.decoder.requiredTriggersRpm),
  ("rpm-window-size", fun c => num32 c.decoder.rpmWindowSize)]

def outputSettings : List (String × (OEvent → Item)) := [
  ("pin", fun e => num32 e.pin),
  ("inverted", fun e => .bool e.inverted),
  ("angle", fun e => .flt e.angle),
  ("type", fun e => .text (match e.type with
    | .disabled => "disabled" | .fuel => "fuel" | .ignition => "ignition"))]

def sensorSettings : List (String × (Sensor → Item)) := [
  ("pin", fun s => num32 s.pin),
  ("lag", fun s => .flt s.lag),
  ("source", fun s => .text (match s.source with
    | .none => "none" | .adc => "adc" | .freq => "freq" | .pulsewidth => "pulsewidth" | .const => "const")),
  ("method", fun s => .text (match s.method with
    | .linear => "linear" | .linearWindowed => "linear-window" | .therm => "therm")),
  ("range-min", fun s => .flt s.rangeMin),
  ("range-max", fun s => .flt s.rangeMax),
  ("raw-min", fun s => .flt s.rawMin),
  ("raw-max", fun s => .flt s.rawMax),
  ("fixed-value", fun s => .flt s.value),
  ("therm-a", fun s => .flt s.thermA),
  ("therm-b", fun s => .flt s.thermB),
  ("therm-c", fun s => .flt s.thermC),
  ("therm-bias", fun s => .flt s.bias),
  ("fault-min", fun s => .flt s.faultMin),
  ("fault-max", fun s => .flt s.faultMax),
  ("fault-value", fun s => .flt s.faultValue),
  ("window-capture-width", fun s => num32 s.window.captureWidth),
  ("window-total-width", fun s => num32 s.window.totalWidth),
  ("window-offset", fun s => num32 s.window.offset)]

/-- The sensors, numbered as in src/sensors.h:9-20. -/
def sensorIndex : List (String × Fin numSensors) :=
  [("map", 0), ("iat", 1), ("clt", 2), ("brv", 3), ("tps", 4), ("aap", 5), ("frt", 6), ("ego", 7), ("frp", 8),
   ("eth", 9)]

def knockSettings : List (String × (Knock → Item)) := [
  ("frequency", fun k => .flt k.frequency),
  ("threshold", fun k => .flt k.threshold)]

def fuelingSettings : List (String × (FuelingCfg → Item)) := [
  ("injector-cc", fun f => .flt f.injectorCc),
  ("cylinder-cc", fun f => .flt f.cylinderCc),
  ("fuel-stoich-ratio", fun f => .flt f.stoich),
  ("injections-per-cycle", fun f => num32 f.injections),
  ("fuel-pump-pin", fun f => num32 f.pumpPin),
  ("fuel-density", fun f => .flt f.fuelDensity)]

def crankSettings : List (String × (FuelingCfg → Item)) := [
  ("crank-rpm", fun f => .flt f.crankRpm),
  ("crank-temp", fun f => .flt f.crankTemp),
  ("enrich-amt", fun f => .flt f.crankAmt)]

def ignitionSettings : List (String × (IgnitionCfg → Item)) := [
  ("min-fire-time", fun i => num32 i.minFireUs),
  ("dwell-time", fun i => .flt i.dwellUs)]

def boostSettings : List (String × (BoostCfg → Item)) := [
  ("pin", fun b => num32 b.pin),
  ("enable-threshold", fun b => .flt b.enableKpa),
  ("control-threshold", fun b => .flt b.controlKpa),
  ("control-threshold-tps", fun b => .flt b.controlTps),
  ("overboost", fun b => .flt b.overboost)]

def celSettings : List (String × (CelCfg → Item)) := [
  ("pin", fun l => num32 l.pin),
  ("lean-boost-kpa", fun l => .flt l.leanKpa),
  ("lean-boost-ego", fun l => .flt l.leanEgo)]

def freqSettings : List (String × (FreqInput → Item)) := [
  ("edge", fun f => .text (match f.edge with
    | .rising => "rising" | .falling => "falling" | .both => "both")),
  ("type", fun f => .text (match f.type with
    | .none => "none" | .freq => "freq" | .trigger => "trigger"))]

/-- The tables with one axis, and where each is. -/
def tables1 : List (List Item × (Config → Option Table1d)) := [
  ([.text "tables", .text "dwell"], fun c => c.dwell),
  ([.text "tables", .text "injector_dead_time"], fun c => c.deadtime),
  ([.text "tables", .text "injector_pw_correction"], fun c => c.pwCorrection),
  ([.text "tables", .text "tipin-time"], fun c => c.tipinDuration),
  ([.text "boost-control", .text "pwm"], fun c => c.boost.duty)]

/-- The tables with two axes. -/
def tables2 : List (List Item × (Config → Option Table2d)) := [
  ([.text "tables", .text "ve"], fun c => c.ve),
  ([.text "tables", .text "lambda"], fun c => c.lambda),
  ([.text "tables", .text "timing"], fun c => c.timing),
  ([.text "tables", .text "temp-enrich"], fun c => c.tempEnrich),
  ([.text "tables", .text "tipin-amount"], fun c => c.tipinAmount)]

/-- The value at place `i` of an axis, if the axis is that long. -/
def Axis.shown (a : Axis) (i : Fin maxAxis) : Option Item := if i < a.num then some (.flt (a.values i)) else none

/-- The path `p` names the quantity `f` of the configuration, which may be absent. -/
inductive Names : List Item → (Console → Option Item) → Prop
  | decoder {k f} (h : (k, f) ∈ decoderSettings) : Names [.text "decoder", .text k] fun c => some (f c.cfg)
  | output (i : Fin maxEvents) {k f} (h : (k, f) ∈ outputSettings) :
      Names [.text "outputs", .int i, .text k] fun c => some (f (c.cfg.events i))
  | sensor {n i} (hn : (n, i) ∈ sensorIndex) {k f} (h : (k, f) ∈ sensorSettings) :
      Names [.text "sensors", .text n, .text k] fun c => some (f (c.cfg.sensors i))
  | knock1 {k f} (h : (k, f) ∈ knockSettings) :
      Names [.text "sensors", .text "knock1", .text k] fun c => some (f (c.cfg.knock 0))
  | knock2 {k f} (h : (k, f) ∈ knockSettings) :
      Names [.text "sensors", .text "knock2", .text k] fun c => some (f (c.cfg.knock 1))
  | fueling {k f} (h : (k, f) ∈ fuelingSettings) :
      Names [.text "fueling", .text k] fun c => some (f c.cfg.fueling)
  | crank {k f} (h : (k, f) ∈ crankSettings) :
      Names [.text "fueling", .text "crank-enrich", .text k] fun c => some (f c.cfg.fueling)
  | ignition {k f} (h : (k, f) ∈ ignitionSettings) :
      Names [.text "ignition", .text k] fun c => some (f c.cfg.ignition)
  | boost {k f} (h : (k, f) ∈ boostSettings) :
      Names [.text "boost-control", .text k] fun c => some (f c.cfg.boost)
  | cel {k f} (h : (k, f) ∈ celSettings) :
      Names [.text "check-engine-light", .text k] fun c => some (f c.cfg.cel)
  | freq (i : Fin 4) {k f} (h : (k, f) ∈ freqSettings) :
      Names [.text "freq", .int i, .text k] fun c => some (f (c.freq i))
  | logging : Names [.text "test", .text "event-logging"] fun c => some (.bool c.logging)
  | testRpm : Names [.text "test", .text "test-trigger-rpm"] fun c => some (num32 c.testRpm)
  | axis1 {p t} (h : (p, t) ∈ tables1) (i : Fin maxAxis) :
      Names (p ++ [.text "horizontal-axis", .text "values", .int i]) fun c =>
        (t c.cfg).bind fun t => t.cols.shown i
  | data1 {p t} (h : (p, t) ∈ tables1) (i : Fin maxAxis) :
      Names (p ++ [.text "data", .int i]) fun c =>
        (t c.cfg).bind fun t => if i < t.cols.num then some (.flt (t.data i)) else none
  | cols2 {p t} (h : (p, t) ∈ tables2) (i : Fin maxAxis) :
      Names (p ++ [.text "horizontal-axis", .text "values", .int i]) fun c =>
        (t c.cfg).bind fun t => t.cols.shown i
  | rows2 {p t} (h : (p, t) ∈ tables2) (i : Fin maxAxis) :
      Names (p ++ [.text "vertical-axis", .text "values", .int i]) fun c =>
        (t c.cfg).bind fun t => t.rows.shown i
  | data2 {p t} (h : (p, t) ∈ tables2) (r i : Fin maxAxis) :
      Names (p ++ [.text "data", .int r, .int i]) fun c =>
        (t c.cfg).bind fun t => if r < t.rows.num ∧ i < t.cols.num then some (.flt (t.data r i)) else none

/-- What each value of the feed is. -/
def feedQuantities [FloatFmt] : List (String × (FeedState → Item)) := [
  ("cputime", fun s => num32 s.now),
  ("ve", fun s => .flt s.vals.ve),
  ("lambda", fun s => .flt s.vals.lambda),
  ("fuel_pulsewidth_us", fun s => num32 s.vals.fuelingUs),
  ("temp_enrich_percent", fun s => .flt s.vals.ete),
  ("injector_dead_time", fun s => .flt s.vals.idt),
  ("injector_pw_correction", fun s => .flt s.vals.pwc),
  ("accel_enrich_percent", fun s => .flt s.vals.tipin),
  ("airmass_per_cycle", fun s => .flt s.vals.airmass),
  ("advance", fun s => .flt s.vals.timingAdvance),
  ("dwell", fun s => num32 s.vals.dwellUs),
  ("rpm_cut", fun s => .int (if s.vals.rpmLimitCut then 1 else 0)),
  ("boost_cut", fun s => .int (if s.vals.boostCut then 1 else 0)),
  ("fuel_overduty_cut", fun s => .int (if s.vals.overdutyCut then 1 else 0)),
  ("sensor.map", fun s => .flt (s.cfg.sensors 0).value),
  ("sensor.iat", fun s => .flt (s.cfg.sensors 1).value),
  ("sensor.clt", fun s => .flt (s.cfg.sensors 2).value),
  ("sensor.brv", fun s => .flt (s.cfg.sensors 3).value),
  ("sensor.tps", fun s => .flt (s.cfg.sensors 4).value),
  ("sensor.tps.rate", fun s => .flt (s.cfg.sensors 4).derivative),
  ("sensor.aap", fun s => .flt (s.cfg.sensors 5).value),
  ("sensor.frt", fun s => .flt (s.cfg.sensors 6).value),
  ("sensor.ego", fun s => .flt (s.cfg.sensors 7).value),
  ("sensor.frp", fun s => .flt (s.cfg.sensors 8).value),
  ("sensor.eth", fun s => .flt (s.cfg.sensors 9).value),
  ("knock1.value", fun s => .flt (s.cfg.knock 0).value),
  ("knock2.value", fun s => .flt (s.cfg.knock 1).value),
  ("rpm", fun s => num32 s.cfg.decoder.rpm),
  ("tooth_rpm", fun s => num32 s.cfg.decoder.toothRpm),
  ("sync", fun s => .int (if s.cfg.decoder.valid then 1 else 0)),
  ("loss", fun s => .int (match s.cfg.decoder.loss with
    | .noLoss => 0 | .variation => 1 | .triggercountHigh => 2 | .triggercountLow => 3 | .expired => 4
    | .overflow => 5)),
  ("rpm_variance", fun s => .flt s.cfg.decoder.curRpmChange),
  ("last_trigger_angle", fun s => .flt s.cfg.decoder.lastTriggerAngle),
  ("t0_count", fun s => num32 s.cfg.decoder.t0Count),
  ("t1_count", fun s => num32 s.cfg.decoder.t1Count)]

end Verif
