/-
Model of src/sensors.c and src/sensors.h.
-/
import Verif.Model.Decoder
import Verif.Model.Table

namespace Verif

/-- src/sensors.h:21-27 `sensor_source`. -/
inductive SensorSource
  | none
  | adc
  | freq
  | pulsewidth
  | const
  deriving DecidableEq

/-- src/sensors.h:29-33 `sensor_method`. -/
inductive SensorMethod
  | linear
  | linearWindowed
  | therm
  deriving DecidableEq

/-- src/sensors.h:35-39 `sensor_fault`. -/
inductive SensorFault
  | none
  | range
  | conn
  deriving DecidableEq

/-- src/sensors.h:66-75 `struct window`.  `collecting` is only ever 0 or 1. -/
structure Window where
  captureWidth : BitVec 32
  totalWidth : BitVec 32
  offset : BitVec 32
  accumulator : Fl
  samples : BitVec 32
  collecting : Bool
  startAngle : Fl
  deriving DecidableEq

/-- src/sensors.h:46-83 `struct sensor_input`, with the members of `struct thermistor_config`
(41-44).  The `table` member is not used by any code and is left out. -/
structure Sensor where
  pin : BitVec 32
  source : SensorSource
  method : SensorMethod
  rangeMin : Fl
  rangeMax : Fl
  rawMin : Fl
  rawMax : Fl
  bias : Fl
  thermA : Fl
  thermB : Fl
  thermC : Fl
  lag : Fl
  faultMin : Fl
  faultMax : Fl
  faultValue : Fl
  window : Window
  time : Time
  rawValue : Fl
  value : Fl
  derivative : Fl
  fault : SensorFault
  deriving DecidableEq

/-- NUM_SENSORS, src/sensors.h:8-20. -/
abbrev numSensors : Nat := 10

abbrev sensorMap : Fin numSensors := 0
abbrev sensorIat : Fin numSensors := 1
abbrev sensorClt : Fin numSensors := 2
abbrev sensorBrv : Fin numSensors := 3
abbrev sensorTps : Fin numSensors := 4
abbrev sensorFrt : Fin numSensors := 6
abbrev sensorEgo : Fin numSensors := 7

/-- MAX_ADC_PINS, src/sensors.h:6. -/
abbrev maxAdcPins : Nat := 16

/-- The C library's `logf` and `cosf`: any functions on floats. -/
class LibM where
  logf : Fl → Fl
  cosf : Fl → Fl

section
variable [FloatFmt]

/-- src/sensors.c:8-14 `sensor_convert_linear`. -/
def convertLinear (s : Sensor) : Fl :=
  if Fl.feq s.rawMax s.rawMin then Fl.fin 0
  else
    let partial' := (s.rawValue - s.rawMin) / (s.rawMax - s.rawMin)
    s.rangeMin + partial' * (s.rangeMax - s.rangeMin)

/-- src/sensors.c:19-23, the loop: `i` from the given value in steps of `total_width`.  With a zero
step it does not end; otherwise 721 turns are enough. -/
def windowLoop (w : Window) (cur : Fl) : Nat → BitVec 32 → Except Fault Bool
  | 0, _ => .error .diverge
  | fuel + 1, i =>
    if i.toNat < 720 then
      if Fl.le (Fl.ofU32 i) cur && Fl.lt cur (Fl.ofU32 (i + w.captureWidth)) then .ok true
      else windowLoop w cur fuel (i + w.totalWidth)
    else .ok false

/-- src/sensors.c:16-25 `current_angle_in_window`. -/
def angleInWindow (w : Window) (angle : Fl) : Except Fault Bool := do
  let cur ← clampAngle (angle - Fl.ofU32 w.offset) (Fl.fin 720)
  windowLoop w cur 722 0

/-- src/sensors.c:38-40: outside the window, or further than a window's width from its start.  The
second operand is only evaluated inside the window. -/
def windowOver (w : Window) (angle : Fl) (inside : Bool) : Except Fault Bool :=
  if inside then do
    let a ← clampAngle (angle - w.startAngle) (Fl.fin 720)
    return Fl.le (Fl.ofU32 w.captureWidth) a
  else .ok true

/-- src/sensors.c:42-45: close the window; the new window state and the result. -/
def windowClose (s : Sensor) (over : Bool) : Window × Fl :=
  if over && s.window.collecting && decide (s.window.samples ≠ 0) then
    ({ s.window with collecting := false }, s.window.accumulator / Fl.ofU32 s.window.samples)
  else (s.window, s.value)

/-- src/sensors.c:49-59: open a window if needed and accumulate. -/
def windowAccumulate (s : Sensor) (w : Window) (angle : Fl) : Window :=
  let w := if w.collecting then w else { w with startAngle := angle, accumulator := Fl.fin 0, samples := 0 }
  { w with collecting := true, accumulator := w.accumulator + convertLinear s, samples := w.samples + 1 }

/-- src/sensors.c:27-63 `sensor_convert_linear_windowed`.  `angle` is `current_angle()`. -/
def convertWindowed (rpm : BitVec 32) (s : Sensor) (angle : Fl) : Except Fault (Window × Fl) :=
  if rpm = 0 then .ok (s.window, convertLinear s)
  else do
    let inside ← angleInWindow s.window angle
    let over ← windowOver s.window angle inside
    let (w, result) := windowClose s over
    if inside then return (windowAccumulate s w angle, result) else return (w, result)

/-- src/sensors.c:65-76 `sensor_convert_thermistor`. -/
def convertThermistor [LibM] (s : Sensor) : Fl :=
  if Fl.feq s.rawValue (Fl.fin 0) then Fl.fin 0
  else
    let r := s.bias / (s.rawMax / s.rawValue - Fl.fin 1)
    let l := LibM.logf r
    let t := Fl.fin 1 / (s.thermA + s.thermB * l + s.thermC * l * l * l)
    t - FloatFmt.rnd (27315 / 100)

/-- src/sensors.c:78-91 `detect_faults`. -/
def detectFaults (s : Sensor) : SensorFault :=
  if s.fault ≠ .none then s.fault
  else if !(Fl.feq s.faultMax (Fl.fin 0)) then
    if Fl.lt s.rawValue s.faultMin || Fl.lt s.faultMax s.rawValue then .range else .none
  else .none

/-- src/sensors.c:93-97 `process_derivative`; `rate` is `platform_adc_samplerate()`. -/
def processDerivative (rate : BitVec 32) (s : Sensor) (new : Fl) : Except Fault Fl :=
  if rate = 0 then .error .divZero
  else do
    let t ← timeFromUs (BitVec.ofNat 32 (1000000 / rate.toNat))
    return Fl.ofNat tickrate * (new - s.value) / Fl.ofU32 t

/-- src/sensors.c:99-105 `process_lag_filter`. -/
def processLag (s : Sensor) (new : Fl) : Fl :=
  if Fl.feq s.lag (Fl.fin 0) then new
  else ((s.value * s.lag) + (new * (Fl.fin 100 - s.lag))) / Fl.fin 100

/-- src/sensors.c:118-128: conversion by method, with the new window state. -/
def convertByMethod [LibM] (d : Decoder) (now : Time) (s : Sensor) : Except Fault (Window × Fl) :=
  match s.method with
  | .linear => .ok (s.window, convertLinear s)
  | .linearWindowed => do
    let a ← currentAngle d now
    convertWindowed d.rpm s a
  | .therm => .ok (s.window, convertThermistor s)

/-- src/sensors.c:107-140 `sensor_convert`. -/
def sensorConvert [LibM] (rate : BitVec 32) (d : Decoder) (now : Time) (s : Sensor) (raw : Fl) (t : Time) :
    Except Fault Sensor :=
  let s := { s with rawValue := raw, time := t }
  if detectFaults s ≠ .none then .ok { s with value := s.faultValue, derivative := Fl.fin 0 }
  else do
    let (w, v) ← convertByMethod d now s
    let v := processLag s v
    let dv ← processDerivative rate s v
    return { s with window := w, value := v, derivative := dv }

/-- src/sensors.h:125-132 `struct freq_update`. -/
structure FreqUpdate where
  time : Time
  valid : Bool
  pin : BitVec 32
  frequency : Fl
  pulsewidth : Fl

/-- src/sensors.h:134-138 `struct adc_update`. -/
structure AdcUpdate where
  time : Time
  valid : Bool
  values : Fin maxAdcPins → Fl

/-- src/sensors.c:144-159, one turn of the loop of `sensor_update_freq`. -/
def freqOne [LibM] (rate : BitVec 32) (d : Decoder) (now : Time) (u : FreqUpdate) (s : Sensor) :
    Except Fault Sensor :=
  if s.pin ≠ u.pin then .ok s
  else match s.source with
    | .freq => sensorConvert rate d now { s with fault := if u.valid then .none else .conn } u.frequency u.time
    | .pulsewidth => sensorConvert rate d now { s with fault := if u.valid then .none else .conn } u.pulsewidth u.time
    | _ => .ok s

/-- src/sensors.c:165-174, one turn of the loop of `sensor_update_adc`. -/
def adcOne [LibM] (rate : BitVec 32) (d : Decoder) (now : Time) (u : AdcUpdate) (s : Sensor) :
    Except Fault Sensor :=
  if s.source ≠ .adc then .ok s
  else if s.pin.toNat ≥ maxAdcPins then .ok s
  else do
    let v ← rd u.values s.pin.toNat
    sensorConvert rate d now { s with fault := if u.valid then .none else .conn } v u.time

/-- One turn of either loop, on the array. -/
def updateAt {n : Nat} (f : Sensor → Except Fault Sensor) (ss : Fin n → Sensor) (i : Fin n) :
    Except Fault (Fin n → Sensor) := do
  let s ← f (ss i)
  return fun j => if j = i then s else ss j

/-- src/sensors.c:142-161 `sensor_update_freq`. -/
def updateFreq [LibM] (rate : BitVec 32) (d : Decoder) (now : Time) (u : FreqUpdate)
    (ss : Fin numSensors → Sensor) : Except Fault (Fin numSensors → Sensor) :=
  (List.finRange numSensors).foldlM (updateAt (freqOne rate d now u)) ss

/-- src/sensors.c:163-175 `sensor_update_adc`. -/
def updateAdc [LibM] (rate : BitVec 32) (d : Decoder) (now : Time) (u : AdcUpdate)
    (ss : Fin numSensors → Sensor) : Except Fault (Fin numSensors → Sensor) :=
  (List.finRange numSensors).foldlM (updateAt (adcOne rate d now u)) ss

end

/-- src/sensors.c:177-185 `sensor_fault_status`. -/
def faultStatus (ss : Fin numSensors → Sensor) : BitVec 32 :=
  (List.finRange numSensors).foldl
    (fun f i => if (ss i).fault ≠ .none then f ||| (1#32 <<< (i : Nat)) else f) 0

/-- src/sensors.h:102-119 `struct knock_input` with its state. -/
structure Knock where
  frequency : Fl
  threshold : Fl
  width : BitVec 32
  freq : BitVec 32
  w : Fl
  cr : Fl
  nSamples : BitVec 32
  sprev : Fl
  sprev2 : Fl
  value : Fl
  deriving DecidableEq

section
variable [FloatFmt]

/-- src/sensors.c:187-201 `knock_configure`; `rate` is `platform_knock_samplerate()`. -/
def knockConfigure [LibM] (rate : BitVec 32) (k : Knock) : Except Fault Knock := do
  let bucketsize := Fl.ofU32 rate / Fl.fin 64
  let bucket ← Fl.toU32 ((k.frequency + bucketsize) / bucketsize)
  let w := Fl.fin 2 * FloatFmt.rnd (314159 / 100000) * Fl.ofU32 bucket / Fl.ofU32 64
  return { k with width := 64, freq := bucket, w := w, cr := LibM.cosf w, nSamples := 0,
                  sprev := Fl.fin 0, sprev2 := Fl.fin 0 }

/-- src/sensors.c:203-221 `knock_add_sample`. -/
def knockAdd (k : Knock) (sample : Fl) : Knock :=
  let n := k.nSamples + 1
  let s := sample + k.cr * Fl.fin 2 * k.sprev - k.sprev2
  let p2 := k.sprev
  let p := s
  if n = 64 then
    { k with value := p * p + p2 * p2 - p * p2 * k.cr * Fl.fin 2, nSamples := 0,
             sprev := Fl.fin 0, sprev2 := Fl.fin 0 }
  else { k with nSamples := n, sprev := p, sprev2 := p2 }

/-- src/sensors.c:223-230 `sensor_update_knock` on the two inputs; `samples` is the first
`n_samples` entries of the update. -/
def updateKnock (ks : Fin 2 → Knock) (pin : Int) (samples : List Fl) : Fin 2 → Knock :=
  let i : Fin 2 := if pin = 0 then 0 else 1
  fun j => if j = i then samples.foldl knockAdd (ks i) else ks j

end

end Verif
