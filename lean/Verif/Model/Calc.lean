/-
Model of src/calculations.c and src/calculations.h.
-/
import Verif.Model.Config

namespace Verif

/-- src/calculations.h:38-58 `struct calculated_values`.  The three cut flags are only ever 0 or 1. -/
structure CalcValues where
  timingAdvance : Fl
  dwellUs : BitVec 32
  rpmLimitCut : Bool
  boostCut : Bool
  overdutyCut : Bool
  fuelingUs : BitVec 32
  tipin : Fl
  airmass : Fl
  fuelvol : Fl
  idt : Fl
  pwc : Fl
  lambda : Fl
  ve : Fl
  ete : Fl
  deriving DecidableEq

section
variable [FloatFmt]

/-- src/calculations.c:8-16 `fuel_overduty`. -/
def fuelOverduty (c : Config) (v : CalcValues) : Except Fault (Bool × CalcValues) := do
  let t ← timeFromRpmDiff c.decoder.rpm (Fl.fin 720)
  if c.fueling.injections = 0 then .error .divZero
  else do
    let pw ← timeFromUs v.fuelingUs
    let cut := decide ((t.udiv c.fueling.injections).toNat ≤ pw.toNat)
    return (cut, { v with overdutyCut := cut })

/-- src/calculations.c:18-26 `rpm_cut`. -/
def rpmCut (c : Config) (v : CalcValues) : Bool × CalcValues :=
  let cut := if c.rpmStop.toNat ≤ c.decoder.rpm.toNat then true else v.rpmLimitCut
  let cut := if c.decoder.rpm.toNat < c.rpmStart.toNat then false else cut
  (cut, { v with rpmLimitCut := cut })

/-- src/calculations.c:28-32 `boost_cut`. -/
def boostCut (c : Config) (v : CalcValues) : Bool × CalcValues :=
  let cut := Fl.lt c.boost.overboost (c.sensors sensorMap).value
  (cut, { v with boostCut := cut })

/-- src/calculations.c:34-36 `ignition_cut` (and 38-40 `fuel_cut`): `||` evaluates from the left and
stops at the first true operand. -/
def ignitionCut (c : Config) (v : CalcValues) : Except Fault (Bool × CalcValues) :=
  let (r, v) := rpmCut c v
  if r then .ok (true, v)
  else do
    let (o, v) ← fuelOverduty c v
    if o then return (true, v) else return boostCut c v

/-- A table pointer that is used without a test. -/
def deref {α : Type} : Option α → Except Fault α
  | none => .error .nullDeref
  | some t => .ok t

/-- src/calculations.c:45-58: the dwell, by mode. -/
def dwellTime (c : Config) : Except Fault (BitVec 32) :=
  match c.ignition.dwell with
  | .fixedDuty => do
    let t ← timeFromRpmDiff c.decoder.rpm (Fl.fin 45)
    return t.udiv 4
  | .fixedTime => Fl.toU32 c.ignition.dwellUs
  | .brv => do
    let t ← deref c.dwell
    let ms ← interp1 t (c.sensors sensorBrv).value
    Fl.toU32 (Fl.fin 1000 * ms)

/-- src/calculations.c:42-59 `calculate_ignition`. -/
def calculateIgnition (c : Config) (v : CalcValues) : Except Fault CalcValues := do
  let t ← deref c.timing
  let adv ← interp2 t (Fl.ofU32 c.decoder.rpm) (c.sensors sensorMap).value
  let dw ← dwellTime c
  return { v with timingAdvance := adv, dwellUs := dw }

/-- src/calculations.c:62-66 `air_density`. -/
def airDensity (f : FuelingCfg) (iat : Fl) : Fl :=
  let k : Fl := FloatFmt.rnd (27315 / 100)
  f.airDensity * (k / (iat + k))

/-- src/calculations.c:69-73 `fuel_density`. -/
def fuelDensity (f : FuelingCfg) (frt : Fl) : Fl :=
  f.fuelDensity - ((frt - Fl.fin 15) * Fl.fin 950 / Fl.fin 1000000)

/-- src/calculations.c:76-85 `calculate_airmass`. -/
def calcAirmass (f : FuelingCfg) (ve map iat : Fl) : Fl :=
  (ve / Fl.fin 100) * (map / Fl.fin 100) * f.cylinderCc * airDensity f iat

/-- src/calculations.c:89-94 `calculate_fuel_volume`. -/
def calcFuelVolume (f : FuelingCfg) (airmass frt : Fl) : Fl :=
  airmass / f.stoich / fuelDensity f frt

/-- src/calculations.c:98-103: the static `current` of `calculate_tipin_enrichment`. -/
structure Tipin where
  time : Time
  length : Time
  amount : Fl
  active : Bool
  deriving DecidableEq

/-- The initial value `{ 0 }`. -/
def Tipin.init : Tipin := { time := 0, length := 0, amount := Fl.fin 0, active := false }

/-- src/calculations.c:113-118: an event whose time is over is no longer active. -/
def tipinExpire (now : Time) (s : Tipin) : Tipin :=
  if s.active && !(timeInRange now s.time (s.time + s.length)) then { s with active := false } else s

/-- src/calculations.c:120-127: a larger demand, or any demand when none is active, starts an event. -/
def tipinStart (dur : Table1d) (now : Time) (rpm : BitVec 32) (s : Tipin) (new : Fl) : Except Fault Tipin :=
  if Fl.lt s.amount new || !s.active then do
    let ms ← interp1 dur (Fl.ofInt rpm.toInt)
    let us ← Fl.toU32 (ms * Fl.fin 1000)
    let len ← timeFromUs us
    return { time := now, length := len, amount := new, active := true }
  else return s

/-- src/calculations.c:97-129 `calculate_tipin_enrichment`. -/
def calcTipin (c : Config) (now : Time) (s : Tipin) (tps tpsrate : Fl) (rpm : BitVec 32) :
    Except Fault (Fl × Tipin) :=
  match c.tipinAmount, c.tipinDuration with
  | some amt, some dur => do
    let new ← interp2 amt tpsrate tps
    let s ← tipinStart dur now rpm (tipinExpire now s) new
    return (s.amount, s)
  | _, _ => .ok (Fl.fin 0, s)

/-- A table lookup with a default for a missing table. -/
def look2 (t : Option Table2d) (x y dflt : Fl) : Except Fault Fl :=
  match t with
  | some t => interp2 t x y
  | none => .ok dflt

def look1 (t : Option Table1d) (x dflt : Fl) : Except Fault Fl :=
  match t with
  | some t => interp1 t x
  | none => .ok dflt

/-- src/calculations.c:167-177: warm-up enrichment, overridden while cranking cold. -/
def enrichment (c : Config) : Except Fault Fl := do
  let e ← look2 c.tempEnrich (c.sensors sensorClt).value (c.sensors sensorMap).value (Fl.fin 1)
  if Fl.lt (Fl.ofU32 c.decoder.rpm) c.fueling.crankRpm && Fl.lt (c.sensors sensorClt).value c.fueling.crankTemp then
    return c.fueling.crankAmt
  else return e

/-- src/calculations.c:189-194 `raw_pw_us`. -/
def rawPw (f : FuelingCfg) (fuelvol tipin : Fl) : Fl :=
  (fuelvol + tipin / Fl.fin 1000) / f.injectorCc * Fl.fin 60000000 / Fl.ofU32 f.injections

/-- src/calculations.c:131-210 `calculate_fueling`, with the static state of the tip-in code. -/
def calculateFueling (c : Config) (now : Time) (s : Tipin) (v : CalcValues) :
    Except Fault (CalcValues × Tipin) := do
  let rpm := Fl.ofU32 c.decoder.rpm
  let map := (c.sensors sensorMap).value
  let ve ← look2 c.ve rpm map (Fl.fin 100)
  let lambda ← look2 c.lambda rpm map (Fl.fin 1)
  let idt ← look1 c.deadtime (c.sensors sensorBrv).value (Fl.fin 1)
  let ete ← enrichment c
  let (tipin, s) ← calcTipin c now s (c.sensors sensorTps).value (c.sensors sensorTps).derivative c.decoder.rpm
  let airmass := calcAirmass c.fueling ve map (c.sensors sensorIat).value
  let fuelvol := calcFuelVolume c.fueling airmass (c.sensors sensorFrt).value / lambda
  let raw := rawPw c.fueling fuelvol tipin
  let pwc ← look1 c.pwCorrection (raw / Fl.fin 1000) (Fl.fin 0)
  let us ← Fl.toU32 ((raw * ete) + (pwc * Fl.fin 1000) + (idt * Fl.fin 1000))
  return ({ v with tipin := tipin, airmass := airmass, fuelvol := fuelvol, ete := ete, idt := idt, pwc := pwc,
                   ve := ve, lambda := lambda, fuelingUs := us }, s)

end

end Verif
