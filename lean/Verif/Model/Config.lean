/-
Model of src/config.h, src/config.c (`config_valid`) and of the configuration structures of
src/calculations.h and src/tasks.h.
-/
import Verif.Model.Sensors
import Verif.Model.Sched

namespace Verif

/-- src/calculations.h:7-23 `struct fueling_config`. -/
structure FuelingCfg where
  injectorCc : Fl
  cylinderCc : Fl
  stoich : Fl
  injections : BitVec 32
  pumpPin : BitVec 32
  crankRpm : Fl
  crankTemp : Fl
  crankAmt : Fl
  airDensity : Fl
  fuelDensity : Fl
  deriving DecidableEq

/-- src/calculations.h:25-29 `dwell_type`. -/
inductive DwellType
  | fixedDuty
  | fixedTime
  | brv
  deriving DecidableEq

/-- src/calculations.h:31-36 `struct ignition_config`. -/
structure IgnitionCfg where
  dwell : DwellType
  dwellDuty : Fl
  dwellUs : Fl
  minFireUs : BitVec 32
  deriving DecidableEq

/-- src/tasks.h:6-13 `struct boost_control_config`. -/
structure BoostCfg where
  duty : Option Table1d
  enableKpa : Fl
  controlKpa : Fl
  controlTps : Fl
  pin : BitVec 32
  overboost : Fl

/-- src/tasks.h:15-20 `struct cel_config`. -/
structure CelCfg where
  pin : BitVec 32
  leanKpa : Fl
  leanEgo : Fl

/-- MAX_EVENTS, src/config.h:14. -/
abbrev maxEvents : Nat := 16

/-- src/config.h:16-56 `struct config`.  A null table pointer is `none`. -/
structure Config where
  events : Fin maxEvents → OEvent
  decoder : Decoder
  sensors : Fin numSensors → Sensor
  knock : Fin 2 → Knock
  timing : Option Table2d
  ve : Option Table2d
  lambda : Option Table2d
  deadtime : Option Table1d
  pwCorrection : Option Table1d
  tempEnrich : Option Table2d
  dwell : Option Table1d
  tipinAmount : Option Table2d
  tipinDuration : Option Table1d
  fueling : FuelingCfg
  ignition : IgnitionCfg
  boost : BoostCfg
  cel : CelCfg
  rpmStop : BitVec 32
  rpmStart : BitVec 32

/-- `table && !table_valid(table)` negated: a null table passes. -/
def optValid {α : Type} (valid : α → Except Fault Bool) : Option α → Except Fault Bool
  | none => .ok true
  | some t => valid t

/-- src/config.c:304-339 `config_valid`. -/
def configValid (c : Config) : Except Fault Bool := do
  if !(← optValid validTable2 c.ve) then return false
  if !(← optValid validTable2 c.timing) then return false
  if !(← optValid validTable1 c.deadtime) then return false
  if !(← optValid validTable1 c.pwCorrection) then return false
  if !(← optValid validTable2 c.lambda) then return false
  if !(← optValid validTable2 c.tipinAmount) then return false
  if !(← optValid validTable1 c.tipinDuration) then return false
  return true

end Verif
