/-
What it takes for a trigger to be processed without undefined behaviour: limits on the settings, on the spacing of the
triggers and on the sensor values.
-/
import Verif.Spec.Decoder
import Verif.Spec.Engine
import Verif.Proofs.TableFl

namespace Verif

/-- Settings of a wheel with `g` degrees per tooth and tolerance `v`: at most 36 teeth remembered, 9 to 180 degrees per
tooth; a missing-tooth wheel of 300 to 360 degrees in all, an even one with an averaging window of at most 720 degrees. -/
structure WheelSafe (d : Decoder) (g v : ℚ) : Prop where
  pitch : d.degreesPerTrigger = .fin g
  tolerance : d.maxRpmChange = .fin v
  v0 : 0 ≤ v
  v1 : v ≤ 1
  g9 : 9 ≤ g
  g180 : g ≤ 180
  teeth : TeethLimits d.requiredTriggersRpm d.numTriggers d.rpmWindowSize
  missing : d.type = .missingNosync ∨ d.type = .missingCamsync →
    2 ≤ d.numTriggers.toNat ∧ 300 ≤ g * d.numTriggers.toNat ∧ g * d.numTriggers.toNat ≤ 360
  even : d.type = .evenNosync ∨ d.type = .evenCamsync → g * d.rpmWindowSize.toNat ≤ 720

/-- The trigger `k` at `t` counts as a tooth. -/
def IsTooth (d : Decoder) (k : Int) : Prop := k = 0 ∨ d.type = .evenNosync

/-- A tooth comes at least one tick and at most 5000000 ticks (1.25 s) after the tooth before it, unless no tooth has been
counted since the decoder was last reset.  On an even wheel its time also differs from all remembered times: the averaging
window may reach back to a time from before the reset. -/
def Spaced (d : Decoder) (k : Int) (t : Time) : Prop :=
  IsTooth d k →
    (0 < d.currentTriggersRpm.toNat → 1 ≤ (t - d.times 0).toNat ∧ (t - d.times 0).toNat ≤ 5000000) ∧
    (d.type = .evenNosync ∨ d.type = .evenCamsync → ∀ i, t ≠ d.times i)

/-- An axis with at least one breakpoint that does not fill its array, whose breakpoints rise by at least 2^-20.  The entry
after the last breakpoint, which a lookup at the top of the table reads, is a number other than the last breakpoint. -/
def AxisSane (a : Axis) : Prop :=
  (0 < a.num ∧ a.num < maxAxis) ∧
  (∀ i : Fin maxAxis, i ≤ a.num → a.values i = .fin (a.values i).toQ ∧ |(a.values i).toQ| ≤ 2 ^ 60) ∧
  ∀ i j : Fin maxAxis, (i : Nat) + 1 = j → (j < a.num → 1 / 2 ^ 20 ≤ (a.values j).toQ - (a.values i).toQ) ∧
    (j = a.num → 1 / 2 ^ 64 ≤ |(a.values j).toQ - (a.values i).toQ|)

instance (a : Axis) : Decidable (AxisSane a) := by unfold AxisSane; infer_instance

/-- A table whose used entries are between `lo` and `hi`.  The entry after the last is any number. -/
def TableIn1 [FloatFmt] (t : Table1d) (lo hi : ℚ) : Prop :=
  AxisSane t.cols ∧
  ∀ i : Fin maxAxis, i ≤ t.cols.num →
    t.data i = .fin (t.data i).toQ ∧ FloatFmt.rnd (t.data i).toQ = .fin (t.data i).toQ ∧ |(t.data i).toQ| ≤ 2 ^ 40 ∧
    (i < t.cols.num → lo ≤ (t.data i).toQ ∧ (t.data i).toQ ≤ hi)

/-- A table whose used entries are between `lo` and `hi`.  The entries after the last row and column are any numbers. -/
def TableIn2 (t : Table2d) (lo hi : ℚ) : Prop :=
  (AxisSane t.cols ∧ AxisSane t.rows) ∧
  ∀ j i : Fin maxAxis, j ≤ t.rows.num → i ≤ t.cols.num →
    t.data j i = .fin (t.data j i).toQ ∧ |(t.data j i).toQ| ≤ 2 ^ 40 ∧
    (j < t.rows.num → i < t.cols.num → lo ≤ (t.data j i).toQ ∧ (t.data j i).toQ ≤ hi)

instance [FloatFmt] (t : Table1d) (lo hi : ℚ) : Decidable (TableIn1 t lo hi) := by unfold TableIn1; infer_instance
instance (t : Table2d) (lo hi : ℚ) : Decidable (TableIn2 t lo hi) := by unfold TableIn2; infer_instance

/-- The float is a number between `a` and `b`. -/
def Within (x : Fl) (a b : ℚ) : Prop := ∃ q, x = .fin q ∧ a ≤ q ∧ q ≤ b

/-- The sensor values in use: manifold pressure up to 500 kPa, air and fuel temperatures a fuel computer can meet, and numbers
for the rest. -/
structure SensorsSafe (s : Fin numSensors → Sensor) : Prop where
  map : Within (s sensorMap).value 0 500
  iat : Within (s sensorIat).value (-60) 1000
  frt : Within (s sensorFrt).value (-100) 100
  clt : (s sensorClt).value ≠ .nan
  brv : (s sensorBrv).value ≠ .nan
  tps : (s sensorTps).value ≠ .nan
  tpsRate : (s sensorTps).derivative ≠ .nan

/-- Settings used by the calculations. -/
structure CalcSafe [FloatFmt] (c : Config) : Prop where
  timing : ∃ t, c.timing = some t ∧ TableIn2 t (-100) 100
  ve : ∀ t, c.ve = some t → TableIn2 t 0 250
  lambda : ∀ t, c.lambda = some t → TableIn2 t (1 / 2) 4
  deadtime : ∀ t, c.deadtime = some t → TableIn1 t 0 50
  pwCorrection : ∀ t, c.pwCorrection = some t → TableIn1 t 0 50
  enrich : ∀ t, c.tempEnrich = some t → TableIn2 t 0 3
  tipinAmount : ∀ t, c.tipinAmount = some t → TableIn2 t 0 4000
  tipinDuration : ∀ t, c.tipinDuration = some t → TableIn1 t 0 10000
  dwellTable : c.ignition.dwell = .brv → ∃ t, c.dwell = some t ∧ TableIn1 t 0 1000
  dwellTime : c.ignition.dwell = .fixedTime → Within c.ignition.dwellUs 0 (2 ^ 28)
  minFire : c.ignition.minFireUs.toNat ≤ 2 ^ 28
  injector : Within c.fueling.injectorCc 128 (2 ^ 20)
  cylinder : Within c.fueling.cylinderCc 0 1000
  stoich : Within c.fueling.stoich 4 1000
  injections : 1 ≤ c.fueling.injections.toNat
  airDensity : Within c.fueling.airDensity 0 (1 / 512)
  fuelDensity : Within c.fueling.fuelDensity (1 / 2) 2
  crankAmt : Within c.fueling.crankAmt 0 4
  offset : Within c.decoder.offset (-4096) 4096
  angles : ∀ i, Within (c.events i).angle (-4096) 4096

/-- What the calculations leave for the scheduling. -/
structure ValsSafe (v : CalcValues) : Prop where
  advance : Within v.timingAdvance (-128) 128
  dwell : v.dwellUs.toNat ≤ 2 ^ 28
  fueling : v.fuelingUs.toNat ≤ 2 ^ 28 + 2 ^ 18

/-- The amount remembered by the tip-in calculation. -/
def TipinSafe (s : Tipin) : Prop := Within s.amount 0 4096

/-- The output side is within 2^28 ticks (67 s) of the last tooth. -/
def Prompt (last earliest : Time) : Prop := (last - earliest + 268435456).toNat ≤ 536870912

/-- What is assumed of each step, in the state where it is taken: teeth are spaced, the main loop and the buffer swaps keep up
with the teeth, the timer interrupt comes when the first callback is due, and the sensors stay in range.  On an even wheel the
engine also has not come to rest with a callback pending. -/
def StepOk (e : Engine) : EngAct → Prop
  | .work _ => (∀ k t, e.pc = .record k t → e.log.recPc = .idle → Spaced e.cfg.decoder k t) ∧
      (∀ i, e.pc = .loop i → Prompt e.cfg.decoder.lastTriggerTime e.dma.earliest)
  | .timer now => e.pc = .idle →
      (∃ c, 0 < e.q.n ∧ e.q.arr 0 = some c ∧ timeBeforeOrEqual (e.q.time c) now = true) ∧
      Prompt e.cfg.decoder.lastTriggerTime e.dma.earliest ∧
      (e.cfg.decoder.type = .evenNosync ∨ e.cfg.decoder.type = .evenCamsync → 1 ≤ e.cfg.decoder.rpm.toNat)
  | .sensors s => SensorsSafe s
  | _ => True

/-- Every step of the run meets its assumptions. -/
def RunOk [FloatFmt] (e : Engine) : List EngAct → Prop
  | [] => True
  | a :: as => StepOk e a ∧ ∀ e', engStep e a = .ok e' → RunOk e' as

/-- Settings and data in range when the firmware starts.  The calculated values are zero then. -/
structure EngSetup [FloatFmt] (e : Engine) : Prop where
  wheel : ∃ g v, WheelSafe e.cfg.decoder g v
  settings : CalcSafe e.cfg
  sensors : SensorsSafe e.cfg.sensors
  vals : ValsSafe e.vals
  tipin : TipinSafe e.tipin

end Verif
