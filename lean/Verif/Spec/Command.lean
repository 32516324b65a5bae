/-
What the settings and the inputs command.
-/
import Verif.Spec.Pulses
import Verif.Model.Engine

namespace Verif

/-- The settings `c`, at `r` revolutions per minute and with the sensor values `s`. -/
def atSpeed (c : Config) (r : BitVec 32) (s : Fin numSensors → Sensor) : Config :=
  { c with decoder := { c.decoder with rpm := r }, sensors := s }

variable [FloatFmt]

/-- What is assumed of the inputs.  The triggers are given in order, each is handled within `late` ticks, and the sensor values
satisfy `S`. -/
def InputsOn (ev : ℕ → Int × ℤ) (late : ℤ) (S : (Fin numSensors → Sensor) → Prop) (n : ℤ) (e : Engine) : Prop :=
  EventsGiven ev n e ∧ HandledBy (fun j => (ev j).2) late n e ∧ S e.cfg.sensors

/-- The settings `c` are such that at the speeds of `SpeedIn g p q`, with sensor values that satisfy `S`, the advance is within `δ` of `V`, the
dwell `dlo` to `dhi` ticks, of a quarter microsecond, and the fuel pulse `flo` to `fhi` ticks, and no limit is reached.  `Ti` is satisfied by
the state of the acceleration enrichment. -/
structure Commands (c : Config) (S : (Fin numSensors → Sensor) → Prop) (Ti : Tipin → Prop) (g : ℚ) (p q : ℤ) (V δ : ℚ) (dlo dhi flo fhi : ℤ) : Prop where
  spark : ∀ r s v v', SpeedIn g p q r → S s → calculateIgnition (atSpeed c r s) v = .ok v' → ∃ a, v'.timingAdvance = .fin a ∧ |a - V| ≤ δ
  dwell : ∀ r s v v', SpeedIn g p q r → S s → calculateIgnition (atSpeed c r s) v = .ok v' →
    dlo ≤ 4 * (v'.dwellUs.toNat : ℤ) ∧ 4 * (v'.dwellUs.toNat : ℤ) ≤ dhi
  fuel : ∀ r s now i v v' i', SpeedIn g p q r → S s → Ti i → calculateFueling (atSpeed c r s) now i v = .ok (v', i') →
    flo ≤ 4 * (v'.fuelingUs.toNat : ℤ) ∧ 4 * (v'.fuelingUs.toNat : ℤ) ≤ fhi
  tipin : ∀ r s now i v v' i', S s → Ti i → calculateFueling (atSpeed c r s) now i v = .ok (v', i') → Ti i'
  revs : ∀ r, SpeedIn g p q r → r.toNat < c.rpmStart.toNat
  boost : ∀ s, S s → Fl.lt c.boost.overboost (s sensorMap).value = false
  duty : ∀ r t, SpeedIn g p q r → timeFromRpmDiff r (.fin 720) = .ok t → fhi < (t.udiv c.fueling.injections).toNat
  short : fhi ≤ 2 ^ 26

/-- With sensor values that satisfy `S` the advance depends on the speed alone. -/
def SteadyAdvance (c : Config) (S : (Fin numSensors → Sensor) → Prop) : Prop :=
  ∀ r s s' v v' w w', S s → S s' → calculateIgnition (atSpeed c r s) v = .ok w → calculateIgnition (atSpeed c r s') v' = .ok w' →
    w.timingAdvance = w'.timingAdvance

end Verif
