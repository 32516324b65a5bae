/-
What C100 means by a limiter that cuts.
-/
import Verif.Spec.Engine

namespace Verif

section
variable [FloatFmt]

/-- The rev limiter cuts: the engine is not slower than the speed at which it lets go, and has reached the other one. -/
def RevCut (e : Engine) : Prop :=
  e.cfg.rpmStart.toNat ≤ e.cfg.decoder.rpm.toNat ∧
    (e.cfg.rpmStop.toNat ≤ e.cfg.decoder.rpm.toNat ∨ e.vals.rpmLimitCut = true)

/-- The injectors would be open for a whole period. -/
def DutyCut (e : Engine) : Prop := ∃ v, fuelOverduty e.cfg e.vals = .ok (true, v)

/-- The pressure in the manifold is over the limit (and the other test can be made). -/
def BoostCut (e : Engine) : Prop :=
  Fl.lt e.cfg.boost.overboost (e.cfg.sensors sensorMap).value = true ∧ ∃ r, fuelOverduty e.cfg e.vals = .ok r

/-- A limiter cuts. -/
def CutNow (e : Engine) : Prop := RevCut e ∨ DutyCut e ∨ BoostCut e

/-- Steps from `e` to `e'` during which a limiter cuts all the time, with the number of buffer swaps. -/
inductive WhileCut : Engine → Nat → Engine → Prop
  | refl (e : Engine) : CutNow e → WhileCut e 0 e
  | step {e e1 e2 : Engine} {n : Nat} (a : EngAct) : WhileCut e n e1 → SwapOk e1 a → engStep e1 a = .ok e2 →
      CutNow e2 → WhileCut e (match a with | .swap _ => n + 1 | _ => n) e2

/-- The next step of the interrupt handler looks at an output that is in use. -/
def LooksAtOutput (e : Engine) : Prop := ∃ i : Fin maxEvents, e.pc = .loop i ∧ (e.cfg.events i).type ≠ .disabled

end

end Verif
