/-
What it takes for every injector to open in every cycle.
-/
import Verif.Spec.Firing

namespace Verif

variable [FloatFmt]

/-- What is assumed of the states of a run.  The triggers are given in order.  From trigger `k0` on, each of them is handled
within `late` ticks, the fuel pulse is `dlo` to `dhi` ticks long, of a quarter microsecond, and nothing is cut. -/
def InjectingOn (ev : ℕ → Int × ℤ) (k0 : ℕ) (late : ℤ) (dlo dhi : ℤ) (n : ℤ) (e : Engine) : Prop :=
  EventsGiven ev n e ∧ ∀ k, Decoded k e → k0 ≤ k → HandledBy (fun j => (ev j).2) late n e ∧
    dlo ≤ 4 * (e.vals.fuelingUs.toNat : ℤ) ∧ 4 * (e.vals.fuelingUs.toNat : ℤ) ≤ dhi ∧ NoCut e

/-- The same where the triggers are the teeth of a crank wheel, from the second synchronised tooth on. -/
def Injecting (T : ℕ → ℤ) (n0 : ℕ) (late : ℤ) (dlo dhi : ℤ) (n : ℤ) (e : Engine) : Prop :=
  InjectingOn (fun j => (0, T j)) (n0 + 2) late dlo dhi n e

end Verif
