/-
What it takes for every output to fire in every cycle.
-/
import Verif.Spec.WheelRun
import Verif.Props.Buffers

namespace Verif

/-- Every trigger that came `late` ticks ago or earlier, trigger `j` at tick `T j`, has been handled to the end. -/
def HandledBy (T : ℕ → ℤ) (late n : ℤ) (e : Engine) : Prop :=
  ∀ j, T j + late ≤ n → j + 1 < e.given.length ∨ (j + 1 = e.given.length ∧ (e.pc = .idle ∨ e.pc = .rearm))

/-- The crank turns, by `g` degrees in `p` to `q` ticks. -/
def Turning (θ : ℤ → ℚ) (g : ℚ) (p q : ℤ) : Prop :=
  ∀ t t' : ℤ, t ≤ t' → p * (θ t' - θ t) ≤ g * (t' - t) ∧ g * (t' - t) ≤ q * (θ t' - θ t)

/-- At tick `t` the crank is at the angle `G` of cycle `m`, within `ε` degrees. -/
def AtAngle (θ : ℤ → ℚ) (G ε : ℚ) (m t : ℤ) : Prop := |θ t - (G + 720 * m)| ≤ ε

/-- There is enough time in a cycle.  The error `ε` of a spark is at most 20 degrees, and less than what the crank turns while
the coil is charged, which takes `dlo` to `dhi` ticks.  A pitch of `g` degrees takes `p` to `q` ticks; the crank does not turn
faster than 200000 revolutions per minute, and in 560 degrees less two pitches there is time for a tooth to be handled,
for the buffers and for the charge.  In 680 degrees there is time for the charge and the minimum time between two sparks. -/
structure CycleRoom (ε g : ℚ) (p q dlo dhi late : ℤ) (minFireUs : BitVec 32) : Prop where
  error : ε ≤ 20
  prompt : 0 ≤ late
  charges : dlo ≤ dhi
  charge : 2 * ε * q < g * dlo
  buffer : 16 * g ≤ 5 * p
  time : ((dhi : ℚ) + late + 256) * g ≤ p * (560 - 2 * g)
  again : (4 * (minFireUs.toNat : ℚ) + dhi) * g ≤ p * 680

variable [FloatFmt]

/-- At some moment of the run from `e1` to `e` a buffer was to drive pin `p` to `v` at tick `t`. -/
def DrivenOn (A : ℤ → EngAct → Prop) (G : ℤ → Engine → Prop) (n1 E1 : ℤ) (e1 : Engine) (n E : ℤ) (e : Engine) (p : Fin 16) (v : Bool)
    (t : ℤ) : Prop :=
  ∃ n' E' e' b, EngOn A G n1 E1 e1 n' E' e' ∧ EngOn A G n' E' e' n E e ∧ InBuffer E' e' b t ∧ Drives (e'.buf b) (stamp t) p v

/-- Nothing is cut. -/
def NoCut (e : Engine) : Prop := ∀ r, ignitionCut e.cfg e.vals = .ok r → r.1 = false

/-- What is assumed of the states of a run.  The triggers are given in order.  When `k0` of them or more have been decoded, each is
handled within `late` ticks, the advance is `adv k`, `k` being the last trigger decoded, the dwell is `dlo` to `dhi` ticks, of a
quarter microsecond, and nothing is cut. -/
def FiringOn (ev : ℕ → Int × ℤ) (k0 : ℕ) (late : ℤ) (adv : ℕ → ℚ) (dlo dhi : ℤ) (n : ℤ) (e : Engine) : Prop :=
  EventsGiven ev n e ∧ ∀ k, Decoded (k + 1) e → k0 ≤ k + 1 → HandledBy (fun j => (ev j).2) late n e ∧
    e.vals.timingAdvance = .fin (adv k) ∧ dlo ≤ 4 * (e.vals.dwellUs.toNat : ℤ) ∧ 4 * (e.vals.dwellUs.toNat : ℤ) ≤ dhi ∧ NoCut e

/-- The same where the triggers are the teeth of a crank wheel, from the second synchronised tooth on. -/
def Firing (T : ℕ → ℤ) (n0 : ℕ) (late : ℤ) (adv : ℕ → ℚ) (dlo dhi : ℤ) (n : ℤ) (e : Engine) : Prop :=
  FiringOn (fun j => (0, T j)) (n0 + 2) late adv dlo dhi n e

end Verif
