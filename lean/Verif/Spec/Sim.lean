/-
What the built-in test wheel should do.
-/
import Verif.Model.Sim
import Verif.Spec.Turn

namespace Verif

/-- A wheel with `N` tooth positions per turn, one of them without a tooth, turning for ever; positions are counted from
the tooth before a gap.  There is a cam pulse in the middle of the gap, once in two turns. -/
def wheelEvent (N x : ℕ) : Option Int :=
  if x % (2 * N) = 1 then some 1 else if x % (2 * N) = N + 1 then none else some 0

/-- The position of event `i` of a wheel with 36 positions: 71 events in 72 positions. -/
def simPos36 (i : ℕ) : ℕ := 72 * (i / 71) + (if i % 71 ≤ 36 then i % 71 else i % 71 + 1)

variable [FloatFmt]

/-- The events of the test wheel for `N` positions. -/
def simEvents (N : ℕ) : ℕ → SimEvent
  | 0 => testWheelNext N 0
  | i + 1 => testWheelNext N (simEvents N i).tooth

/-- The test wheel makes the events of a wheel with one missing tooth, all of them, in order and at the right distances. -/
def SimWheel (N : ℕ) : Prop :=
  ∃ pos : ℕ → ℕ, pos 0 = 0 ∧ ∀ i, pos i < pos (i + 1) ∧
    wheelEvent N (pos i) = some (simEvents N i).trigger ∧
    (simEvents N i).degrees = .fin (360 / N * ((pos (i + 1) : ℚ) - pos i)) ∧
    ∀ x, pos i < x → x < pos (i + 1) → wheelEvent N x = none

/-- The decoder, its expiry callback and the test wheel after `i` events of the test wheel. -/
def simRun (d0 : Decoder) (N : Int) (s0 : Sim) : ℕ → Except Fault ((Decoder × Option Time) × Sim)
  | 0 => .ok ((decoderInit d0, none), s0)
  | i + 1 => simRun d0 N s0 i >>= fun x => executeTestTrigger N x.2 >>= fun e =>
      turnTrigger x.1 e.1 e.2.1 >>= fun y => .ok (y, e.2.2)

end Verif
