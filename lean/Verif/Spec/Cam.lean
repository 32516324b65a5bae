/-
A missing-tooth crank wheel with a cam pulse in the first revolution of each engine cycle.
-/
import Verif.Spec.Wheel

namespace Verif

/-- Tooth `n` passes in the first of the two revolutions of the engine cycle. -/
def firstRev (N s n : ℕ) : Prop := ((s + n) / (N - 1)) % 2 = 0

instance (N s n : ℕ) : Decidable (firstRev N s n) := by unfold firstRev; infer_instance

/-- The cam pulse comes right after tooth `n`: in the first revolution, after the tooth number `k` after the gap. -/
def pulseAfter (N s k n : ℕ) : Prop := firstRev N s n ∧ (s + n) % (N - 1) = k

instance (N s k n : ℕ) : Decidable (pulseAfter N s k n) := by unfold pulseAfter; infer_instance

/-- The cam pulse of this revolution has come by the end of tooth `n`, its pulse included if `upto` says so. -/
def pulseSeen (N s k n : ℕ) (upto : Bool) : Prop :=
  firstRev N s n ∧ (k < (s + n) % (N - 1) ∨ ((s + n) % (N - 1) = k ∧ upto = true))

/-- Sync may be lost, for the reason given. -/
def loseIf (d : Decoder) : Option DecLoss → Decoder
  | none => d
  | some r => decoderDesync d r

variable [FloatFmt]

/-- The decoder after initialising `d0` and receiving teeth `0` to `n - 1` of the wheel with the cam pulses after them,
at times `P`.  Sync may be lost (expiry, capture overflow) before (`B`) and after (`A`) the place of the cam pulse of
each tooth. -/
def camRun (d0 : Decoder) (T : ℕ → ℤ) (P : ℕ → Time) (N s k : ℕ) (B A : ℕ → Option DecLoss) : ℕ → Except Fault Decoder
  | 0 => .ok (decoderInit d0)
  | n + 1 => camRun d0 T P N s k B A n >>= fun d => decode d 0 (stamp (T n)) >>= fun o =>
      if pulseAfter N s k n then decode (loseIf o.d (B n)) 1 (P n) >>= fun o => .ok (loseIf o.d (A n))
      else .ok (loseIf (loseIf o.d (B n)) (A n))

end Verif
