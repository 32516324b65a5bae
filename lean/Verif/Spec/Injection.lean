/-
Injections against the real clock.
-/
import Verif.Spec.Spark

namespace Verif

variable [FloatFmt]

/-- Whenever the decoder is valid it knows the crank, from a tooth less than four seconds ago, and the fuel pulse is one of
the widths `Fu`, in microseconds. -/
def FuelTracks (θ : ℤ → ℚ) (c : CrankTol) (offset : ℚ) (Fu : BitVec 32 → Prop) (n : ℤ) (e : Engine) : Prop :=
  e.cfg.decoder.valid = true → e.cfg.decoder.offset = .fin offset ∧
    (∃ T, T ≤ n ∧ n - T ≤ 2 ^ 24 ∧ KnowsCrank θ c T e.cfg.decoder) ∧ Fu e.vals.fuelingUs

/-- The run goes on from one state to another; the arguments are as for `EngClock`. -/
inductive EngLater (G : ℤ → Engine → Prop) (n0 E0 : ℤ) (e0 : Engine) : ℤ → ℤ → Engine → Prop
  | refl : EngLater G n0 E0 e0 n0 E0 e0
  | step {n n' E : ℤ} {e e' : Engine} (a : EngAct) : EngLater G n0 E0 e0 n E e → n ≤ n' → n' < E → (∀ now, a ≠ .swap now) →
      engStep e a = .ok e' → G n' e' → EngLater G n0 E0 e0 n' E e'
  | swap {n n' E : ℤ} {e : Engine} : EngLater G n0 E0 e0 n E e → n ≤ n' → E - 128 ≤ n' → n' < E → G n' (engSwap e (stamp n')) →
      EngLater G n0 E0 e0 n' (E + 128) (engSwap e (stamp n'))

/-- Tick `t` is one that buffer `b` of state `e` plays: the one playing, which began at `E - 256`, or the next. -/
def InBuffer (E : ℤ) (e : Engine) (b : Bool) (t : ℤ) : Prop :=
  (if b = e.cur then E - 256 else E - 128) ≤ t ∧ t < (if b = e.cur then E - 256 else E - 128) + 128

/-- The triggers handled so far are the teeth of a wheel, in order, and while the decoder is valid the fuel pulse is `fu`
microseconds long. -/
def FuelOnWheel (T : ℕ → ℤ) (fu : BitVec 32) (n : ℤ) (e : Engine) : Prop :=
  TeethGiven T n e ∧ (e.cfg.decoder.valid = true → e.vals.fuelingUs = fu)

end Verif
