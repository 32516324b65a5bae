/-
C01: 32-bit time comparisons agree with real time across wrap-around.
Real time is an unbounded integer (`stamp` in Verif.Spec.Time gives what the firmware sees).
-/
import Verif.Proofs.Time

namespace Verif

/-- `time_before` gives the real order of any two instants less than half a wrap apart. -/
theorem C01_time_before (n x : Int) (h : |n - x| < 2 ^ 31) :
    timeBefore (stamp n) (stamp x) = true ↔ n < x := by
  unfold timeBefore
  rw [stamp_sub, stamp_toInt h, decide_eq_true_iff]
  omega

theorem C01_time_before_or_equal (n x : Int) (h : |n - x| < 2 ^ 31) :
    timeBeforeOrEqual (stamp n) (stamp x) = true ↔ n ≤ x := by
  unfold timeBeforeOrEqual
  rw [stamp_sub, stamp_toInt h, decide_eq_true_iff]
  omega

/-- `time_diff` is the real elapsed time whenever that is under one wrap. -/
theorem C01_time_diff (later earlier : Int) (h0 : earlier ≤ later) (h : later - earlier < 2 ^ 32) :
    ((timeDiff (stamp later) (stamp earlier)).toNat : Int) = later - earlier := by
  unfold timeDiff
  rw [stamp_sub, stamp_toNat (by omega) h]

/-- `time_in_range` is true exactly inside the closed interval, for any instant that is neither a
wrap or more after the first end, nor a wrap or more before the last end. -/
theorem C01_time_in_range (v t1 t2 : Int) (h12 : t1 ≤ t2) (hspan : t2 - t1 < 2 ^ 32)
    (hv1 : v < t1 + 2 ^ 32) (hv2 : t2 - 2 ^ 32 < v) :
    timeInRange (stamp v) (stamp t1) (stamp t2) = true ↔ t1 ≤ v ∧ v ≤ t2 := by
  unfold timeInRange
  rw [stamp_sub, stamp_sub, decide_eq_true_iff]
  have h1 := stamp_toNat_mod (v - t1)
  have h2 := stamp_toNat (d := t2 - t1) (by omega) hspan
  omega

/-- The half-wrap limit of `time_before` is sharp: at exactly 2^31 ticks each instant is reported
before the other. -/
theorem C01_half_wrap_ambiguous (n : Int) :
    timeBefore (stamp n) (stamp (n + 2 ^ 31)) = true ∧
    timeBefore (stamp (n + 2 ^ 31)) (stamp n) = true := by
  unfold timeBefore
  rw [stamp_sub, stamp_sub]
  constructor
  · rw [show n - (n + 2 ^ 31) = -2 ^ 31 by omega]; decide +kernel
  · rw [show n + 2 ^ 31 - n = 2 ^ 31 by omega]; decide +kernel

-- the hypotheses are met across a wrap
example : |((2 : Int) ^ 32 - 5) - (2 ^ 32 + 7)| < 2 ^ 31 ∧
    timeBefore (stamp (2 ^ 32 - 5)) (stamp (2 ^ 32 + 7)) = true ∧
    timeBefore (stamp (2 ^ 32 + 7)) (stamp (2 ^ 32 - 5)) = false ∧
    timeInRange (stamp (2 ^ 32)) (stamp (2 ^ 32 - 5)) (stamp (2 ^ 32 + 7)) = true ∧
    timeInRange (stamp (2 ^ 32 - 6)) (stamp (2 ^ 32 - 5)) (stamp (2 ^ 32 + 7)) = false := by
  decide +kernel

end Verif
