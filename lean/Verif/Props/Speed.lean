/-
C02: accuracy of the speed measurement.
-/
import Verif.Proofs.Total

namespace Verif

/-- The measured speed is within one rpm and a relative error of 2^-21 of the true speed, in any float format
with 24-bit precision, for any positive time and any angle from 1 to 2^20 degrees. -/
theorem C02_rpm_accuracy [FloatFmt] (t : Time) (d : ℚ) (ht : 0 < t.toNat) (hd1 : 1 ≤ d) (hd2 : d ≤ 2 ^ 20)
    (hfit : d * (4000000 * 60) / (360 * t.toNat) ≤ 2 ^ 24) :
    ∃ r, rpmFromTimeDiff t (.fin d) = .ok r ∧
      |(r.toNat : ℚ) - d * (4000000 * 60) / (360 * t.toNat)| ≤ 1 + (d * (4000000 * 60) / (360 * t.toNat)) / 2 ^ 21 := by
  obtain ⟨r, hr, h1, h2⟩ := rpm_close ht hd1 hd2 hfit
  refine ⟨r, hr, ?_⟩
  generalize d * (4000000 * 60) / (360 * (t.toNat : ℚ)) = S at *
  rw [abs_le]
  constructor <;> linarith

/-- Non-vacuity: 40000 ticks for 180 degrees. -/
example : ∃ r, @rpmFromTimeDiff binary32 40000 (.fin 180) = .ok r ∧ r = 3000 := ⟨3000, by decide +kernel, rfl⟩

end Verif
