/-
For which cycle a tooth schedules.
-/
import Verif.Proofs.BeatRpm
import Verif.Proofs.BeatRun

namespace Verif

variable [FloatFmt]
open FloatFmt Fl

/-- The time computed for an angle `y` after a tooth at `α` is one at which the crank is at `α + y`. -/
theorem time_lands {θ : ℤ → ℚ} {c : CrankTol} {T : ℤ} {d : Decoder} (hc : c.Sane) (hs : KnowsCrank θ c T d) {α y : ℚ} {t : Time}
    (place : |θ T - α| ≤ c.angle) (hy0 : 0 ≤ y) (hy1 : y ≤ 720) (ht : timeFromRpmDiff d.toothRpm (fin y) = .ok t) :
    ∃ u : ℤ, d.lastTriggerTime + t = stamp (T + u) ∧ 0 ≤ u ∧ u < 2 ^ 29 ∧ |θ (T + u) - (α + y)| ≤ c.error - 1 / 200 := by
  obtain ⟨hr, htc⟩ := time_close0 hy0 (le_trans hy1 (by norm_num)) ht
  obtain ⟨w, hw0, hw1, hw2, hw3⟩ := hs.speed
  have hr1 : (1 : ℚ) ≤ d.toothRpm.toNat := by exact_mod_cast hr
  have hu : (((t.toNat : ℕ) : ℤ) : ℚ) = (t.toNat : ℚ) := by push_cast; rfl
  generalize hu' : (t.toNat : ℚ) = u at *
  generalize (d.toothRpm.toNat : ℚ) = R at *
  have hR0 : 0 < R := by linarith
  generalize hS : 4000000 / 6 * y / R = S at *
  have hS0 : 0 ≤ S := by rw [← hS]; positivity
  have hS2 : S ≤ 480000000 := by
    rw [← hS, div_le_iff₀ hR0]
    nlinarith
  rw [abs_le] at htc hw2 place
  have hwS : w * S = y * (w * (4000000 / 6) / R) := by
    rw [← hS]; ring
  have hx1 : 1 - c.speed ≤ w * (4000000 / 6) / R := by
    rw [le_div_iff₀ hR0]; linarith [hw2.1]
  have hx2 : w * (4000000 / 6) / R ≤ 1 + c.speed := by
    rw [div_le_iff₀ hR0]; linarith [hw2.2]
  generalize w * (4000000 / 6) / R = x at *
  have hs0 := hc.speed0
  have hs1 := hc.speed1
  have hyc : y * c.speed ≤ 720 * c.speed := mul_le_mul_of_nonneg_right hy1 hs0
  have e1 : y * (1 - c.speed) ≤ y * x := mul_le_mul_of_nonneg_left hx1 hy0
  have e2 : y * x ≤ y * (1 + c.speed) := mul_le_mul_of_nonneg_left hx2 hy0
  have f1 : w * S ≤ 792 := by rw [hwS]; linarith
  have f0 : 0 ≤ w * S := mul_nonneg hw0 hS0
  have g1 : w * (S - (S / 2 ^ 21 + 3 / 2)) ≤ w * u := mul_le_mul_of_nonneg_left (by linarith [htc.1]) hw0
  have g2 : w * u ≤ w * (S + (S / 2 ^ 21 + 3 / 2)) := mul_le_mul_of_nonneg_left (by linarith [htc.2]) hw0
  have g3 : w * (S + (S / 2 ^ 21 + 3 / 2)) = w * S + w * S / 2 ^ 21 + 3 / 2 * w := by ring
  have g4 : w * (S - (S / 2 ^ 21 + 3 / 2)) = w * S - w * S / 2 ^ 21 - 3 / 2 * w := by ring
  have g5 : w * S / 2 ^ 21 ≤ 1 / 1000 := by
    have : w * S / 2 ^ 21 ≤ 792 / 2 ^ 21 := div_le_div_of_nonneg_right f1 (by norm_num)
    refine le_trans this (by norm_num)
  have ht1 := hc.tick1
  have hcl : ((T + (t.toNat : ℤ) : ℤ) : ℚ) - T = u := by push_cast; rw [← hu']; ring
  have hev := hw3 (T + (t.toNat : ℤ)) (by omega) (by rw [hcl]; linarith)
  rw [hcl, abs_le] at hev
  refine ⟨(t.toNat : ℤ), ?_, by omega, ?_, ?_⟩
  · rw [hs.time, ← stamp_add, stamp_surj]
  · have : (((t.toNat : ℕ) : ℤ) : ℚ) < ((2 ^ 29 : ℤ) : ℚ) := by
      rw [hu]
      push_cast
      have : S / 2 ^ 21 ≤ 480000000 / 2 ^ 21 := div_le_div_of_nonneg_right hS2 (by norm_num)
      norm_num at this htc ⊢
      linarith [htc.2]
    exact_mod_cast this
  · unfold CrankTol.error
    rw [abs_le]
    constructor <;> linarith [hev.1, hev.2, place.1, place.2]

/-- The angle `α` of a tooth, which reads `a0`, decides for which cycle it schedules an end at the angle `G`. -/
theorem cycle_of {G α a0 : ℚ} {F : Fl} {l : ℤ} (hF : ∃ q, F = fin q ∧ |q - (G - a0)| ≤ 1 / 1000 ∧ -3500 ≤ q ∧ q ≤ 3500)
    (hα : α = a0 + 720 * l) : ∃ κ : ℤ, α - 1 / 250 ≤ G + 720 * κ ∧ G + 720 * κ ≤ α + 720 + 1 / 250 ∧
      ∀ r, clampAngle F (fin 720) = .ok r → ∃ y, r = fin y ∧ 0 ≤ y ∧ y ≤ 720 ∧ |α + y - (G + 720 * κ)| ≤ 1 / 250 := by
  obtain ⟨q, hq, q1, q2, q3⟩ := hF
  rw [hq]
  by_cases hr : ∃ r, clampAngle (fin q) (fin 720) = .ok r
  · obtain ⟨r, hr⟩ := hr
    obtain ⟨y, rfl, hy0, hy1, j, hj⟩ := clampAngle_near q2 q3 hr
    have key : |α + y - (G + 720 * (l + j : ℤ))| ≤ 1 / 250 := by
      rw [abs_le] at q1 hj ⊢
      push_cast
      constructor <;> linarith [q1.1, q1.2, hj.1, hj.2]
    have key' := abs_le.mp key
    refine ⟨l + j, by linarith [key'.1], by linarith [key'.2], fun r' hr' => ?_⟩
    rw [hr] at hr'
    exact ⟨y, (Except.ok.inj hr').symm, hy0, hy1, key⟩
  · refine ⟨⌈(α - G) / 720⌉, ?_, ?_, fun r h => absurd ⟨r, h⟩ hr⟩
    · have := Int.le_ceil ((α - G) / 720)
      rw [div_le_iff₀ (by norm_num)] at this
      linarith
    · have := Int.ceil_lt_add_one ((α - G) / 720)
      have h2 : (α - G) / 720 * 720 = α - G := by ring
      linarith

end Verif
