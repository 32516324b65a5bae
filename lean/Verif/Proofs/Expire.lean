/-
How accurate the time predicted for the next tooth is.
-/
import Verif.Proofs.Total

namespace Verif

variable [FloatFmt]
open FloatFmt Fl

/-- The time conversion is accurate to one tick and eight units in the last place. -/
theorem time_close {r : BitVec 32} {q : ℚ} (hr : 1 ≤ r.toNat) (hq1 : 1 ≤ q) (hq2 : q ≤ 2 ^ 10) :
    ∃ t, timeFromRpmDiff r (fin q) = .ok t ∧
      (4000000 / 6 * q / r.toNat) * (1 - 1 / 2 ^ 21) - 1 ≤ (t.toNat : ℚ) ∧
      (t.toNat : ℚ) ≤ (4000000 / 6 * q / r.toNat) * (1 + 1 / 2 ^ 21) := by
  have hq0 : 0 < q := by linarith
  have hr1 : (1 : ℚ) ≤ r.toNat := by exact_mod_cast hr
  have hr2 : (r.toNat : ℚ) < 2 ^ 32 := by exact_mod_cast r.isLt
  generalize hn : (r.toNat : ℚ) = τ at *
  have hτ0 : 0 < τ := by linarith
  obtain ⟨a, ha, ha1, ha2⟩ := rnd_factor (x := τ) (by
    refine le_trans ?_ hr1
    norm_num) (by
    refine le_trans hr2.le ?_
    norm_num)
  norm_num at ha1 ha2
  obtain ⟨ρ, hρ, hρ1, hρ2, hρ3⟩ := ratio_fin
  rw [abs_le] at hρ3
  norm_num at hρ3
  have hτa : 0 < τ * a := mul_pos hτ0 (by linarith)
  have hx1 : (1 : ℚ) / 2 ^ 40 ≤ ρ / (τ * a) := by
    rw [le_div_iff₀ hτa]
    norm_num at *
    nlinarith
  have hx2 : ρ / (τ * a) ≤ 2 ^ 22 := by
    rw [div_le_iff₀ hτa]
    norm_num at *
    nlinarith
  obtain ⟨b, hb, hb1, hb2⟩ := rnd_factor (x := ρ / (τ * a)) (by
    refine le_trans ?_ hx1
    norm_num) (by
    refine le_trans hx2 ?_
    norm_num)
  norm_num at hb1 hb2
  have hx0 : 0 < ρ / (τ * a) := lt_of_lt_of_le (by positivity) hx1
  have hw1 : (1 : ℚ) / 2 ^ 50 ≤ ρ / (τ * a) * b * q := by
    have h1 : 1 / 2 ^ 40 * (1 / 2) ≤ ρ / (τ * a) * b := mul_le_mul hx1 (by linarith) (by norm_num) hx0.le
    have h2 : 1 / 2 ^ 40 * (1 / 2) * 1 ≤ ρ / (τ * a) * b * q := mul_le_mul h1 hq1 (by norm_num) (by
      exact mul_nonneg hx0.le (by linarith))
    refine le_trans ?_ h2
    norm_num
  have hw2 : ρ / (τ * a) * b * q ≤ 2 ^ 40 := by
    have h1 : ρ / (τ * a) * b ≤ 2 ^ 22 * 2 := mul_le_mul hx2 (by linarith) (by linarith) (by norm_num)
    have h2 : ρ / (τ * a) * b * q ≤ 2 ^ 22 * 2 * 2 ^ 10 := mul_le_mul h1 hq2 hq0.le (by norm_num)
    refine le_trans h2 ?_
    norm_num
  obtain ⟨e, he, he1, he2⟩ := rnd_factor (x := ρ / (τ * a) * b * q) (by
    refine le_trans ?_ hw1
    norm_num) (by
    refine le_trans hw2 ?_
    norm_num)
  norm_num at he1 he2
  have heq : timeFromRpmDiff r (fin q) = toU32 (fin (ρ / (τ * a) * b * q * e)) := by
    unfold timeFromRpmDiff Fl.ofU32
    simp only
    rw [hn, ha, hρ, fin_div _ _ hτa.ne', hb, fin_mul, he]
  generalize hSg : (4000000 / 6 : ℚ) * q / τ = S at *
  have hS0 : 0 < S := by rw [← hSg]; positivity
  have hS2 : S ≤ 2 ^ 30 := by
    rw [← hSg, div_le_iff₀ hτ0]
    norm_num at *
    nlinarith
  have hwS : ρ / (τ * a) * b * q * e = S * ((ρ / (4000000 / 6)) * (b * e) / a) := by
    rw [← hSg]
    have ha0 : a ≠ 0 := by linarith
    field_simp
  rw [hwS] at heq
  have ha0 : 0 < a := by linarith
  have hc1 : 1 - 1 / 16777216 ≤ ρ / (4000000 / 6) := by
    rw [le_div_iff₀ (by norm_num)]; norm_num; linarith [hρ3.1]
  have hc2 : ρ / (4000000 / 6) ≤ 1 + 1 / 16777216 := by
    rw [div_le_iff₀ (by norm_num)]; norm_num; linarith [hρ3.2]
  generalize ρ / (4000000 / 6) = c at *
  have hbe1 : (1 - 1 / 16777216) * (1 - 1 / 16777216) ≤ b * e := mul_le_mul (by linarith) (by linarith) (by norm_num) (by linarith)
  have hbe2 : b * e ≤ (1 + 1 / 16777216) * (1 + 1 / 16777216) := mul_le_mul (by linarith) (by linarith) (by linarith) (by norm_num)
  have hbe0 : 0 ≤ b * e := le_trans (by norm_num) hbe1
  have hf1 : 1 - 1 / 2 ^ 21 ≤ c * (b * e) / a := by
    rw [le_div_iff₀ ha0]
    have h2 : (1 - 1 / 16777216) * ((1 - 1 / 16777216) * (1 - 1 / 16777216)) ≤ c * (b * e) :=
      mul_le_mul hc1 hbe1 (by norm_num) (by linarith)
    norm_num at *
    linarith
  have hf2 : c * (b * e) / a ≤ 1 + 1 / 2 ^ 21 := by
    rw [div_le_iff₀ ha0]
    have h2 : c * (b * e) ≤ (1 + 1 / 16777216) * ((1 + 1 / 16777216) * (1 + 1 / 16777216)) :=
      mul_le_mul hc2 hbe2 hbe0 (by norm_num)
    norm_num at *
    linarith
  generalize c * (b * e) / a = f at *
  have hl : S * (1 - 1 / 2 ^ 21) ≤ S * f := mul_le_mul_of_nonneg_left hf1 hS0.le
  have hu : S * f ≤ S * (1 + 1 / 2 ^ 21) := mul_le_mul_of_nonneg_left hf2 hS0.le
  have hfl0 : 0 ≤ S * f := le_trans (mul_nonneg hS0.le (by norm_num)) hl
  obtain ⟨t, ht, hval⟩ := toU32_fin hfl0 (by
    refine lt_of_le_of_lt hu ?_
    norm_num at *
    linarith)
  have hval' : (t.toNat : ℚ) = (⌊S * f⌋ : ℚ) := by exact_mod_cast hval
  have h1 := Int.floor_le (S * f)
  have h2 := Int.lt_floor_add_one (S * f)
  exact ⟨t, heq.trans ht, by rw [hval']; linarith, by rw [hval']; linarith⟩

/-- Lengthening a time by a tolerance is accurate to one tick and a few units in the last place. -/
theorem lengthen_close {e : BitVec 32} {v : ℚ} (he : e.toNat ≤ 2 ^ 29) (hv0 : 0 ≤ v) (hv1 : v ≤ 1) :
    ∃ x, Fl.toU32 (Fl.ofU32 e * (fin 1 + fin v)) = .ok x ∧
      (e.toNat : ℚ) * (1 + v) * (1 - 1 / 2 ^ 22) - 1 ≤ x.toNat ∧
      (x.toNat : ℚ) ≤ e.toNat * (1 + v) * (1 + 1 / 2 ^ 22) := by
  rcases Nat.eq_zero_or_pos e.toNat with h0 | hpos
  · obtain ⟨x, hx⟩ := lengthen_total (e := e) (v := v) (by omega) hv0 hv1
    refine ⟨x, hx, ?_, ?_⟩
    · rw [h0]
      have : (0 : ℚ) ≤ x.toNat := Nat.cast_nonneg _
      push_cast; linarith
    · obtain ⟨y, hy, hy1, hy2⟩ := rnd_between (x := 1 + v) (by linarith) (by linarith)
        (show rnd (1 : ℚ) = fin 1 by simpa using rnd_nat 1 (by norm_num))
        (show rnd (2 : ℚ) = fin 2 by simpa using rnd_nat 2 (by norm_num))
      have : Fl.ofU32 e * (fin 1 + fin v) = fin 0 := by
        unfold Fl.ofU32
        rw [h0, fin_add, hy]
        push_cast
        rw [rnd_zero, fin_mul, zero_mul, rnd_zero]
      rw [this] at hx
      obtain ⟨u, hu, hval⟩ := toU32_fin (q := 0) le_rfl (by norm_num)
      rw [hu] at hx
      cases hx
      rw [h0]
      simp at hval
      rw [hval]
      simp
  · have he1 : (1 : ℚ) ≤ e.toNat := by exact_mod_cast hpos
    have he2 : (e.toNat : ℚ) ≤ 2 ^ 29 := by exact_mod_cast he
    generalize hn : (e.toNat : ℚ) = τ at *
    obtain ⟨a, ha, ha1, ha2⟩ := rnd_factor (x := τ) (by
      refine le_trans ?_ he1
      norm_num) (by
      refine le_trans he2 ?_
      norm_num)
    norm_num at ha1 ha2
    obtain ⟨b, hb, hb1, hb2⟩ := rnd_factor (x := 1 + v) (by
      refine le_trans (b := 1) (by norm_num) (by linarith)) (by
      refine le_trans (b := 2) (by linarith) (by norm_num))
    norm_num at hb1 hb2
    have hab1 : (1 - 1 / 16777216) * (1 - 1 / 16777216) ≤ a * b := mul_le_mul (by linarith) (by linarith) (by norm_num) (by linarith)
    have hab2 : a * b ≤ (1 + 1 / 16777216) * (1 + 1 / 16777216) := mul_le_mul (by linarith) (by linarith) (by linarith) (by norm_num)
    have hS1 : 1 ≤ τ * (1 + v) := by nlinarith
    have hS2 : τ * (1 + v) ≤ 2 ^ 30 := by
      have : τ * (1 + v) ≤ 2 ^ 29 * 2 := mul_le_mul he2 (by linarith) (by linarith) (by norm_num)
      refine le_trans this ?_
      norm_num
    generalize hSg : τ * (1 + v) = S at *
    have hxS : τ * a * ((1 + v) * b) = S * (a * b) := by rw [← hSg]; ring
    have hx1 : 1 / 2 ≤ S * (a * b) := by
      have : 1 * (1 / 2) ≤ S * (a * b) := mul_le_mul hS1 (by linarith) (by norm_num) (by linarith)
      linarith
    have hx2 : S * (a * b) ≤ 2 ^ 31 := by
      have : S * (a * b) ≤ 2 ^ 30 * 2 := mul_le_mul hS2 (by linarith) (by linarith) (by norm_num)
      refine le_trans this ?_
      norm_num
    obtain ⟨c, hc, hc1, hc2⟩ := rnd_factor (x := S * (a * b)) (by
      refine le_trans ?_ hx1
      norm_num) (by
      refine le_trans hx2 ?_
      norm_num)
    norm_num at hc1 hc2
    have heq : Fl.ofU32 e * (fin 1 + fin v) = fin (S * (a * b * c)) := by
      unfold Fl.ofU32
      rw [hn, ha, fin_add, hb, fin_mul, hxS, hc, mul_assoc]
    have hf1 : 1 - 1 / 2 ^ 22 ≤ a * b * c := by
      have h2 : (1 - 1 / 16777216) * (1 - 1 / 16777216) * (1 - 1 / 16777216) ≤ a * b * c :=
        mul_le_mul hab1 (by linarith) (by norm_num) (by linarith)
      norm_num at *
      linarith
    have hf2 : a * b * c ≤ 1 + 1 / 2 ^ 22 := by
      have h2 : a * b * c ≤ (1 + 1 / 16777216) * (1 + 1 / 16777216) * (1 + 1 / 16777216) :=
        mul_le_mul hab2 (by linarith) (by linarith) (by norm_num)
      norm_num at *
      linarith
    generalize a * b * c = f at *
    have hS0 : 0 ≤ S := by linarith
    have hl : S * (1 - 1 / 2 ^ 22) ≤ S * f := mul_le_mul_of_nonneg_left hf1 hS0
    have hu : S * f ≤ S * (1 + 1 / 2 ^ 22) := mul_le_mul_of_nonneg_left hf2 hS0
    have hfl0 : 0 ≤ S * f := le_trans (mul_nonneg hS0 (by norm_num)) hl
    obtain ⟨x, hx, hval⟩ := toU32_fin hfl0 (by
      refine lt_of_le_of_lt hu ?_
      norm_num at *
      linarith)
    have hval' : (x.toNat : ℚ) = (⌊S * f⌋ : ℚ) := by exact_mod_cast hval
    have h1 := Int.floor_le (S * f)
    have h2 := Int.lt_floor_add_one (S * f)
    exact ⟨x, by rw [heq]; exact hx, by rw [hval']; linarith, by rw [hval']; linarith⟩

end Verif
