/-
The speed and time conversions do not fault on ordinary tooth times.
-/
import Verif.Proofs.Util
import Verif.Proofs.Wheel

namespace Verif

variable [FloatFmt]
open FloatFmt Fl

theorem rnd_pow (k : ℤ) (h : |k| ≤ 64) : rnd ((2 : ℚ) ^ k) = fin (2 ^ k) := by
  have := rnd_dyadic 1 k (by norm_num) h
  simpa using this

/-- A positive time over an angle of 1 to 1024 degrees gives an rpm; at 600000 ticks per degree or less it is
at least 1. -/
theorem rpm_total {t : Time} {q : ℚ} (ht : 0 < t.toNat) (hq1 : 1 ≤ q) (hq2 : q ≤ 2 ^ 10) :
    ∃ r, rpmFromTimeDiff t (fin q) = .ok r ∧ ((t.toNat : ℚ) ≤ 600000 * q → 1 ≤ r.toNat) := by
  have hq0 : 0 < q := by linarith
  have ht1 : (1 : ℚ) ≤ t.toNat := by exact_mod_cast ht
  have ht2 : (t.toNat : ℚ) < 2 ^ 32 := by exact_mod_cast t.isLt
  have r1 : rnd (1 : ℚ) = fin 1 := by simpa using rnd_nat 1 (by norm_num)
  have r32 : rnd ((2 : ℚ) ^ 32) = fin (2 ^ 32) := by simpa using rnd_pow 32 (by norm_num)
  have rm10 : rnd ((2 : ℚ) ^ (-10 : ℤ)) = fin (2 ^ (-10 : ℤ)) := rnd_pow (-10) (by norm_num)
  have r30 : rnd ((2 : ℚ) ^ 30) = fin (2 ^ 30) := by simpa using rnd_pow 30 (by norm_num)
  obtain ⟨y, hy, hy1, hy2⟩ := rnd_between (x := (t.toNat : ℚ)) ht1 ht2.le r1 r32
  have hyrel : y ≤ t.toNat + t.toNat / 2 ^ 24 := by
    obtain ⟨y', hy', hrel⟩ := rnd_rel (t.toNat : ℚ) (by
      rw [abs_of_nonneg (by linarith)]
      refine le_trans ?_ ht1
      norm_num) (by
      rw [abs_of_nonneg (by linarith)]
      refine le_trans ht2.le ?_
      norm_num)
    rw [hy] at hy'
    cases hy'
    rw [abs_of_nonneg (by linarith : (0 : ℚ) ≤ t.toNat), abs_le] at hrel
    linarith [hrel.2]
  have hx1 : (2 : ℚ) ^ (-10 : ℤ) ≤ y / q := by
    rw [le_div_iff₀ hq0]
    have : (2 : ℚ) ^ (-10 : ℤ) * q ≤ 2 ^ (-10 : ℤ) * 2 ^ 10 := mul_le_mul_of_nonneg_left hq2 (by positivity)
    have e : (2 : ℚ) ^ (-10 : ℤ) * 2 ^ 10 = 1 := by norm_num
    linarith
  have hx2 : y / q ≤ 2 ^ 32 := by
    rw [div_le_iff₀ hq0]
    nlinarith
  obtain ⟨z, hz, hz1, hz2⟩ := rnd_between hx1 hx2 rm10 r32
  have hz0 : 0 < z := lt_of_lt_of_le (by positivity) hz1
  obtain ⟨ρ, hρ, hρ1, hρ2, hρ3⟩ := ratio_fin
  have hw1 : 0 ≤ ρ / z := div_nonneg (by linarith) hz0.le
  have hw2 : ρ / z ≤ 2 ^ 30 := by
    rw [div_le_iff₀ hz0]
    have e : (2 : ℚ) ^ 30 * 2 ^ (-10 : ℤ) = 2 ^ 20 := by norm_num
    nlinarith
  obtain ⟨w, hw, hw0, hwm⟩ := rnd_between hw1 hw2 rnd_zero r30
  have heq : rpmFromTimeDiff t (fin q) = toU32 (fin w) := by
    unfold rpmFromTimeDiff Fl.ofU32
    simp only
    rw [hy, fin_div _ _ hq0.ne', hz, hρ, fin_div _ _ hz0.ne', hw]
  have hlt : w < 4294967296 := by
    have : (2 : ℚ) ^ 30 < 4294967296 := by norm_num
    linarith
  obtain ⟨u, hu, hval⟩ := toU32_fin hw0 hlt
  refine ⟨u, heq.trans hu, fun hle => ?_⟩
  have rb : rnd (655360 : ℚ) = fin 655360 := by simpa using rnd_nat 655360 (by norm_num)
  have hx3 : y / q ≤ 655360 := by
    rw [div_le_iff₀ hq0]
    have : (t.toNat : ℚ) / 2 ^ 24 ≤ t.toNat / 100 := by
      apply div_le_div_of_nonneg_left (by linarith) (by norm_num) (by norm_num)
    nlinarith
  obtain ⟨z', hz', _, hz3⟩ := rnd_between hx1 hx3 rm10 rb
  rw [hz] at hz'
  cases hz'
  have hge : 1 ≤ ρ / z := by
    rw [le_div_iff₀ hz0]
    rw [abs_le] at hρ3
    have := hρ3.1
    norm_num at this
    linarith
  have : Fl.le (fin 1) (fin w) = true := by rw [← hw]; exact le_rnd_of_le hge r1
  have hw1' : (1 : ℚ) ≤ w := by simpa using this
  have h1 : (1 : ℤ) ≤ ⌊w⌋ := by rw [Int.le_floor]; exact_mod_cast hw1'
  omega

/-- A positive rpm and an angle up to 1024 degrees give a time below 2^30 ticks. -/
theorem time_total {r : BitVec 32} {q : ℚ} (hr : 1 ≤ r.toNat) (hq0 : 0 ≤ q) (hq2 : q ≤ 2 ^ 10) :
    ∃ t, timeFromRpmDiff r (fin q) = .ok t ∧ t.toNat ≤ 2 ^ 30 := by
  have hr1 : (1 : ℚ) ≤ r.toNat := by exact_mod_cast hr
  have hr2 : (r.toNat : ℚ) < 2 ^ 32 := by exact_mod_cast r.isLt
  have r1 : rnd (1 : ℚ) = fin 1 := by simpa using rnd_nat 1 (by norm_num)
  have r32 : rnd ((2 : ℚ) ^ 32) = fin (2 ^ 32) := by simpa using rnd_pow 32 (by norm_num)
  have r20 : rnd ((2 : ℚ) ^ 20) = fin (2 ^ 20) := by simpa using rnd_pow 20 (by norm_num)
  have r30 : rnd ((2 : ℚ) ^ 30) = fin (2 ^ 30) := by simpa using rnd_pow 30 (by norm_num)
  obtain ⟨y, hy, hy1, hy2⟩ := rnd_between (x := (r.toNat : ℚ)) hr1 hr2.le r1 r32
  obtain ⟨ρ, hρ, hρ1, hρ2, hρ3⟩ := ratio_fin
  have hy0 : 0 < y := by linarith
  obtain ⟨z, hz, hz1, hz2⟩ := rnd_between (x := ρ / y) (div_nonneg (by linarith) hy0.le)
    (by rw [div_le_iff₀ hy0]; nlinarith) rnd_zero r20
  obtain ⟨w, hw, hw0, hw1⟩ := rnd_between (x := z * q) (by positivity)
    (by
      have : z * q ≤ 2 ^ 20 * 2 ^ 10 := mul_le_mul hz2 hq2 hq0 (by positivity)
      have e : (2 : ℚ) ^ 20 * 2 ^ 10 = 2 ^ 30 := by norm_num
      linarith) rnd_zero r30
  have heq : timeFromRpmDiff r (fin q) = toU32 (fin w) := by
    unfold timeFromRpmDiff Fl.ofU32
    simp only
    rw [hy, hρ, fin_div _ _ hy0.ne', hz, fin_mul, hw]
  have hlt : w < 4294967296 := by
    have : (2 : ℚ) ^ 30 < 4294967296 := by norm_num
    linarith
  obtain ⟨u, hok, hval⟩ := toU32_fin hw0 hlt
  refine ⟨u, heq.trans hok, ?_⟩
  have : ⌊w⌋ ≤ 2 ^ 30 := by
    rw [Int.floor_le_iff]
    push_cast
    linarith
  omega

/-- Lengthening a time below 2^30 ticks by a tolerance of at most one. -/
theorem lengthen_total {e : BitVec 32} {v : ℚ} (he : e.toNat ≤ 2 ^ 30) (hv0 : 0 ≤ v) (hv1 : v ≤ 1) :
    ∃ x, Fl.toU32 (Fl.ofU32 e * (fin 1 + fin v)) = .ok x := by
  have r0 := rnd_zero
  have r1 : rnd (1 : ℚ) = fin 1 := by simpa using rnd_nat 1 (by norm_num)
  have r2 : rnd (2 : ℚ) = fin 2 := by simpa using rnd_nat 2 (by norm_num)
  have r30 : rnd ((2 : ℚ) ^ 30) = fin (2 ^ 30) := by simpa using rnd_pow 30 (by norm_num)
  have r31 : rnd ((2 : ℚ) ^ 31) = fin (2 ^ 31) := by simpa using rnd_pow 31 (by norm_num)
  have he' : (e.toNat : ℚ) ≤ 2 ^ 30 := by exact_mod_cast he
  obtain ⟨y, hy, hy1, hy2⟩ := rnd_between (x := (e.toNat : ℚ)) (Nat.cast_nonneg _) he' r0 r30
  obtain ⟨z, hz, hz1, hz2⟩ := rnd_between (x := 1 + v) (by linarith) (by linarith) r1 r2
  obtain ⟨w, hw, hw0, hw1⟩ := rnd_between (x := y * z) (by positivity)
    (by
      have : y * z ≤ 2 ^ 30 * 2 := mul_le_mul hy2 hz2 (by linarith) (by positivity)
      have e : (2 : ℚ) ^ 30 * 2 = 2 ^ 31 := by norm_num
      linarith) r0 r31
  have heq : Fl.ofU32 e * (fin 1 + fin v) = fin w := by
    unfold Fl.ofU32
    rw [hy, fin_add, hz, fin_mul, hw]
  rw [heq]
  obtain ⟨u, hu, _⟩ := toU32_fin hw0 (by
    have : (2 : ℚ) ^ 31 < 4294967296 := by norm_num
    linarith)
  exact ⟨u, hu⟩

theorem ratio_total {d : Decoder} (h1 : 2 ≤ d.requiredTriggersRpm.toNat) (h2 : d.requiredTriggersRpm.toNat ≤ 36) :
    ∃ r, missingRatio d = .ok r := by
  have ht : ∀ i : BitVec 32, i.toNat < 37 → ∃ t, timeAt d i = .ok t := fun i hi => by
    unfold timeAt
    exact ⟨_, rd_ok d.times i.toNat hi⟩
  obtain ⟨t0, h0⟩ := ht 0 (by decide)
  obtain ⟨t1, h1'⟩ := ht 1 (by decide)
  obtain ⟨tw, hw⟩ := ht d.requiredTriggersRpm (by omega)
  unfold missingRatio
  rw [h0, except_bind_ok, h1', except_bind_ok, hw, except_bind_ok]
  have hne : ∀ p : Prop, [Decidable p] → (if p then d.requiredTriggersRpm - 1 + 1 else d.requiredTriggersRpm - 1) ≠ 0 := by
    intro p _
    generalize d.requiredTriggersRpm = r at *
    split_ifs
    · bv_omega
    · bv_omega
  simp only
  rw [if_neg (hne _)]
  exact ⟨_, rfl⟩

/-- Rounding as a relative error. -/
theorem rnd_factor {x : ℚ} (h1 : (2 : ℚ) ^ (-100 : ℤ) ≤ x) (h2 : x ≤ 2 ^ 100) :
    ∃ a, rnd x = fin (x * a) ∧ 1 - 1 / 2 ^ 24 ≤ a ∧ a ≤ 1 + 1 / 2 ^ 24 := by
  have hx : 0 < x := lt_of_lt_of_le (by positivity) h1
  obtain ⟨y, hy, hrel⟩ := rnd_rel x (by rw [abs_of_pos hx]; exact h1) (by rw [abs_of_pos hx]; exact h2)
  rw [abs_of_pos hx, abs_le] at hrel
  refine ⟨y / x, by rw [hy, mul_div_cancel₀ _ hx.ne'], ?_, ?_⟩
  · rw [le_div_iff₀ hx]; linarith [hrel.1]
  · rw [div_le_iff₀ hx]; linarith [hrel.2]

/-- The rpm conversion is accurate to one rpm and eight units in the last place. -/
theorem rpm_close {t : Time} {q : ℚ} (ht : 0 < t.toNat) (hq1 : 1 ≤ q) (hq2 : q ≤ 2 ^ 20)
    (hS : q * (4000000 * 60) / (360 * t.toNat) ≤ 2 ^ 24) :
    ∃ r, rpmFromTimeDiff t (fin q) = .ok r ∧
      (q * (4000000 * 60) / (360 * t.toNat)) * (1 - 1 / 2 ^ 21) - 1 ≤ (r.toNat : ℚ) ∧
      (r.toNat : ℚ) ≤ (q * (4000000 * 60) / (360 * t.toNat)) * (1 + 1 / 2 ^ 21) := by
  have hq0 : 0 < q := by linarith
  have ht1 : (1 : ℚ) ≤ t.toNat := by exact_mod_cast ht
  have ht2 : (t.toNat : ℚ) < 2 ^ 32 := by exact_mod_cast t.isLt
  generalize hn : (t.toNat : ℚ) = τ at *
  have hτ0 : 0 < τ := by linarith
  obtain ⟨a, ha, ha1, ha2⟩ := rnd_factor (x := τ) (by
    refine le_trans ?_ ht1
    norm_num) (by
    refine le_trans ht2.le ?_
    norm_num)
  norm_num at ha1 ha2
  have hx1 : (1 : ℚ) / 2 ^ 21 ≤ τ * a / q := by
    rw [le_div_iff₀ hq0]
    norm_num at *
    nlinarith
  have hx2 : τ * a / q ≤ 2 ^ 33 := by
    rw [div_le_iff₀ hq0]
    norm_num at *
    nlinarith
  obtain ⟨b, hb, hb1, hb2⟩ := rnd_factor (x := τ * a / q) (by
    refine le_trans ?_ hx1
    norm_num) (by
    refine le_trans hx2 ?_
    norm_num)
  norm_num at hb1 hb2
  obtain ⟨ρ, hρ, hρ1, hρ2, hρ3⟩ := ratio_fin
  rw [abs_le] at hρ3
  norm_num at hρ3
  have hx0 : 0 < τ * a / q := lt_of_lt_of_le (by positivity) hx1
  have hz0 : 0 < τ * a / q * b := mul_pos hx0 (by linarith)
  have hw1 : (1 : ℚ) / 2 ^ 40 ≤ ρ / (τ * a / q * b) := by
    rw [le_div_iff₀ hz0]
    have : τ * a / q * b ≤ 2 ^ 33 * 2 := mul_le_mul hx2 (by linarith) (by linarith) (by positivity)
    norm_num at *
    linarith
  have hw2 : ρ / (τ * a / q * b) ≤ 2 ^ 50 := by
    rw [div_le_iff₀ hz0]
    have : 1 / 2 ^ 21 * (1 / 2) ≤ τ * a / q * b := mul_le_mul hx1 (by linarith) (by norm_num) hx0.le
    norm_num at *
    linarith
  obtain ⟨e, he, he1, he2⟩ := rnd_factor (x := ρ / (τ * a / q * b)) (by
    refine le_trans ?_ hw1
    norm_num) (by
    refine le_trans hw2 ?_
    norm_num)
  norm_num at he1 he2
  have heq : rpmFromTimeDiff t (fin q) = toU32 (fin (ρ / (τ * a / q * b) * e)) := by
    unfold rpmFromTimeDiff Fl.ofU32
    simp only
    rw [hn, ha, fin_div _ _ hq0.ne', hb, hρ, fin_div _ _ hz0.ne', he]
  have hSdef : q * (4000000 * 60) / (360 * τ) = (4000000 / 6) * q / τ := by field_simp; norm_num
  rw [hSdef] at hS ⊢
  generalize hSg : (4000000 / 6 : ℚ) * q / τ = S at *
  have hS0 : 0 < S := by rw [← hSg]; positivity
  have hwS : ρ / (τ * a / q * b) * e = S * ((ρ / (4000000 / 6)) * e / (a * b)) := by
    rw [← hSg]
    have ha0 : a ≠ 0 := by linarith
    have hb0 : b ≠ 0 := by linarith
    field_simp
  rw [hwS] at heq
  have hab0 : 0 < a * b := mul_pos (by linarith) (by linarith)
  have hc1 : 1 - 1 / 16777216 ≤ ρ / (4000000 / 6) := by
    rw [le_div_iff₀ (by norm_num)]; norm_num; linarith [hρ3.1]
  have hc2 : ρ / (4000000 / 6) ≤ 1 + 1 / 16777216 := by
    rw [div_le_iff₀ (by norm_num)]; norm_num; linarith [hρ3.2]
  generalize ρ / (4000000 / 6) = c at *
  have hf1 : 1 - 1 / 2 ^ 21 ≤ c * e / (a * b) := by
    rw [le_div_iff₀ hab0]
    have h1 : a * b ≤ (1 + 1 / 16777216) * (1 + 1 / 16777216) := mul_le_mul (by linarith) (by linarith) (by linarith) (by norm_num)
    have h2 : (1 - 1 / 16777216) * (1 - 1 / 16777216) ≤ c * e := mul_le_mul hc1 (by linarith) (by norm_num) (by linarith)
    norm_num at *
    linarith
  have hf2 : c * e / (a * b) ≤ 1 + 1 / 2 ^ 21 := by
    rw [div_le_iff₀ hab0]
    have h1 : (1 - 1 / 16777216) * (1 - 1 / 16777216) ≤ a * b := mul_le_mul (by linarith) (by linarith) (by norm_num) (by linarith)
    have h2 : c * e ≤ (1 + 1 / 16777216) * (1 + 1 / 16777216) := mul_le_mul hc2 (by linarith) (by linarith) (by norm_num)
    norm_num at *
    linarith
  generalize c * e / (a * b) = f at *
  have hl : S * (1 - 1 / 2 ^ 21) ≤ S * f := mul_le_mul_of_nonneg_left hf1 hS0.le
  have hu : S * f ≤ S * (1 + 1 / 2 ^ 21) := mul_le_mul_of_nonneg_left hf2 hS0.le
  have hfl0 : 0 ≤ S * f := le_trans (mul_nonneg hS0.le (by norm_num)) hl
  obtain ⟨r, hr, hval⟩ := toU32_fin hfl0 (by
    refine lt_of_le_of_lt hu ?_
    norm_num at *
    linarith)
  have hval' : (r.toNat : ℚ) = (⌊S * f⌋ : ℚ) := by exact_mod_cast hval
  have h1 := Int.floor_le (S * f)
  have h2 := Int.lt_floor_add_one (S * f)
  exact ⟨r, heq.trans hr, by rw [hval']; linarith, by rw [hval']; linarith⟩

end Verif
