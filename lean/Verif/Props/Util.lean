/-
C02: time/angle/rpm conversions.   C03: angle normalisation.

Statements with `[FloatFmt]` hold for every rounding with the stated laws, in particular for IEEE
binary32 (`binary32`) and for exact arithmetic (`exactFmt`).
-/
import Verif.Proofs.Util

namespace Verif
open Fl FloatFmt

/-! ## C02 -/

/-- `time_from_us` is exactly four ticks per microsecond for every count up to 2^24 µs (16.7 s). -/
theorem C02_time_from_us_exact [FloatFmt] (us : BitVec 32) (h : us.toNat ≤ 2 ^ 24) :
    ∃ v, timeFromUs us = .ok v ∧ v.toNat = 4 * us.toNat := by
  have h1 : (Fl.ofNat tickrate : Fl) = fin 4000000 := by
    unfold Fl.ofNat tickrate
    have := rnd_nat 4000000 (by norm_num)
    simpa using this
  have h4 : rnd (4000000 / 1000000 : ℚ) = fin 4 := by
    rw [show (4000000 / 1000000 : ℚ) = ((4 : ℕ) : ℚ) by norm_num]
    simpa using rnd_nat 4 (by norm_num)
  have h2 : (Fl.ofNat tickrate / fin 1000000 : Fl) = fin 4 := by
    rw [h1, fin_div _ _ (by norm_num), h4]
  have hm : rnd ((us.toNat : ℚ) * 4) = fin (((us.toNat * 4 : ℕ)) : ℚ) := by
    have := rnd_dyadic us.toNat 2 (by rw [abs_of_nonneg (by positivity)]; exact_mod_cast h) (by norm_num)
    norm_num at this
    rw [this]; push_cast; rfl
  unfold timeFromUs
  rw [h2]
  unfold Fl.ofU32
  rw [rnd_nat _ h, fin_mul, hm, toU32_nat _ (by omega)]
  exact ⟨_, rfl, by rw [BitVec.toNat_ofNat]; omega⟩

/-- Past 2^24 µs the single-precision conversion is not exact any more. -/
theorem C02_time_from_us_exact_limit :
    @timeFromUs binary32 (BitVec.ofNat 32 (2 ^ 24 + 1)) = .ok (BitVec.ofNat 32 (4 * 2 ^ 24)) := by
  decide +kernel

/-- From 2^30 µs (17.9 minutes) on the conversion is undefined behaviour. -/
theorem C02_time_from_us_undefined (us : BitVec 32) (h : 2 ^ 30 ≤ us.toNat) [FloatFmt] :
    timeFromUs us = .error .floatToInt := by
  have h1 : (Fl.ofNat tickrate : Fl) = fin 4000000 := by
    unfold Fl.ofNat tickrate
    have := rnd_nat 4000000 (by norm_num)
    simpa using this
  have h4 : rnd (4000000 / 1000000 : ℚ) = fin 4 := by
    rw [show (4000000 / 1000000 : ℚ) = ((4 : ℕ) : ℚ) by norm_num]
    simpa using rnd_nat 4 (by norm_num)
  have h2 : (Fl.ofNat tickrate / fin 1000000 : Fl) = fin 4 := by
    rw [h1, fin_div _ _ (by norm_num), h4]
  unfold timeFromUs
  rw [h2]
  unfold Fl.ofU32
  have r30 : rnd ((2 : ℚ) ^ 30) = fin (2 ^ 30) := by
    have := rnd_dyadic 1 30 (by norm_num) (by norm_num)
    simpa using this
  have r32 : rnd ((2 : ℚ) ^ 32) = fin (2 ^ 32) := by
    have := rnd_dyadic 1 32 (by norm_num) (by norm_num)
    simpa using this
  obtain ⟨y, hy, hy1, _⟩ := rnd_between (a := 2 ^ 30) (x := us.toNat) (b := 2 ^ 32)
    (by exact_mod_cast h) (by exact_mod_cast us.isLt.le) r30 r32
  rw [hy, fin_mul]
  have hle := le_rnd_of_le (a := 2 ^ 32) (b := y * 4) (by linarith) r32
  rcases hx : rnd (y * 4) with _ | s | z
  · rfl
  · rfl
  · rw [hx] at hle
    have hz : (2 : ℚ) ^ 32 ≤ z := by simpa using hle
    simp only [toU32]
    rw [if_neg]
    rintro ⟨_, h3⟩
    norm_num at hz
    linarith

/-- More degrees never take less time (any rpm, any rounding). -/
theorem C02_time_mono_degrees [FloatFmt] (rpm : BitVec 32) (d1 d2 : Fl) (h : le d1 d2 = true)
    {t1 t2 : Time} (h1 : timeFromRpmDiff rpm d1 = .ok t1) (h2 : timeFromRpmDiff rpm d2 = .ok t2) :
    t1.toNat ≤ t2.toNat := by
  unfold timeFromRpmDiff at h1 h2
  obtain ⟨p, hp, _⟩ := toU32_ok h1
  obtain ⟨q, hq, _⟩ := toU32_ok h2
  refine toU32_mono h1 h2 ?_
  obtain ⟨c, x, hc, hx, h3⟩ := mul_eq_fin hp
  obtain ⟨c', y, hc', hy, h4⟩ := mul_eq_fin hq
  rw [hc] at hc'
  cases hc'
  rw [hp, hq]
  subst hx hy
  have hxy : x ≤ y := by simpa using h
  have hc0 : 0 ≤ c := by
    obtain ⟨ρ, hρ, hρ1, _⟩ := ratio_fin
    rw [hρ] at hc
    rcases div_eq_fin hc with ⟨a, b, ha, hb, _, hr⟩ | ⟨_, _, _, _, hr⟩
    · cases ha
      have hb0 : 0 ≤ b := by
        have : rnd (rpm.toNat : ℚ) = fin b := hb
        exact rnd_nonneg (by positivity) this
      exact rnd_nonneg (by positivity) hr
    · exact hr.ge
  have := rnd_fin_mono (mul_le_mul_of_nonneg_left hxy hc0) h3 h4
  simpa using this

/-- A faster engine never takes more time for the same (non-negative) angle. -/
theorem C02_time_antitone_rpm [FloatFmt] (rpm1 rpm2 : BitVec 32) (d : Fl) (hd : le (fin 0) d = true)
    (h0 : 0 < rpm1.toNat) (h : rpm1.toNat ≤ rpm2.toNat)
    {t1 t2 : Time} (h1 : timeFromRpmDiff rpm1 d = .ok t1) (h2 : timeFromRpmDiff rpm2 d = .ok t2) :
    t2.toNat ≤ t1.toNat := by
  unfold timeFromRpmDiff at h1 h2
  obtain ⟨p, hp, _⟩ := toU32_ok h1
  obtain ⟨q, hq, _⟩ := toU32_ok h2
  refine toU32_mono h2 h1 ?_
  obtain ⟨c, x, hc, hx, h3⟩ := mul_eq_fin hp
  obtain ⟨c', y, hc', hy, h4⟩ := mul_eq_fin hq
  rw [hx] at hy
  cases hy
  rw [hp, hq]
  subst hx
  have hx0 : 0 ≤ x := by simpa using hd
  obtain ⟨ρ, hρ, hρ1, _⟩ := ratio_fin
  rw [hρ] at hc hc'
  obtain ⟨b, hb, hb1, _⟩ := rnd_u32_pos rpm1.toNat h0 rpm1.isLt
  obtain ⟨b', hb', hb1', _⟩ := rnd_u32_pos rpm2.toNat (by omega) rpm2.isLt
  have hbb : b ≤ b' := rnd_fin_mono (by exact_mod_cast h) hb hb'
  unfold Fl.ofU32 at hc hc'
  rw [hb, fin_div _ _ (by linarith)] at hc
  rw [hb', fin_div _ _ (by linarith)] at hc'
  have hcc : c' ≤ c := rnd_fin_mono (div_le_div_of_nonneg_left (by linarith) (by linarith) hbb) hc' hc
  have := rnd_fin_mono (mul_le_mul_of_nonneg_right hcc hx0) h4 h3
  simpa using this

/-- A longer tooth time never gives a higher rpm (positive tooth angle, any rounding). -/
theorem C02_rpm_antitone_time [FloatFmt] (t1 t2 : Time) (d : Fl) (hd : lt (fin 0) d = true)
    (h : t1.toNat ≤ t2.toNat) {r1 r2 : BitVec 32}
    (h1 : rpmFromTimeDiff t1 d = .ok r1) (h2 : rpmFromTimeDiff t2 d = .ok r2) :
    r2.toNat ≤ r1.toNat := by
  unfold rpmFromTimeDiff at h1 h2
  obtain ⟨p, hp, _⟩ := toU32_ok h1
  obtain ⟨q, hq, _⟩ := toU32_ok h2
  refine toU32_mono h2 h1 ?_
  rw [hp, hq]
  obtain ⟨ρ, hρ, hρ1, _⟩ := ratio_fin
  rw [hρ] at hp hq
  -- the numerators
  obtain ⟨y1, hy1, hy10, _⟩ := rnd_u32 t1.toNat t1.isLt
  obtain ⟨y2, hy2, hy20, _⟩ := rnd_u32 t2.toNat t2.isLt
  have hyy : y1 ≤ y2 := rnd_fin_mono (by exact_mod_cast h) hy1 hy2
  unfold Fl.ofU32 at hp hq
  rw [hy1] at hp
  rw [hy2] at hq
  rcases d with _ | s | d
  · simp at hd
  · -- infinite angle: ticks per degree is 0 and the quotient is not finite
    exfalso
    have : (fin y1 / inf s : Fl) = fin 0 := rfl
    rw [this] at hp
    rcases div_eq_fin hp with ⟨_, b, _, hb, hb0, _⟩ | ⟨_, _, _, hb, _⟩
    · cases hb; exact hb0 rfl
    · cases hb
  · have hd0 : 0 < d := by simpa using hd
    rw [fin_div _ _ hd0.ne'] at hp hq
    have hmono : y1 / d ≤ y2 / d := div_le_div_of_nonneg_right hyy hd0.le
    have hle := rnd_mono hmono
    have hn1 : 0 ≤ y1 / d := by positivity
    have hn2 : 0 ≤ y2 / d := by positivity
    rcases div_eq_fin hq with ⟨a, b, ha, hb, hb0, hr⟩ | ⟨a, s, ha, hb, hr⟩
    · cases ha
      rcases div_eq_fin hp with ⟨a', b', ha', hb', hb0', hr'⟩ | ⟨a', s, ha', hb', hr'⟩
      · cases ha'
        have hbb : b' ≤ b := rnd_fin_mono hmono hb' hb
        have hb'0 : 0 < b' := lt_of_le_of_ne (rnd_nonneg hn1 hb') (Ne.symm hb0')
        have := rnd_fin_mono (div_le_div_of_nonneg_left (by linarith : 0 ≤ ρ) hb'0 hbb) hr hr'
        simpa using this
      · -- the smaller quotient cannot be infinite when the larger is finite
        exfalso
        rw [hb, hb'] at hle
        have hpos := le_rnd_of_le hn1 rnd_zero
        rw [hb'] at hpos
        cases s <;> simp [Fl.le] at hle hpos
    · subst hr
      have hp0 : 0 ≤ p := by
        rcases div_eq_fin hp with ⟨a', b', ha', hb', _, hr'⟩ | ⟨_, _, _, _, hr'⟩
        · cases ha'
          have := rnd_nonneg hn1 hb'
          exact rnd_nonneg (by positivity) hr'
        · exact hr'.ge
      simpa using hp0

/-- The time for an angle is within one tick plus 4·2^-24 relative error of the physical value
`deg · 4 MHz · 60 / (360 · rpm)`, in single precision, whenever the result is defined. -/
theorem C02_time_from_rpm_diff_accuracy [FloatFmt] (rpm : BitVec 32) (d : ℚ)
    (hr0 : 0 < rpm.toNat) (hr1 : rpm.toNat ≤ 2 ^ 24) (hd0 : 1 / 2 ^ 20 ≤ d) (hd1 : d ≤ 2 ^ 20)
    {t : Time} (h : timeFromRpmDiff rpm (fin d) = .ok t) :
    |(t.toNat : ℚ) - d * (4000000 * 60) / (360 * rpm.toNat)| ≤
      1 + (d * (4000000 * 60) / (360 * rpm.toNat)) * (4 / 2 ^ 24) := by
  unfold timeFromRpmDiff at h
  obtain ⟨p, hp, hp1, _, hp2⟩ := toU32_ok h
  obtain ⟨ρ, hρ, hρ1, hρ2, hρ3⟩ := ratio_fin
  have hrq : (1 : ℚ) ≤ rpm.toNat := by exact_mod_cast hr0
  have hrq2 : (rpm.toNat : ℚ) ≤ 2 ^ 24 := by exact_mod_cast hr1
  unfold Fl.ofU32 at hp
  rw [hρ, rnd_nat _ hr1, fin_div _ _ (by linarith)] at hp
  have hq1 : (2 : ℚ) ^ (-100 : ℤ) ≤ |ρ / rpm.toNat| := by
    rw [abs_of_pos (by positivity), le_div_iff₀ (by linarith)]
    have h100 : (2 : ℚ) ^ (-100 : ℤ) * 2 ^ 24 ≤ 1 := by norm_num
    have := mul_le_mul_of_nonneg_left hrq2 (show (0 : ℚ) ≤ 2 ^ (-100 : ℤ) by positivity)
    linarith
  have hq2 : |ρ / rpm.toNat| ≤ 2 ^ 100 := by
    rw [abs_of_pos (by positivity), div_le_iff₀ (by linarith)]
    have h100 : (2 : ℚ) ^ 20 ≤ 2 ^ 100 := by norm_num
    have := mul_le_mul_of_nonneg_left hrq (show (0 : ℚ) ≤ 2 ^ 100 by positivity)
    linarith
  obtain ⟨c, hc, hce⟩ := rnd_rel _ hq1 hq2
  rw [hc, fin_mul] at hp
  set n : ℚ := ((rpm.toNat : ℕ) : ℚ) with hn
  have hdpos : 0 < d := by have : (0 : ℚ) < 1 / 2 ^ 20 := by norm_num
                           linarith
  have hcn : |ρ / n| = ρ / n := abs_of_pos (by positivity)
  rw [hcn] at hce
  have hcl : (ρ / n) * (1 - 1 / 2 ^ 24) ≤ c := by rw [abs_le] at hce; linarith [hce.1]
  have hcu : c ≤ (ρ / n) * (1 + 1 / 2 ^ 24) := by rw [abs_le] at hce; linarith [hce.2]
  have hρn : 1 / 2 ^ 24 ≤ ρ / n := by
    rw [div_le_div_iff₀ (by norm_num) (by linarith)]; linarith
  have hρn2 : ρ / n ≤ 2 ^ 20 := by
    rw [div_le_iff₀ (by linarith)]; linarith
  have hcpos : 1 / 2 ^ 25 ≤ c := by
    refine le_trans ?_ hcl
    have := mul_le_mul_of_nonneg_right hρn (show (0 : ℚ) ≤ 1 - 1 / 2 ^ 24 by norm_num)
    norm_num at this ⊢; linarith
  have hc21 : c ≤ 2 ^ 21 := by
    refine le_trans hcu ?_
    have := mul_le_mul_of_nonneg_right hρn2 (show (0 : ℚ) ≤ 1 + 1 / 2 ^ 24 by norm_num)
    norm_num at this ⊢; linarith
  have hcd : 0 < c * d := by
    have : (0 : ℚ) < 1 / 2 ^ 25 := by norm_num
    have : 0 < c := by linarith
    positivity
  obtain ⟨z, hz, hze⟩ := rnd_rel (c * d)
    (by rw [abs_of_pos hcd]
        have h3 := mul_le_mul hcpos hd0 (by norm_num) (by linarith)
        norm_num at h3 ⊢; linarith)
    (by rw [abs_of_pos hcd]
        have h3 := mul_le_mul hc21 hd1 (by linarith) (by norm_num)
        norm_num at h3 ⊢; linarith)
  rw [hz] at hp
  injection hp with hp
  subst hp
  rw [abs_of_pos hcd] at hze
  -- the three relative errors
  set T : ℚ := d * (4000000 * 60) / (360 * n) with hT
  have hTe : T = (4000000 / 6) / n * d := by rw [hT]; field_simp; ring
  have hTpos : 0 < T := by rw [hTe]; positivity
  rw [abs_le] at hρ3
  have hzu : z ≤ T * (1 + 4 / 2 ^ 24 ) - T * (1 / 2 ^ 30) := by
    have e1 : z ≤ c * d * (1 + 1 / 2 ^ 24) := by rw [abs_le] at hze; linarith [hze.2]
    have e2 : c * d ≤ (ρ / n) * (1 + 1 / 2 ^ 24) * d := mul_le_mul_of_nonneg_right hcu hdpos.le
    have e3 : ρ / n ≤ ((4000000 / 6) * (1 + 1 / 2 ^ 24)) / n :=
      div_le_div_of_nonneg_right (by linarith [hρ3.2]) (by linarith)
    have e4 : (ρ / n) * d ≤ T * (1 + 1 / 2 ^ 24) := by
      calc (ρ / n) * d ≤ ((4000000 / 6) * (1 + 1 / 2 ^ 24)) / n * d := mul_le_mul_of_nonneg_right e3 hdpos.le
        _ = T * (1 + 1 / 2 ^ 24) := by rw [hTe]; ring
    have e5 : z ≤ T * ((1 + 1 / 2 ^ 24) * (1 + 1 / 2 ^ 24) * (1 + 1 / 2 ^ 24)) := by
      have := mul_le_mul_of_nonneg_right e4 (show (0 : ℚ) ≤ (1 + 1 / 2 ^ 24) * (1 + 1 / 2 ^ 24) by norm_num)
      have := mul_le_mul_of_nonneg_right e2 (show (0 : ℚ) ≤ (1 + 1 / 2 ^ 24) by norm_num)
      linarith
    refine e5.trans ?_
    rw [← mul_sub]
    exact mul_le_mul_of_nonneg_left (by norm_num) hTpos.le
  have hzl : T * (1 - 4 / 2 ^ 24) ≤ z := by
    have e1 : c * d * (1 - 1 / 2 ^ 24) ≤ z := by rw [abs_le] at hze; linarith [hze.1]
    have e2 : (ρ / n) * (1 - 1 / 2 ^ 24) * d ≤ c * d := mul_le_mul_of_nonneg_right hcl hdpos.le
    have e3 : ((4000000 / 6) * (1 - 1 / 2 ^ 24)) / n ≤ ρ / n :=
      div_le_div_of_nonneg_right (by linarith [hρ3.1]) (by linarith)
    have e4 : T * (1 - 1 / 2 ^ 24) ≤ (ρ / n) * d := by
      calc T * (1 - 1 / 2 ^ 24) = ((4000000 / 6) * (1 - 1 / 2 ^ 24)) / n * d := by rw [hTe]; ring
        _ ≤ (ρ / n) * d := mul_le_mul_of_nonneg_right e3 hdpos.le
    have e5 : T * ((1 - 1 / 2 ^ 24) * (1 - 1 / 2 ^ 24) * (1 - 1 / 2 ^ 24)) ≤ z := by
      have := mul_le_mul_of_nonneg_right e4 (show (0 : ℚ) ≤ (1 - 1 / 2 ^ 24) * (1 - 1 / 2 ^ 24) by norm_num)
      have := mul_le_mul_of_nonneg_right e2 (show (0 : ℚ) ≤ (1 - 1 / 2 ^ 24) by norm_num)
      linarith
    refine le_trans ?_ e5
    exact mul_le_mul_of_nonneg_left (by norm_num) hTpos.le
  have hz0 : 0 ≤ z := rnd_nonneg hcd.le hz
  have hfl : (t.toNat : ℚ) = ((⌊z⌋ : ℤ) : ℚ) := by
    have h5 : 0 ≤ ⌊z⌋ := Int.floor_nonneg.mpr hz0
    have : (t.toNat : ℤ) = ⌊z⌋ := by omega
    exact_mod_cast this
  have f1 := Int.floor_le z
  have f2 := Int.lt_floor_add_one z
  rw [hfl, abs_le]
  constructor
  · linarith
  · have : 0 ≤ T * (1 / 2 ^ 30) := by positivity
    linarith

/-- In exact arithmetic the conversions are the truncated physical quantities. -/
theorem C02_exact_time (rpm : BitVec 32) (d : ℚ) (hr : 0 < rpm.toNat) (hd : 0 ≤ d)
    (hfit : d * (4000000 * 60) / (360 * rpm.toNat) < 2 ^ 32) :
    ∃ t, @timeFromRpmDiff exactFmt rpm (fin d) = .ok t ∧
      (t.toNat : ℤ) = ⌊d * (4000000 * 60) / (360 * rpm.toNat)⌋ := by
  have hrq : (0 : ℚ) < rpm.toNat := by exact_mod_cast hr
  have hval : (4000000 / 6 / (rpm.toNat : ℚ) * d) = d * (4000000 * 60) / (360 * rpm.toNat) := by
    field_simp; ring
  have : @timeFromRpmDiff exactFmt rpm (fin d) = toU32 (fin (d * (4000000 * 60) / (360 * rpm.toNat))) := by
    rw [← hval]
    let _ := exactFmt
    unfold timeFromRpmDiff tickDegreeRpmRatio Fl.ofNat Fl.ofU32 tickrate
    dsimp only
    rw [exact_rnd, exact_rnd, fin_div _ _ (by norm_num), exact_rnd, fin_div _ _ hrq.ne', exact_rnd,
      fin_mul, exact_rnd]
    norm_num
  rw [this]
  exact toU32_fin (by positivity) (by norm_num at hfit ⊢; linarith)

theorem C02_exact_rpm (t : Time) (d : ℚ) (ht : 0 < t.toNat) (hd : 0 < d)
    (hfit : d * (4000000 * 60) / (360 * t.toNat) < 2 ^ 32) :
    ∃ r, @rpmFromTimeDiff exactFmt t (fin d) = .ok r ∧
      (r.toNat : ℤ) = ⌊d * (4000000 * 60) / (360 * t.toNat)⌋ := by
  have hrq : (0 : ℚ) < t.toNat := by exact_mod_cast ht
  have hval : (4000000 / 6 / ((t.toNat : ℚ) / d)) = d * (4000000 * 60) / (360 * t.toNat) := by
    field_simp; ring
  have hne : (t.toNat : ℚ) / d ≠ 0 := by positivity
  have : @rpmFromTimeDiff exactFmt t (fin d) = toU32 (fin (d * (4000000 * 60) / (360 * t.toNat))) := by
    rw [← hval]
    let _ := exactFmt
    unfold rpmFromTimeDiff tickDegreeRpmRatio Fl.ofNat Fl.ofU32 tickrate
    dsimp only
    rw [exact_rnd, exact_rnd, fin_div _ 6 (by norm_num), exact_rnd, fin_div _ d hd.ne', exact_rnd,
      fin_div _ _ hne, exact_rnd]
    norm_num
  rw [this]
  exact toU32_fin (by positivity) (by norm_num at hfit ⊢; linarith)

/-- In exact arithmetic, converting an angle to ticks and back loses less than one tick's angle. -/
theorem C02_exact_roundtrip (rpm : BitVec 32) (d : ℚ) (hr : 0 < rpm.toNat) (hd : 0 ≤ d)
    (hfit : d * (4000000 * 60) / (360 * rpm.toNat) < 2 ^ 32) :
    ∃ t d', @timeFromRpmDiff exactFmt rpm (fin d) = .ok t ∧
      @degreesFromTimeDiff exactFmt t rpm = fin d' ∧
      d' ≤ d ∧ d - d' < (360 * rpm.toNat) / (4000000 * 60) := by
  obtain ⟨t, ht, htv⟩ := C02_exact_time rpm d hr hd hfit
  have hrq : (0 : ℚ) < rpm.toNat := by exact_mod_cast hr
  refine ⟨t, (t.toNat : ℚ) * ((360 * rpm.toNat) / (4000000 * 60)), ht, ?_, ?_, ?_⟩
  · let _ := exactFmt
    unfold degreesFromTimeDiff tickDegreeRpmRatio Fl.ofNat Fl.ofU32 tickrate
    rw [exact_rnd, exact_rnd, exact_rnd, fin_div _ _ (by norm_num), exact_rnd, fin_div _ _ hrq.ne',
      exact_rnd, fin_div _ _ (by positivity), exact_rnd]
    congr 1
    push_cast
    field_simp
    ring
  all_goals
    have f1 := Int.floor_le (d * (4000000 * 60) / (360 * (rpm.toNat : ℚ)))
    have f2 := Int.lt_floor_add_one (d * (4000000 * 60) / (360 * (rpm.toNat : ℚ)))
    rw [← htv] at f1 f2
    push_cast at f1 f2
    rw [le_div_iff₀ (by positivity)] at f1
    rw [div_lt_iff₀ (by positivity)] at f2
    norm_num at f1 f2 ⊢
    linarith

/-- Both conversions are undefined at zero: a zero rpm or a zero tooth time (any rounding). -/
theorem C02_undefined_at_zero [FloatFmt] (d : ℚ) (hd : 0 < d) :
    timeFromRpmDiff 0 (fin d) = .error .floatToInt ∧
    rpmFromTimeDiff 0 (fin d) = .error .floatToInt := by
  obtain ⟨ρ, hρ, hρ1, _⟩ := ratio_fin
  have h0 : (Fl.ofU32 (0 : BitVec 32) : Fl) = fin 0 := by simp [Fl.ofU32]
  have hz : (fin ρ / fin 0 : Fl) = inf (decide (ρ < 0)) := by
    show Fl.div _ _ = _
    simp [Fl.div, show ρ ≠ 0 by linarith]
  constructor
  · unfold timeFromRpmDiff
    dsimp only
    rw [hρ, h0, hz]
    show toU32 (Fl.mul _ _) = _
    simp [Fl.mul, hd.ne', toU32]
  · unfold rpmFromTimeDiff
    dsimp only
    rw [hρ, h0]
    rw [fin_div _ _ hd.ne', zero_div, rnd_zero, hz]
    rfl

-- concrete cases that meet the hypotheses
example : @timeFromUs binary32 4000 = .ok 16000 := by decide +kernel
example : @timeFromRpmDiff binary32 6000 (fin 10) = .ok 1111 ∧
    @timeFromRpmDiff binary32 6000 (fin 90) = .ok 10000 ∧
    @timeFromRpmDiff binary32 3000 (fin 90) = .ok 20000 := by decide +kernel
example : @rpmFromTimeDiff binary32 1111 (fin 10) = .ok 6000 := by decide +kernel
example : 0 < (6000 : BitVec 32).toNat ∧ (6000 : BitVec 32).toNat ≤ 2 ^ 24 ∧
    (1 : ℚ) / 2 ^ 20 ≤ 90 ∧ (90 : ℚ) ≤ 2 ^ 20 := by
  refine ⟨by decide, by decide, ?_, ?_⟩ <;> norm_num

/-! ## C03 -/

/-- Whenever `clamp_angle` returns, the result is in [0, max) (any rounding; a NaN angle is the
only exception, see `C03_nan`). -/
theorem C03_range [FloatFmt] (ang : Fl) (hang : ang ≠ nan) (max : ℚ) (hmax : 0 < max) (r : Fl)
    (h : clampAngle ang (fin max) = .ok r) :
    le (fin 0) r = true ∧ lt r (fin max) = true := by
  unfold clampAngle at h
  rcases hu : clampUp (clampFuel ang (fin max)) ang (fin max) with e | a
  · rw [hu] at h; cases h
  · rw [hu] at h
    obtain ⟨h0, hn⟩ := clampUp_nonneg hang hu
    exact clampDown_range hmax hn h0 h

/-- A NaN angle is returned as it is. -/
theorem C03_nan [FloatFmt] (max : ℚ) : clampAngle nan (fin max) = .ok nan :=
  clampAngle_id (by simp) (by simp)

/-- Normalising twice is normalising once. -/
theorem C03_idempotent [FloatFmt] (ang : Fl) (max : ℚ) (hmax : 0 < max) (r : Fl)
    (h : clampAngle ang (fin max) = .ok r) : clampAngle r (fin max) = .ok r := by
  by_cases hang : ang = nan
  · subst hang
    rw [C03_nan] at h
    injection h with h
    subst h
    exact C03_nan max
  · obtain ⟨h0, h1⟩ := C03_range ang hang max hmax r h
    refine clampAngle_id (not_lt_of_le h0) ?_
    rcases r with _ | s | q
    · simp
    · cases s <;> simp_all [Fl.le, Fl.lt]
    · simpa using h1

/-- It returns for every angle up to 2^24 in magnitude, for every representable turn length of at
least 1 (any rounding, in particular binary32). -/
theorem C03_terminates [FloatFmt] (ang max : ℚ) (hang : |ang| ≤ 2 ^ 24) (hmax : 1 ≤ max)
    (hrep : rnd max = fin max) : ∃ r, clampAngle (fin ang) (fin max) = .ok (fin r) :=
  clampAngle_terminates hmax hrep hang

/-- Exact arithmetic: it always returns, the result is in [0, max) and differs from the input by a
whole number of turns (and is the only such number). -/
theorem C03_exact (ang max : ℚ) (hmax : 0 < max) :
    ∃ r : ℚ, @clampAngle exactFmt (fin ang) (fin max) = .ok (fin r) ∧
      (0 ≤ r ∧ r < max ∧ ∃ k : ℤ, r = ang + k * max) ∧
      ∀ r', (0 ≤ r' ∧ r' < max ∧ ∃ k : ℤ, r' = ang + k * max) → r' = r := by
  obtain ⟨r, k, h, hr, h0, h1⟩ := exact_clampAngle (q := ang) hmax
  refine ⟨r, h, ⟨h0, h1, k, hr⟩, ?_⟩
  rintro r' ⟨h0', h1', k', hr'⟩
  have hk : (k' : ℚ) = k := by
    have e : r' - r = ((k' - k : ℤ) : ℚ) * max := by rw [hr, hr']; push_cast; ring
    have u : ((k' - k : ℤ) : ℚ) < 1 := by
      by_contra hge
      have := mul_le_mul_of_nonneg_right (not_lt.mp hge) hmax.le
      linarith
    have l : (-1 : ℚ) < ((k' - k : ℤ) : ℚ) := by
      by_contra hge
      have := mul_le_mul_of_nonneg_right (not_lt.mp hge) hmax.le
      linarith
    have u' : k' - k < 1 := by exact_mod_cast u
    have l' : -1 < k' - k := by exact_mod_cast l
    have : k' = k := by omega
    exact_mod_cast this
  rw [hr, hr', hk]

/-- In binary32 the loop does not terminate for a large finite angle: 2^35 - 720 rounds back to
2^35, so no number of iterations suffices. -/
theorem C03_binary32_diverges :
    (∀ n, @clampDown binary32 n (fin (2 ^ 35)) (fin 720) = .error .diverge) ∧
    @clampAngle binary32 (fin (2 ^ 35)) (fin 720) = .error .diverge := by
  have hstep : @HSub.hSub Fl Fl Fl (@instHSub Fl (@Fl.instSub binary32)) (fin (2 ^ 35)) (fin 720)
      = fin (2 ^ 35) := by decide +kernel
  have hall : ∀ n, @clampDown binary32 n (fin (2 ^ 35)) (fin 720) = .error .diverge := by
    intro n
    induction n with
    | zero => rfl
    | succ n ih =>
      simp only [clampDown]
      rw [if_pos (by norm_num), hstep, ih]
  refine ⟨hall, ?_⟩
  have hup : @clampUp binary32 (clampFuel (fin (2 ^ 35)) (fin 720)) (fin (2 ^ 35)) (fin 720)
      = .ok (fin (2 ^ 35)) := by
    obtain ⟨k, hk, _⟩ := clampFuel_pos (fin (2 ^ 35)) (fin 720)
    rw [hk, @clampUp_id binary32 _ _ _ (by norm_num)]
  rw [@clampAngle_of_up binary32 _ _ _ hup, hall]

/-- An infinite angle never returns either. -/
theorem C03_inf_diverges [FloatFmt] (s : Bool) (max : ℚ) :
    clampAngle (inf s) (fin max) = .error .diverge := by
  cases s
  · have hup : clampUp (clampFuel (inf false) (fin max)) (inf false) (fin max) = .ok (inf false) := by
      obtain ⟨k, hk, _⟩ := clampFuel_pos (inf false) (fin max)
      rw [hk, clampUp_id rfl]
    have hall : ∀ n, clampDown n (inf false) (fin max) = .error .diverge := by
      intro n
      induction n with
      | zero => rfl
      | succ n ih => simp only [clampDown]; rw [if_pos (by rfl)]; exact ih
    rw [clampAngle_of_up hup, hall]
  · have hall : ∀ n, clampUp n (inf true) (fin max) = .error .diverge := by
      intro n
      induction n with
      | zero => rfl
      | succ n ih => simp only [clampUp]; rw [if_pos (by rfl)]; exact ih
    exact clampAngle_up_error (hall _)

example : @clampAngle binary32 (fin (-1450)) (fin 720) = .ok (fin 710) := by decide +kernel
example : @clampAngle exactFmt (fin (1441 / 2)) (fin 720) = .ok (fin (1 / 2)) := by decide +kernel
example : |(-1450 : ℚ)| ≤ 2 ^ 24 ∧ (1 : ℚ) ≤ 720 ∧ rnd32 720 = fin 720 := by
  refine ⟨by norm_num [abs_of_nonpos], by norm_num, by decide +kernel⟩

end Verif
