/-
The time computed for a crank angle, and the angle of the crank at that time.
-/
import Verif.Spec.Spark
import Verif.Proofs.TableSharp
import Verif.Proofs.Expire
import Verif.Props.Util

namespace Verif

variable [FloatFmt]
open FloatFmt Fl

/-- One float operation on angles. -/
theorem rnd_ang {x : ℚ} (h : |x| ≤ 4096) : ∃ y, rnd x = fin y ∧ |y - x| ≤ 1 / 4000 := by
  obtain ⟨y, h1, h2, -⟩ := rnd_err (x := x) (le_trans h (by norm_num))
  refine ⟨y, h1, le_trans h2 ?_⟩
  have : |x| / 2 ^ 24 ≤ 4096 / 2 ^ 24 := div_le_div_of_nonneg_right h (by norm_num)
  refine le_trans (add_le_add_left this _) ?_
  norm_num

theorem clampUp_near {k : ℕ} : ∀ {n : ℕ} {q : ℚ} {r : Fl}, -(719 * (k : ℚ)) ≤ q → -4000 ≤ q → q ≤ 4000 →
    clampUp n (fin q) (fin 720) = .ok r →
    ∃ y, r = fin y ∧ 0 ≤ y ∧ (y = q ∨ y ≤ 721) ∧ ∃ j : ℤ, |y - q - 720 * j| ≤ k * (1 / 4000) := by
  induction k with
  | zero =>
      intro n q r h1 h2 h3 h
      cases n with
      | zero => cases h
      | succ n =>
          have h0 : 0 ≤ q := by simpa using h1
          simp only [clampUp] at h
          rw [if_neg (by simpa using h0)] at h
          cases h
          exact ⟨q, rfl, h0, .inl rfl, 0, by simp⟩
  | succ k ih =>
      intro n q r h1 h2 h3 h
      cases n with
      | zero => cases h
      | succ n =>
          simp only [clampUp] at h
          split_ifs at h with hlt
          · have hq0 : q < 0 := by simpa using hlt
            obtain ⟨y, hy, he⟩ := rnd_ang (x := q + 720) (by rw [abs_le]; constructor <;> linarith)
            rw [fin_add, hy] at h
            rw [abs_le] at he
            push_cast at h1
            obtain ⟨z, rfl, hz0, hz1, j, hj⟩ := ih (by linarith [he.1]) (by linarith [he.1]) (by linarith [he.2]) h
            refine ⟨z, rfl, hz0, .inr ?_, j + 1, ?_⟩
            · rcases hz1 with rfl | hz1
              · linarith [he.2]
              · exact hz1
            · rw [abs_le] at hj ⊢
              push_cast
              constructor <;> linarith [hj.1, hj.2, he.1, he.2]
          · cases h
            refine ⟨q, rfl, by simpa using hlt, .inl rfl, 0, ?_⟩
            simp
            positivity

theorem clampDown_near {k : ℕ} : ∀ {n : ℕ} {q : ℚ} {r : Fl}, q ≤ 719 * (k : ℚ) → 0 ≤ q → q ≤ 4000 →
    clampDown n (fin q) (fin 720) = .ok r →
    ∃ y, r = fin y ∧ 0 ≤ y ∧ y ≤ 720 ∧ ∃ j : ℤ, |y - q - 720 * j| ≤ k * (1 / 4000) := by
  induction k with
  | zero =>
      intro n q r h1 h2 h3 h
      cases n with
      | zero => cases h
      | succ n =>
          have h0 : q ≤ 0 := by simpa using h1
          simp only [clampDown] at h
          rw [if_neg (by simp; linarith)] at h
          cases h
          exact ⟨q, rfl, h2, by linarith, 0, by simp⟩
  | succ k ih =>
      intro n q r h1 h2 h3 h
      cases n with
      | zero => cases h
      | succ n =>
          simp only [clampDown] at h
          split_ifs at h with hle
          · have hq0 : 720 ≤ q := by simpa using hle
            obtain ⟨y, hy, he⟩ := rnd_ang (x := q - 720) (by rw [abs_le]; constructor <;> linarith)
            have hy0 : 0 ≤ y := rnd_nonneg (by linarith) hy
            rw [fin_sub, hy] at h
            rw [abs_le] at he
            push_cast at h1
            obtain ⟨z, rfl, hz0, hz1, j, hj⟩ := ih (by linarith [he.2]) hy0 (by linarith [he.2]) h
            refine ⟨z, rfl, hz0, hz1, j - 1, ?_⟩
            rw [abs_le] at hj ⊢
            push_cast
            constructor <;> linarith [hj.1, hj.2, he.1, he.2]
          · cases h
            have hq : q < 720 := by simpa using hle
            refine ⟨q, rfl, h2, hq.le, 0, ?_⟩
            simp
            positivity

/-- `clamp_angle` changes the angle by a number of cycles, up to rounding. -/
theorem clampAngle_near {q : ℚ} {r : Fl} (h1 : -3500 ≤ q) (h2 : q ≤ 3500) (h : clampAngle (fin q) (fin 720) = .ok r) :
    ∃ y, r = fin y ∧ 0 ≤ y ∧ y ≤ 720 ∧ ∃ j : ℤ, |y - q - 720 * j| ≤ 1 / 400 := by
  unfold clampAngle at h
  rw [bind_eq_ok] at h
  obtain ⟨a, ha, h⟩ := h
  obtain ⟨z, rfl, hz0, hz1, j, hj⟩ := clampUp_near (k := 5) (by norm_num; linarith) (by linarith) (by linarith) ha
  obtain ⟨y, rfl, hy0, hy1, j', hj'⟩ := clampDown_near (k := 5) (by
    rcases hz1 with rfl | hz1
    · norm_num; linarith
    · norm_num; linarith) hz0 (by
    rcases hz1 with rfl | hz1 <;> linarith) h
  refine ⟨y, rfl, hy0, hy1, j + j', ?_⟩
  rw [abs_le] at hj hj' ⊢
  norm_num at hj hj'
  push_cast
  constructor <;> linarith [hj.1, hj.2, hj'.1, hj'.2]

/-- Ticks per degree. -/
theorem tpd_close {r : BitVec 32} (hr : 1 ≤ r.toNat) : ∃ f : ℚ,
    tickDegreeRpmRatio / Fl.ofU32 r = fin (4000000 / 6 / r.toNat * f) ∧ 1 - 1 / 2 ^ 22 ≤ f ∧ f ≤ 1 + 1 / 2 ^ 22 := by
  have hr1 : (1 : ℚ) ≤ r.toNat := by exact_mod_cast hr
  have hr2 : (r.toNat : ℚ) < 2 ^ 32 := by exact_mod_cast r.isLt
  generalize hn : (r.toNat : ℚ) = τ at *
  have hτ0 : 0 < τ := by linarith
  obtain ⟨a, ha, ha1, ha2⟩ := rnd_factor (x := τ) (le_trans (by norm_num) hr1) (le_trans hr2.le (by norm_num))
  norm_num at ha1 ha2
  obtain ⟨ρ, hρ, hρ1, hρ2, hρ3⟩ := ratio_fin
  rw [abs_le] at hρ3
  norm_num at hρ3
  have ha0 : 0 < a := by linarith
  have hτa : 0 < τ * a := mul_pos hτ0 ha0
  have hx1 : (1 : ℚ) / 2 ^ 40 ≤ ρ / (τ * a) := by
    rw [le_div_iff₀ hτa]
    norm_num at *
    nlinarith
  have hx2 : ρ / (τ * a) ≤ 2 ^ 22 := by
    rw [div_le_iff₀ hτa]
    norm_num at *
    nlinarith
  obtain ⟨b, hb, hb1, hb2⟩ := rnd_factor (x := ρ / (τ * a)) (le_trans (by norm_num) hx1) (le_trans hx2 (by norm_num))
  norm_num at hb1 hb2
  have hc1 : 1 - 1 / 16777216 ≤ ρ / (4000000 / 6) := by
    rw [le_div_iff₀ (by norm_num)]; norm_num; linarith [hρ3.1]
  have hc2 : ρ / (4000000 / 6) ≤ 1 + 1 / 16777216 := by
    rw [div_le_iff₀ (by norm_num)]; norm_num; linarith [hρ3.2]
  refine ⟨ρ / (4000000 / 6) * b / a, ?_, ?_, ?_⟩
  · unfold Fl.ofU32
    rw [hn, ha, hρ, fin_div _ _ hτa.ne', hb]
    congr 1
    field_simp
  · generalize ρ / (4000000 / 6) = c at *
    have h2 : (1 - 1 / 16777216) * (1 - 1 / 16777216) ≤ c * b := mul_le_mul hc1 (by linarith) (by norm_num) (by linarith)
    rw [le_div_iff₀ ha0]
    norm_num at *
    linarith
  · generalize ρ / (4000000 / 6) = c at *
    have h2 : c * b ≤ (1 + 1 / 16777216) * (1 + 1 / 16777216) := mul_le_mul hc2 (by linarith) (by linarith) (by norm_num)
    rw [div_le_iff₀ ha0]
    norm_num at *
    linarith

/-- The time for any angle up to 1024 degrees. -/
theorem time_close0 {r : BitVec 32} {q : ℚ} {t : Time} (hq1 : 0 ≤ q) (hq2 : q ≤ 2 ^ 10)
    (h : timeFromRpmDiff r (fin q) = .ok t) :
    1 ≤ r.toNat ∧ |(t.toNat : ℚ) - 4000000 / 6 * q / r.toNat| ≤ (4000000 / 6 * q / r.toNat) / 2 ^ 21 + 3 / 2 := by
  have hr : 1 ≤ r.toNat := by
    by_contra hne
    have h0 : r = 0 := BitVec.eq_of_toNat_eq (by simp; omega)
    subst h0
    obtain ⟨ρ, hρ, hρ1, -⟩ := ratio_fin
    have hz : (Fl.ofU32 0 : Fl) = fin 0 := by
      unfold Fl.ofU32
      simp
    unfold timeFromRpmDiff at h
    rw [hz, hρ] at h
    have hd : (fin ρ / fin 0 : Fl) = inf false := by
      show (if (0 : ℚ) = 0 then if ρ = 0 then Fl.nan else inf (decide (ρ < 0)) else rnd (ρ / 0)) = _
      rw [if_pos rfl, if_neg (by linarith)]
      simp
      linarith
    simp only at h
    rw [hd] at h
    rcases eq_or_ne q 0 with rfl | hq
    · cases h
    · have : (inf false * fin q : Fl) = inf (decide (q < 0)) := by
        rw [Fl.mul_def]
        unfold Fl.mul
        simp [hq]
      rw [this] at h
      cases h
  refine ⟨hr, ?_⟩
  obtain ⟨f, hf, hf1, hf2⟩ := tpd_close hr
  have hr1 : (1 : ℚ) ≤ r.toNat := by exact_mod_cast hr
  unfold timeFromRpmDiff at h
  simp only at h
  rw [hf, fin_mul] at h
  generalize (r.toNat : ℚ) = τ at *
  have hτ0 : 0 < τ := by linarith
  have hS : 4000000 / 6 / τ * f * q = 4000000 / 6 * q / τ * f := by ring
  rw [hS] at h
  generalize hSg : 4000000 / 6 * q / τ = S at *
  have hS0 : 0 ≤ S := by rw [← hSg]; positivity
  have hS2 : S ≤ 2 ^ 30 := by
    rw [← hSg, div_le_iff₀ hτ0]
    norm_num at *
    nlinarith
  have hf0 : 0 ≤ f := le_trans (by norm_num) hf1
  have hSf1 : S * (1 - 1 / 2 ^ 22) ≤ S * f := mul_le_mul_of_nonneg_left hf1 hS0
  have hSf2 : S * f ≤ S * (1 + 1 / 2 ^ 22) := mul_le_mul_of_nonneg_left hf2 hS0
  have hSf0 : 0 ≤ S * f := mul_nonneg hS0 hf0
  obtain ⟨y, hy, hy1, -⟩ := rnd_err (x := S * f) (by
    rw [abs_of_nonneg hSf0]
    norm_num at *
    linarith)
  have hy0 : 0 ≤ y := rnd_nonneg hSf0 hy
  rw [hy] at h
  obtain ⟨q', e, -, -, hv⟩ := toU32_ok h
  cases e
  rw [abs_of_nonneg hSf0, abs_le] at hy1
  have hv' : (t.toNat : ℚ) = ((⌊y⌋ : ℤ) : ℚ) := by
    rw [hv]
    have : ((⌊y⌋.toNat : ℕ) : ℤ) = ⌊y⌋ := Int.toNat_of_nonneg (Int.floor_nonneg.mpr hy0)
    exact_mod_cast this
  have h1 := Int.floor_le y
  have h2 := Int.lt_floor_add_one y
  rw [hv', abs_le]
  generalize ((⌊y⌋ : ℤ) : ℚ) = z at h1 h2 ⊢
  norm_num at hSf1 hSf2 hy1 ⊢
  constructor <;> linarith [hy1.1, hy1.2]

/-- The heart of C76 and C77: the time computed for a crank angle `G` is one at which the crank is at `G`. -/
theorem stop_close {θ : ℤ → ℚ} {c : CrankTol} {T : ℤ} {d : Decoder} (hc : c.Sane) (hs : KnowsCrank θ c T d) {G q : ℚ} {a : Fl} {t : Time}
    (hq : ∀ a0, d.lastTriggerAngle = fin a0 → |q - (G - a0)| ≤ 1 / 1000) (h1 : -3500 ≤ q) (h2 : q ≤ 3500)
    (ha : clampAngle (fin q) (fin 720) = .ok a) (ht : timeFromRpmDiff d.toothRpm a = .ok t) :
    ∃ u : ℤ, d.lastTriggerTime + t = stamp (T + u) ∧ 0 ≤ u ∧ u < 2 ^ 29 ∧ Near (θ (T + u)) G c.error := by
  obtain ⟨y, rfl, hy0, hy1, j, hj⟩ := clampAngle_near h1 h2 ha
  obtain ⟨hr, htc⟩ := time_close0 hy0 (le_trans hy1 (by norm_num)) ht
  obtain ⟨a0, ha0, -, -, k, hk⟩ := hs.angle
  obtain ⟨w, hw0, hw1, hw2, hw3⟩ := hs.speed
  have hqa := hq a0 ha0
  have hr1 : (1 : ℚ) ≤ d.toothRpm.toNat := by exact_mod_cast hr
  have hu : (((t.toNat : ℕ) : ℤ) : ℚ) = (t.toNat : ℚ) := by push_cast; rfl
  generalize hu' : (t.toNat : ℚ) = u at *
  generalize (d.toothRpm.toNat : ℚ) = R at *
  have hR0 : 0 < R := by linarith
  generalize hS : 4000000 / 6 * y / R = S at *
  have hS0 : 0 ≤ S := by rw [← hS]; positivity
  have hS2 : S ≤ 480000000 := by
    rw [← hS, div_le_iff₀ hR0]
    nlinarith
  rw [abs_le] at htc hw2 hj hk hqa
  have hwS : w * S = y * (w * (4000000 / 6) / R) := by
    rw [← hS]; ring
  have hx1 : 1 - c.speed ≤ w * (4000000 / 6) / R := by
    rw [le_div_iff₀ hR0]; linarith [hw2.1]
  have hx2 : w * (4000000 / 6) / R ≤ 1 + c.speed := by
    rw [div_le_iff₀ hR0]; linarith [hw2.2]
  generalize w * (4000000 / 6) / R = x at *
  have hs0 := hc.speed0
  have hs1 := hc.speed1
  have hyc : y * c.speed ≤ 720 * c.speed := mul_le_mul_of_nonneg_right hy1 hs0
  have e1 : y * (1 - c.speed) ≤ y * x := mul_le_mul_of_nonneg_left hx1 hy0
  have e2 : y * x ≤ y * (1 + c.speed) := mul_le_mul_of_nonneg_left hx2 hy0
  have f1 : w * S ≤ 792 := by rw [hwS]; linarith
  have f0 : 0 ≤ w * S := mul_nonneg hw0 hS0
  have g1 : w * (S - (S / 2 ^ 21 + 3 / 2)) ≤ w * u := mul_le_mul_of_nonneg_left (by linarith [htc.1]) hw0
  have g2 : w * u ≤ w * (S + (S / 2 ^ 21 + 3 / 2)) := mul_le_mul_of_nonneg_left (by linarith [htc.2]) hw0
  have g3 : w * (S + (S / 2 ^ 21 + 3 / 2)) = w * S + w * S / 2 ^ 21 + 3 / 2 * w := by ring
  have g4 : w * (S - (S / 2 ^ 21 + 3 / 2)) = w * S - w * S / 2 ^ 21 - 3 / 2 * w := by ring
  have g5 : w * S / 2 ^ 21 ≤ 1 / 1000 := by
    have : w * S / 2 ^ 21 ≤ 792 / 2 ^ 21 := div_le_div_of_nonneg_right f1 (by norm_num)
    refine le_trans this (by norm_num)
  have ht1 := hc.tick1
  have hcl : ((T + (t.toNat : ℤ) : ℤ) : ℚ) - T = u := by push_cast; rw [← hu']; ring
  have hev := hw3 (T + (t.toNat : ℤ)) (by omega) (by rw [hcl]; linarith)
  rw [hcl, abs_le] at hev
  refine ⟨(t.toNat : ℤ), ?_, by omega, ?_, ⟨k + j, ?_⟩⟩
  · rw [hs.time, ← stamp_add, stamp_surj]
  · have : (((t.toNat : ℕ) : ℤ) : ℚ) < ((2 ^ 29 : ℤ) : ℚ) := by
      rw [hu]
      push_cast
      have : S / 2 ^ 21 ≤ 480000000 / 2 ^ 21 := div_le_div_of_nonneg_right hS2 (by norm_num)
      norm_num at this htc ⊢
      linarith [htc.2]
    exact_mod_cast this
  · unfold CrankTol.error
    rw [abs_le]
    push_cast
    constructor <;> linarith [hev.1, hev.2, hk.1, hk.2, hqa.1, hqa.2, hj.1, hj.2]

/-- The angle argument for a spark. -/
theorem spark_arg {A V a0 O : ℚ} (hA : |A| ≤ 720) (hV : |V| ≤ 720) (h0 : 0 ≤ a0) (h1 : a0 ≤ 720) (hO : |O| ≤ 720) :
    ∃ q, (fin A - fin V - fin a0 + fin O : Fl) = fin q ∧ |q - (A - V + O - a0)| ≤ 1 / 1000 ∧ -3500 ≤ q ∧ q ≤ 3500 := by
  rw [abs_le] at hA hV hO
  obtain ⟨x, hx, ex⟩ := rnd_ang (x := A - V) (by rw [abs_le]; constructor <;> linarith [hA.1, hA.2, hV.1, hV.2])
  rw [abs_le] at ex
  obtain ⟨y, hy, ey⟩ := rnd_ang (x := x - a0) (by rw [abs_le]; constructor <;> linarith [hA.1, hA.2, hV.1, hV.2, ex.1, ex.2])
  rw [abs_le] at ey
  obtain ⟨z, hz, ez⟩ := rnd_ang (x := y + O) (by
    rw [abs_le]; constructor <;> linarith [hA.1, hA.2, hV.1, hV.2, ex.1, ex.2, ey.1, ey.2, hO.1, hO.2])
  rw [abs_le] at ez
  refine ⟨z, by rw [fin_sub, hx, fin_sub, hy, fin_add, hz], ?_, ?_, ?_⟩
  · rw [abs_le]; constructor <;> linarith [ex.1, ex.2, ey.1, ey.2, ez.1, ez.2]
  · linarith [hA.1, hA.2, hV.1, hV.2, ex.1, ex.2, ey.1, ey.2, hO.1, hO.2, ez.1, ez.2]
  · linarith [hA.1, hA.2, hV.1, hV.2, ex.1, ex.2, ey.1, ey.2, hO.1, hO.2, ez.1, ez.2]

/-- The angle argument for an injection. -/
theorem fuel_arg {A a0 O : ℚ} (hA : |A| ≤ 720) (h0 : 0 ≤ a0) (h1 : a0 ≤ 720) (hO : |O| ≤ 720) :
    ∃ q, (fin A - fin a0 + fin O : Fl) = fin q ∧ |q - (A + O - a0)| ≤ 1 / 1000 ∧ -3500 ≤ q ∧ q ≤ 3500 := by
  rw [abs_le] at hA hO
  obtain ⟨y, hy, ey⟩ := rnd_ang (x := A - a0) (by rw [abs_le]; constructor <;> linarith [hA.1, hA.2])
  rw [abs_le] at ey
  obtain ⟨z, hz, ez⟩ := rnd_ang (x := y + O) (by
    rw [abs_le]; constructor <;> linarith [hA.1, hA.2, ey.1, ey.2, hO.1, hO.2])
  rw [abs_le] at ez
  refine ⟨z, by rw [fin_sub, hy, fin_add, hz], ?_, ?_, ?_⟩
  · rw [abs_le]; constructor <;> linarith [ey.1, ey.2, ez.1, ez.2]
  · linarith [hA.1, hA.2, ey.1, ey.2, hO.1, hO.2, ez.1, ez.2]
  · linarith [hA.1, hA.2, ey.1, ey.2, hO.1, hO.2, ez.1, ez.2]

/-- The stop time of a spark. -/
theorem spark_stop {θ : ℤ → ℚ} {c : CrankTol} {T : ℤ} {env : SchedEnv} {ev : OEvent} {A V O : ℚ} {stop : Time} (hc : c.Sane)
    (hs : KnowsCrank θ c T env.d) (hA : ev.angle = fin A) (hA1 : |A| ≤ 720) (hV : env.advance = fin V) (hV1 : |V| ≤ 720)
    (hO : env.d.offset = fin O) (hO1 : |O| ≤ 720) (h : ignitionStop env ev = .ok stop) :
    ∃ u : ℤ, stop = stamp (T + u) ∧ 0 ≤ u ∧ u < 2 ^ 29 ∧ Near (θ (T + u)) (A - V + O) c.error := by
  unfold ignitionStop at h
  simp only [bind_eq_ok] at h
  obtain ⟨a, h1, t, h2, h⟩ := h
  cases h
  obtain ⟨a0, ha0, h3, h4, -⟩ := hs.angle
  obtain ⟨q, hq, q1, q2, q3⟩ := spark_arg hA1 hV1 h3 h4 hO1
  rw [hA, hV, hO, ha0, hq] at h1
  exact stop_close hc hs (fun a1 h => by rw [ha0] at h; cases h; exact q1) q2 q3 h1 h2

/-- The stop time of an injection. -/
theorem fuel_stop {θ : ℤ → ℚ} {c : CrankTol} {T : ℤ} {env : SchedEnv} {ev : OEvent} {A O : ℚ} {stop : Time} (hc : c.Sane)
    (hs : KnowsCrank θ c T env.d) (hA : ev.angle = fin A) (hA1 : |A| ≤ 720)
    (hO : env.d.offset = fin O) (hO1 : |O| ≤ 720) (h : fuelStop env ev = .ok stop) :
    ∃ u : ℤ, stop = stamp (T + u) ∧ 0 ≤ u ∧ u < 2 ^ 29 ∧ Near (θ (T + u)) (A + O) c.error := by
  unfold fuelStop at h
  simp only [bind_eq_ok] at h
  obtain ⟨a, h1, t, h2, h⟩ := h
  cases h
  obtain ⟨a0, ha0, h3, h4, -⟩ := hs.angle
  obtain ⟨q, hq, q1, q2, q3⟩ := fuel_arg hA1 h3 h4 hO1
  rw [hA, hO, ha0, hq] at h1
  exact stop_close hc hs (fun a1 h => by rw [ha0] at h; cases h; exact q1) q2 q3 h1 h2

end Verif
