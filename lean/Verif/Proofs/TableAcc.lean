/-
How far a table lookup in a float format is from the exact lookup.
-/
import Verif.Proofs.TableFl

namespace Verif
open Fl FloatFmt

section
variable [FloatFmt]

/-- Rounding, also of numbers that underflow. -/
theorem rnd_near {q : ℚ} (h : |q| ≤ 2 ^ 100) : ∃ y, rnd q = Fl.fin y ∧ |y - q| ≤ |q| / 2 ^ 24 + 1 / 2 ^ 98 := by
  by_cases hq : (2 : ℚ) ^ (-100 : ℤ) ≤ |q|
  · obtain ⟨y, hy, h1⟩ := rnd_rel q hq h
    exact ⟨y, hy, h1.trans (by simp)⟩
  · obtain ⟨b, hb⟩ : ∃ b : ℚ, b = 2 ^ (-100 : ℤ) := ⟨_, rfl⟩
    have hb' : b = 1 / 2 ^ 100 := by rw [hb]; norm_num [zpow_neg]
    rw [← hb] at hq
    push Not at hq
    have b0 : 0 < b := by rw [hb]; positivity
    obtain ⟨B, hB, B1⟩ := rnd_rel b (by rw [abs_of_pos b0, hb]) (by rw [abs_of_pos b0, hb']; norm_num)
    rw [abs_of_pos b0] at B1
    obtain ⟨q1, q2⟩ := abs_lt.mp hq
    have l := rnd_mono q1.le
    have r := rnd_mono q2.le
    rw [rnd_neg, hB] at l
    rw [hB] at r
    obtain ⟨B2, B3⟩ := abs_le.mp B1
    have hB2 : B ≤ 2 * b := by linarith
    rcases hx : rnd q with _ | s | y
    · exact absurd hx (rnd_ne_nan q)
    · rw [hx] at l r; cases s <;> simp [Fl.le, Fl.neg] at l r
    · rw [hx] at l r
      simp only [Fl.neg, le_fin, decide_eq_true_eq] at l r
      refine ⟨y, rfl, ?_⟩
      have h3 : |y - q| ≤ 1 / 2 ^ 98 := by
        rw [abs_le]; constructor <;> (have : (1 : ℚ) / 2 ^ 98 = 4 * b := by rw [hb']; norm_num) <;> linarith
      have : 0 ≤ |q| / 2 ^ 24 := by positivity
      linarith

/-- A quotient of two rounded numbers, with the quotient at most 1. -/
theorem rnd_quot {d g : ℚ} (d0 : 0 ≤ d) (dg : d ≤ g) (hg : (2 : ℚ) ^ (-64 : ℤ) ≤ g) (hg' : g ≤ 2 ^ 64) {w : ℚ}
    (h : (rnd d / rnd g : Fl) = Fl.fin w) : |w - d / g| ≤ 1 / 2 ^ 22 := by
  have g0 : 0 < g := lt_of_lt_of_le (by positivity) hg
  have hg1 : (1 : ℚ) / 2 ^ 64 ≤ g := by
    refine Eq.trans_le ?_ hg
    norm_num [zpow_neg]
  obtain ⟨G, hG, G1⟩ := rnd_rel g (by rw [abs_of_pos g0]; exact le_trans (by norm_num [zpow_neg]) hg)
    (by rw [abs_of_pos g0]; exact hg'.trans (by norm_num))
  rw [abs_of_pos g0] at G1
  obtain ⟨D, hD, D1⟩ := rnd_near (q := d) (by rw [abs_of_nonneg d0]; exact (dg.trans hg').trans (by norm_num))
  rw [abs_of_nonneg d0] at D1
  obtain ⟨G2, G3⟩ := abs_le.mp G1
  obtain ⟨D2, D3⟩ := abs_le.mp D1
  have hGg : g * (1 - 1 / 2 ^ 24) ≤ G := by linarith
  have G0 : 0 < G := lt_of_lt_of_le (by positivity) hGg
  rw [hD, hG, fin_div _ _ G0.ne'] at h
  -- the error before the last rounding
  have key : |D / G - d / g| ≤ 21 / 10 / 2 ^ 24 := by
    rw [div_sub_div _ _ G0.ne' g0.ne', abs_div, abs_of_pos (mul_pos G0 g0), div_le_iff₀ (mul_pos G0 g0)]
    have t1 : (1 : ℚ) / 2 ^ 98 ≤ g * (1 / 2 ^ 34) := by
      have := mul_le_mul_of_nonneg_right hg1 (show (0 : ℚ) ≤ 1 / 2 ^ 34 by positivity)
      linarith
    have e : D * g - G * d = (D - d) * g - (G - g) * d := by ring
    have a1 : |(D - d) * g| ≤ (g / 2 ^ 24 + g * (1 / 2 ^ 34)) * g := by
      rw [abs_mul, abs_of_pos g0]
      refine mul_le_mul_of_nonneg_right (D1.trans ?_) g0.le
      have : d / 2 ^ 24 ≤ g / 2 ^ 24 := by gcongr
      linarith
    have a2 : |(G - g) * d| ≤ (g / 2 ^ 24) * g := by
      rw [abs_mul, abs_of_nonneg d0]
      exact mul_le_mul G1 dg d0 (by positivity)
    rw [e]
    refine (abs_sub _ _).trans ((add_le_add a1 a2).trans ?_)
    have a3 : g * (1 - 1 / 2 ^ 24) * g ≤ G * g := mul_le_mul_of_nonneg_right hGg g0.le
    have gg : 0 ≤ g * g := by positivity
    calc (g / 2 ^ 24 + g * (1 / 2 ^ 34)) * g + g / 2 ^ 24 * g = (2 / 2 ^ 24 + 1 / 2 ^ 34) * (g * g) := by ring
      _ ≤ (21 / 10 / 2 ^ 24 * (1 - 1 / 2 ^ 24)) * (g * g) := mul_le_mul_of_nonneg_right (by norm_num) gg
      _ = 21 / 10 / 2 ^ 24 * (g * (1 - 1 / 2 ^ 24) * g) := by ring
      _ ≤ 21 / 10 / 2 ^ 24 * (G * g) := mul_le_mul_of_nonneg_left a3 (by norm_num)
  have q0 : 0 ≤ d / g := div_nonneg d0 g0.le
  have q1 : d / g ≤ 1 := (div_le_one g0).mpr dg
  obtain ⟨k1, k2⟩ := abs_le.mp key
  have hs : |D / G| ≤ 2 := by rw [abs_le]; constructor <;> linarith
  obtain ⟨y, hy, h1⟩ := rnd_near (q := D / G) (hs.trans (by norm_num))
  rw [h] at hy
  cases hy
  have h2 : |D / G| / 2 ^ 24 ≤ 11 / 10 / 2 ^ 24 := by
    have : |D / G| ≤ 11 / 10 := by rw [abs_le]; constructor <;> linarith
    gcongr
  obtain ⟨w1, w2⟩ := abs_le.mp (h1.trans (add_le_add h2 le_rfl))
  rw [abs_le]; constructor <;> linarith

/-- The two weights of a cell are near those of exact arithmetic. -/
theorem weights_near {a b c w w' : ℚ} (ha : |a| ≤ 2 ^ 60) (hb : |b| ≤ 2 ^ 60)
    (h : (a ≤ c ∧ c ≤ b ∧ (2 : ℚ) ^ (-64 : ℤ) ≤ b - a) ∨ (c = a ∧ (2 : ℚ) ^ (-64 : ℤ) ≤ |b - a|))
    (hw : ((fin c - fin a) / (fin b - fin a) : Fl) = fin w) (hw' : ((fin b - fin c) / (fin b - fin a) : Fl) = fin w') :
    |w - (c - a) / (b - a)| ≤ 1 / 2 ^ 22 ∧ |w' - (b - c) / (b - a)| ≤ 1 / 2 ^ 22 := by
  obtain ⟨a1, a2⟩ := abs_le.mp ha
  obtain ⟨b1, b2⟩ := abs_le.mp hb
  rcases h with ⟨h1, h2, h3⟩ | ⟨rfl, h3⟩
  · rw [fin_sub, fin_sub] at hw hw'
    have hu : b - a ≤ 2 ^ 64 := by norm_num at *; linarith
    exact ⟨rnd_quot (by linarith) (by linarith) h3 hu hw, rnd_quot (by linarith) (by linarith) h3 hu hw'⟩
  · have hne : ∃ g, rnd (b - c) = Fl.fin g ∧ g ≠ 0 := by
      rcases le_total 0 (b - c) with h0 | h0
      · rw [abs_of_nonneg h0] at h3
        obtain ⟨g, hg, hg0⟩ := rnd_gap h3 (by norm_num at *; linarith)
        exact ⟨g, hg, hg0.ne'⟩
      · rw [abs_of_nonpos h0] at h3
        obtain ⟨g, hg, hg0⟩ := rnd_gap h3 (by norm_num at *; linarith)
        refine ⟨-g, ?_, neg_ne_zero.mpr hg0.ne'⟩
        have := rnd_neg (-(b - c))
        rw [neg_neg, hg] at this
        rw [this]; rfl
    have hbc : b - c ≠ 0 := by
      intro h0
      rw [h0, abs_zero] at h3
      exact absurd h3 (not_le.mpr (by positivity))
    have one : rnd 1 = Fl.fin 1 := by simpa using rnd_int 1 (by norm_num)
    obtain ⟨g, hg, hg0⟩ := hne
    rw [fin_sub, fin_sub, sub_self, rnd_zero, hg, fin_div _ _ hg0, zero_div, rnd_zero] at hw
    rw [fin_sub, hg, fin_div _ _ hg0, div_self hg0, one] at hw'
    cases hw
    cases hw'
    rw [sub_self, zero_div, div_self hbc]
    norm_num

/-- A rounded product of a weight near `ω` and a number near `D`. -/
theorem prod_near {w ω d D M η : ℚ} (w0 : 0 ≤ w) (w1 : w ≤ 1) (hw : |w - ω| ≤ 1 / 2 ^ 22) (hD : |D| ≤ M) (hd : |d - D| ≤ η)
    (hη : η ≤ M + 1) (hM : M ≤ 2 ^ 61) {p : ℚ} (h : (fin w * fin d : Fl) = fin p) :
    |p - ω * D| ≤ η + M * (1 / 2 ^ 22) + (M + η) / 2 ^ 24 + 1 / 2 ^ 98 := by
  have hM0 : 0 ≤ M := (abs_nonneg _).trans hD
  have d1 : |d| ≤ M + η := by
    have := abs_add_le (d - D) D
    rw [sub_add_cancel] at this
    linarith
  have h1 : |w * d| ≤ M + η := by
    rw [abs_mul, abs_of_nonneg w0]
    exact (mul_le_of_le_one_left (abs_nonneg d) w1).trans d1
  rw [fin_mul] at h
  obtain ⟨y, hy, h2⟩ := rnd_near (q := w * d) (by norm_num at *; linarith)
  rw [h] at hy
  cases hy
  have h3 : |w * d - ω * D| ≤ η + M * (1 / 2 ^ 22) := by
    have e : w * d - ω * D = w * (d - D) + (w - ω) * D := by ring
    rw [e]
    refine (abs_add_le _ _).trans (add_le_add ?_ ?_)
    · rw [abs_mul, abs_of_nonneg w0]
      exact (mul_le_of_le_one_left (abs_nonneg _) w1).trans hd
    · rw [abs_mul, mul_comm]
      exact mul_le_mul hD hw (abs_nonneg _) hM0
  have h4 : |w * d| / 2 ^ 24 ≤ (M + η) / 2 ^ 24 := by gcongr
  have e : p - ω * D = (p - w * d) + (w * d - ω * D) := by ring
  rw [e]
  refine (abs_add_le _ _).trans ?_
  linarith

/-- A rounded sum of numbers near `A` and `B`. -/
theorem sum_near {a b A B α β M : ℚ} (ha : |a - A| ≤ α) (hb : |b - B| ≤ β) (hAB : |A + B| ≤ M) (hM : M ≤ 2 ^ 62) (hα : α + β ≤ 2 * M + 1)
    {r : ℚ} (h : (fin a + fin b : Fl) = fin r) : |r - (A + B)| ≤ α + β + (M + α + β) / 2 ^ 24 + 1 / 2 ^ 98 := by
  have h1 : |(a + b) - (A + B)| ≤ α + β := by
    have e : (a + b) - (A + B) = (a - A) + (b - B) := by ring
    rw [e]
    exact (abs_add_le _ _).trans (add_le_add ha hb)
  have h2 : |a + b| ≤ M + α + β := by
    have := abs_add_le ((a + b) - (A + B)) (A + B)
    rw [sub_add_cancel] at this
    linarith
  rw [fin_add] at h
  obtain ⟨y, hy, h3⟩ := rnd_near (q := a + b) (by norm_num at *; linarith)
  rw [h] at hy
  cases hy
  have h4 : |a + b| / 2 ^ 24 ≤ (M + α + β) / 2 ^ 24 := by gcongr
  have e : r - (A + B) = (r - (a + b)) + ((a + b) - (A + B)) := by ring
  rw [e]
  refine (abs_add_le _ _).trans ?_
  linarith

/-- A one-dimensional lookup in its cell. -/
theorem interp1_cell {t : Table1d} {n : Nat} {x y : Nat → ℚ} (hx : AxisFl t.cols n x)
    (hd : ∀ i (h : i < maxAxis), i ≤ n → t.data ⟨i, h⟩ = fin (y i)) {v : Fl} {c : ℚ} {i : ℕ} (hc : clampAxis t.cols v = .ok (fin c))
    (hi : i < n) (hf : findCell t.cols (fin c) = .ok i) :
    interp1 t v = .ok ((fin (y (i + 1)) - fin (y i)) * ((fin c - fin (x i)) / (fin (x (i + 1)) - fin (x i))) + fin (y i)) := by
  have hfits := hx.fits
  unfold interp1
  rw [hc, except_bind_ok, hf, except_bind_ok]
  have e : ((i : Int) + 1) = ((i + 1 : Nat) : Int) := by push_cast; rfl
  rw [e, rd_ok t.cols.values i (by omega), except_bind_ok, rd_ok t.cols.values (i + 1) (by omega), except_bind_ok,
    rd_ok t.data i (by omega), except_bind_ok, rd_ok t.data (i + 1) (by omega), except_bind_ok,
    hx.vals i (by omega) (by omega), hx.vals (i + 1) (by omega) (by omega), hd i (by omega) (by omega),
    hd (i + 1) (by omega) (by omega)]
  rfl

/-- A two-dimensional lookup in its cell. -/
theorem interp2_cell {t : Table2d} {n m : Nat} {x y : Nat → ℚ} {z : Nat → Nat → ℚ} (hx : AxisFl t.cols n x) (hy : AxisFl t.rows m y)
    (hd : ∀ j i (hj : j < maxAxis) (hi : i < maxAxis), j ≤ m → i ≤ n → t.data ⟨j, hj⟩ ⟨i, hi⟩ = fin (z j i)) {v w : Fl} {c d : ℚ}
    {i j : ℕ} (hc : clampAxis t.cols v = .ok (fin c)) (hi : i < n) (hf : findCell t.cols (fin c) = .ok i)
    (hcd : clampAxis t.rows w = .ok (fin d)) (hj : j < m) (hg : findCell t.rows (fin d) = .ok j) :
    interp2 t v w = .ok (
      (fin (y (j + 1)) - fin d) / (fin (y (j + 1)) - fin (y j)) *
        ((fin (x (i + 1)) - fin c) / (fin (x (i + 1)) - fin (x i)) * fin (z j i) +
          (fin c - fin (x i)) / (fin (x (i + 1)) - fin (x i)) * fin (z j (i + 1))) +
      (fin d - fin (y j)) / (fin (y (j + 1)) - fin (y j)) *
        ((fin (x (i + 1)) - fin c) / (fin (x (i + 1)) - fin (x i)) * fin (z (j + 1) i) +
          (fin c - fin (x i)) / (fin (x (i + 1)) - fin (x i)) * fin (z (j + 1) (i + 1)))) := by
  have hfits := hx.fits
  have hfits' := hy.fits
  unfold interp2
  rw [hc, except_bind_ok, hcd, except_bind_ok, hf, except_bind_ok, hg, except_bind_ok]
  have e : ((i : Int) + 1) = ((i + 1 : Nat) : Int) := by push_cast; rfl
  have e' : ((j : Int) + 1) = ((j + 1 : Nat) : Int) := by push_cast; rfl
  rw [e, e', rd_ok t.cols.values i (by omega), except_bind_ok, rd_ok t.cols.values (i + 1) (by omega), except_bind_ok,
    rd_ok t.rows.values j (by omega), except_bind_ok, rd_ok t.rows.values (j + 1) (by omega), except_bind_ok,
    rd_ok t.data j (by omega), except_bind_ok, rd_ok _ i (by omega), except_bind_ok, rd_ok _ (i + 1) (by omega),
    except_bind_ok, rd_ok t.data (j + 1) (by omega), except_bind_ok, rd_ok _ i (by omega), except_bind_ok,
    rd_ok _ (i + 1) (by omega), except_bind_ok,
    hx.vals i (by omega) (by omega), hx.vals (i + 1) (by omega) (by omega), hy.vals j (by omega) (by omega),
    hy.vals (j + 1) (by omega) (by omega), hd j i (by omega) (by omega) (by omega) (by omega),
    hd j (i + 1) (by omega) (by omega) (by omega) (by omega), hd (j + 1) i (by omega) (by omega) (by omega) (by omega),
    hd (j + 1) (i + 1) (by omega) (by omega) (by omega) (by omega)]
  rfl

end

/-- The weights in exact arithmetic. -/
theorem exact_weights {a b c : ℚ}
    (h : (a ≤ c ∧ c ≤ b ∧ (2 : ℚ) ^ (-64 : ℤ) ≤ b - a) ∨ (c = a ∧ (2 : ℚ) ^ (-64 : ℤ) ≤ |b - a|)) :
    b - a ≠ 0 ∧ 0 ≤ (c - a) / (b - a) ∧ 0 ≤ (b - c) / (b - a) ∧ (b - c) / (b - a) + (c - a) / (b - a) = 1 := by
  have hp : (0 : ℚ) < (2 : ℚ) ^ (-64 : ℤ) := by positivity
  have hne : b - a ≠ 0 := by
    rcases h with ⟨-, -, h⟩ | ⟨-, h⟩
    · exact (lt_of_lt_of_le hp h).ne'
    · intro h0
      rw [h0, abs_zero] at h
      exact absurd h (not_le.mpr hp)
  refine ⟨hne, ?_, ?_, ?_⟩
  · rcases h with ⟨h1, h2, h3⟩ | ⟨rfl, h3⟩
    · exact div_nonneg (by linarith) (lt_of_lt_of_le hp h3).le
    · rw [sub_self, zero_div]
  · rcases h with ⟨h1, h2, h3⟩ | ⟨rfl, h3⟩
    · exact div_nonneg (by linarith) (lt_of_lt_of_le hp h3).le
    · rw [div_self hne]; norm_num
  · rw [← add_div, div_eq_one_iff_eq hne]; ring

theorem convex_abs {u v a b M : ℚ} (hu : 0 ≤ u) (hv : 0 ≤ v) (huv : u + v = 1) (ha : |a| ≤ M) (hb : |b| ≤ M) : |u * a + v * b| ≤ M := by
  refine (abs_add_le _ _).trans ?_
  rw [abs_mul, abs_mul, abs_of_nonneg hu, abs_of_nonneg hv]
  have h1 := mul_le_mul_of_nonneg_left ha hu
  have h2 := mul_le_mul_of_nonneg_left hb hv
  have : u * M + v * M = M := by rw [← add_mul, huv, one_mul]
  linarith

/-- A one-dimensional lookup where nothing is rounded. -/
theorem line_exact [FloatFmt] (h : ∀ q, rnd q = Fl.fin q) {a b c f s : ℚ} (hne : b - a ≠ 0) :
    ((fin s - fin f) * ((fin c - fin a) / (fin b - fin a)) + fin f : Fl) = fin ((c - a) / (b - a) * (s - f) + f) := by
  rw [fin_sub, fin_sub, fin_sub, h, h, h, fin_div _ _ hne, h, fin_mul, h, fin_add, h, mul_comm]

/-- A two-dimensional lookup where nothing is rounded. -/
theorem surface_exact [FloatFmt] (h : ∀ q, rnd q = Fl.fin q) {a b c a' b' c' z1 z2 z3 z4 : ℚ} (hne : b - a ≠ 0) (hne' : b' - a' ≠ 0) :
    ((fin b' - fin c') / (fin b' - fin a') * ((fin b - fin c) / (fin b - fin a) * fin z1 + (fin c - fin a) / (fin b - fin a) * fin z2) +
      (fin c' - fin a') / (fin b' - fin a') * ((fin b - fin c) / (fin b - fin a) * fin z3 + (fin c - fin a) / (fin b - fin a) * fin z4) : Fl) =
    fin ((b' - c') / (b' - a') * ((b - c) / (b - a) * z1 + (c - a) / (b - a) * z2) +
      (c' - a') / (b' - a') * ((b - c) / (b - a) * z3 + (c - a) / (b - a) * z4)) := by
  simp only [fin_sub, h, fin_div _ _ hne, fin_div _ _ hne', fin_mul, fin_add]

/-- A one-dimensional lookup is near the exact one. -/
theorem interp1_near [F : FloatFmt] {t : Table1d} {n : Nat} {x y : Nat → ℚ} {M : ℚ} (hx : AxisFl t.cols n x)
    (hd : ∀ i (h : i < maxAxis), i ≤ n → t.data ⟨i, h⟩ = fin (y i)) (hM : M ≤ 2 ^ 60) (hy : ∀ i, i ≤ n → |y i| ≤ M)
    {v : Fl} (hv : v ≠ nan) :
    ∃ r ρ, interp1 t v = .ok (fin r) ∧ @interp1 exactFmt t v = .ok (fin ρ) ∧ |r - ρ| ≤ M / 2 ^ 20 + 1 / 2 ^ 90 := by
  obtain ⟨c, i, hc, hi, hf, hcell⟩ := hx.cell hv
  obtain ⟨hne, o0, o1, o2⟩ := exact_weights hcell
  obtain ⟨⟨w, hw, w0, w1⟩, ⟨w', hw', -⟩⟩ := weights (hx.size i (by omega)) (hx.size (i + 1) (by omega)) hcell
  obtain ⟨W, -⟩ := weights_near (hx.size i (by omega)) (hx.size (i + 1) (by omega)) hcell hw hw'
  have f1 := hy i (by omega)
  have s1 := hy (i + 1) (by omega)
  obtain ⟨fa, fb⟩ := abs_le.mp f1
  obtain ⟨sa, sb⟩ := abs_le.mp s1
  have M0 : 0 ≤ M := (abs_nonneg _).trans f1
  have hD : |y (i + 1) - y i| ≤ 2 * M := by rw [abs_le]; constructor <;> linarith
  obtain ⟨d, hd', d1⟩ := rnd_near (q := y (i + 1) - y i) (hD.trans (by norm_num at *; linarith))
  have d2 : |d - (y (i + 1) - y i)| ≤ 2 * M / 2 ^ 24 + 1 / 2 ^ 98 := d1.trans (by gcongr)
  have E := interp1_cell hx hd hc hi hf
  rw [hw, fin_sub, hd'] at E
  have comm : (fin d * fin w : Fl) = fin w * fin d := by rw [fin_mul, fin_mul, mul_comm]
  rw [comm] at E
  have hwd : |w * d| ≤ 2 ^ 100 := by
    rw [abs_mul, abs_of_nonneg w0]
    have := abs_add_le (d - (y (i + 1) - y i)) (y (i + 1) - y i)
    rw [sub_add_cancel] at this
    refine (mul_le_of_le_one_left (abs_nonneg d) w1).trans ?_
    norm_num at *; linarith
  obtain ⟨p, hp, -⟩ := rnd_near hwd
  rw [← fin_mul] at hp
  have p1 := prod_near w0 w1 W hD d2 (by norm_num at *; linarith) (by norm_num at *; linarith) hp
  rw [hp] at E
  obtain ⟨ω, hω⟩ : ∃ ω, ω = (c - x i) / (x (i + 1) - x i) := ⟨_, rfl⟩
  rw [← hω] at p1 o0
  have hcv : |ω * (y (i + 1) - y i) + y i| ≤ M := by
    rw [← hω] at o2
    have := convex_abs o1 o0 o2 f1 s1
    rw [show (x (i + 1) - c) / (x (i + 1) - x i) = 1 - ω by linarith] at this
    rw [show ω * (y (i + 1) - y i) + y i = (1 - ω) * y i + ω * y (i + 1) by ring]
    exact this
  obtain ⟨α, hα⟩ : ∃ α, α = 2 * M / 2 ^ 24 + 1 / 2 ^ 98 + 2 * M * (1 / 2 ^ 22) + (2 * M + (2 * M / 2 ^ 24 + 1 / 2 ^ 98)) / 2 ^ 24 + 1 / 2 ^ 98 :=
    ⟨_, rfl⟩
  rw [← hα] at p1
  have hα1 : α ≤ M * (121 / 10) / 2 ^ 24 + 1 / 2 ^ 96 := by rw [hα]; norm_num; linarith
  have hα0 : 0 ≤ α := (abs_nonneg _).trans p1
  have hpy : |p + y i| ≤ 2 ^ 100 := by
    have h1 := abs_add_le (p - ω * (y (i + 1) - y i)) (ω * (y (i + 1) - y i) + y i)
    rw [show p - ω * (y (i + 1) - y i) + (ω * (y (i + 1) - y i) + y i) = p + y i by ring] at h1
    norm_num at *; linarith
  obtain ⟨r, hr, -⟩ := rnd_near hpy
  rw [← fin_add] at hr
  have r1 := sum_near p1 (show |y i - y i| ≤ 0 by simp) hcv (by norm_num at *; linarith) (by norm_num at *; linarith) hr
  rw [hr] at E
  refine ⟨r, ω * (y (i + 1) - y i) + y i, E, ?_, r1.trans ?_⟩
  · rw [@interp1_cell exactFmt _ _ _ _ hx hd _ _ _ hc hi hf]
    rw [@line_exact exactFmt (fun _ => rfl) _ _ _ _ _ hne, ← hω]
  · norm_num at *; linarith

/-- One row of a two-dimensional lookup. -/
theorem row_near [FloatFmt] {w w' ω ω' z1 z2 Z1 Z2 M η : ℚ} (w0 : 0 ≤ w) (w1 : w ≤ 1) (w0' : 0 ≤ w') (w1' : w' ≤ 1)
    (hw : |w - ω| ≤ 1 / 2 ^ 22) (hw' : |w' - ω'| ≤ 1 / 2 ^ 22) (o0 : 0 ≤ ω) (o0' : 0 ≤ ω') (ho : ω + ω' = 1)
    (hZ1 : |Z1| ≤ M) (hZ2 : |Z2| ≤ M) (h1 : |z1 - Z1| ≤ η) (h2 : |z2 - Z2| ≤ η) (hη : η ≤ M / 2 ^ 20 + 1 / 4) (hM : M ≤ 2 ^ 60) :
    ∃ r, (fin w * fin z1 + fin w' * fin z2 : Fl) = fin r ∧ |ω * Z1 + ω' * Z2| ≤ M ∧
      |r - (ω * Z1 + ω' * Z2)| ≤ η * (21 / 10) + M * (111 / 10) / 2 ^ 24 + 1 / 2 ^ 96 := by
  have M0 : 0 ≤ M := (abs_nonneg _).trans hZ1
  have η0 : 0 ≤ η := (abs_nonneg _).trans h1
  have fin_prod : ∀ {u z Z : ℚ}, 0 ≤ u → u ≤ 1 → |Z| ≤ M → |z - Z| ≤ η → ∃ p, (fin u * fin z : Fl) = fin p := by
    intro u z Z u0 u1 hZ hz
    have : |u * z| ≤ 2 ^ 100 := by
      rw [abs_mul, abs_of_nonneg u0]
      have := abs_add_le (z - Z) Z
      rw [sub_add_cancel] at this
      refine (mul_le_of_le_one_left (abs_nonneg z) u1).trans ?_
      norm_num at *; linarith
    obtain ⟨p, hp, -⟩ := rnd_near this
    exact ⟨p, by rw [fin_mul, hp]⟩
  obtain ⟨p, hp⟩ := fin_prod w0 w1 hZ1 h1
  obtain ⟨q, hq⟩ := fin_prod w0' w1' hZ2 h2
  have p1 := prod_near w0 w1 hw hZ1 h1 (by norm_num at *; linarith) (by norm_num at *; linarith) hp
  have q1 := prod_near w0' w1' hw' hZ2 h2 (by norm_num at *; linarith) (by norm_num at *; linarith) hq
  have hcv := convex_abs o0 o0' ho hZ1 hZ2
  obtain ⟨α, hα⟩ : ∃ α, α = η + M * (1 / 2 ^ 22) + (M + η) / 2 ^ 24 + 1 / 2 ^ 98 := ⟨_, rfl⟩
  rw [← hα] at p1 q1
  have hα0 : 0 ≤ α := (abs_nonneg _).trans p1
  have hα1 : α ≤ M + 1 + 1 / 8 := by rw [hα]; norm_num at *; linarith
  have hpq : |p + q| ≤ 2 ^ 100 := by
    have h1 := abs_add_le (p - ω * Z1) (q - ω' * Z2)
    have h2 := abs_add_le (p - ω * Z1 + (q - ω' * Z2)) (ω * Z1 + ω' * Z2)
    rw [show p - ω * Z1 + (q - ω' * Z2) + (ω * Z1 + ω' * Z2) = p + q by ring] at h2
    norm_num at *; linarith
  obtain ⟨r, hr, -⟩ := rnd_near hpq
  rw [← fin_add] at hr
  have hα2 : α + α ≤ 2 * M + 1 := by
    rw [hα]; norm_num at *; linarith
  have r1 := sum_near p1 q1 hcv (by norm_num at *; linarith) hα2 hr
  refine ⟨r, by rw [hp, hq, hr], hcv, r1.trans ?_⟩
  rw [hα]; norm_num at *; linarith

/-- A two-dimensional lookup is near the exact one. -/
theorem interp2_near [F : FloatFmt] {t : Table2d} {n m : Nat} {x y : Nat → ℚ} {z : Nat → Nat → ℚ} {M : ℚ} (hx : AxisFl t.cols n x)
    (hy : AxisFl t.rows m y)
    (hd : ∀ j i (hj : j < maxAxis) (hi : i < maxAxis), j ≤ m → i ≤ n → t.data ⟨j, hj⟩ ⟨i, hi⟩ = fin (z j i)) (hM : M ≤ 2 ^ 60)
    (hz : ∀ j i, j ≤ m → i ≤ n → |z j i| ≤ M) {v w : Fl} (hv : v ≠ nan) (hw : w ≠ nan) :
    ∃ r ρ, interp2 t v w = .ok (fin r) ∧ @interp2 exactFmt t v w = .ok (fin ρ) ∧ |r - ρ| ≤ M / 2 ^ 18 + 1 / 2 ^ 90 := by
  obtain ⟨c, i, hc, hi, hf, hcell⟩ := hx.cell hv
  obtain ⟨d, j, hcd, hj, hg, hcell'⟩ := hy.cell hw
  obtain ⟨hne, o0, o1, o2⟩ := exact_weights hcell
  obtain ⟨hne', v0, v1, v2⟩ := exact_weights hcell'
  obtain ⟨⟨u1, hu1, u10, u11⟩, ⟨u2, hu2, u20, u21⟩⟩ := weights (hx.size i (by omega)) (hx.size (i + 1) (by omega)) hcell
  obtain ⟨⟨s1, hs1, s10, s11⟩, ⟨s2, hs2, s20, s21⟩⟩ := weights (hy.size j (by omega)) (hy.size (j + 1) (by omega)) hcell'
  obtain ⟨U1, U2⟩ := weights_near (hx.size i (by omega)) (hx.size (i + 1) (by omega)) hcell hu1 hu2
  obtain ⟨S1, S2⟩ := weights_near (hy.size j (by omega)) (hy.size (j + 1) (by omega)) hcell' hs1 hs2
  have z1 := hz j i (by omega) (by omega)
  have z2 := hz j (i + 1) (by omega) (by omega)
  have z3 := hz (j + 1) i (by omega) (by omega)
  have z4 := hz (j + 1) (i + 1) (by omega) (by omega)
  have M0 : 0 ≤ M := (abs_nonneg _).trans z1
  have E := interp2_cell hx hy hd hc hi hf hcd hj hg
  rw [hu1, hu2, hs1, hs2] at E
  have zr : ∀ a : ℚ, |a - a| ≤ 0 := by intro a; simp
  obtain ⟨r1, hr1, a1, b1⟩ := row_near u20 u21 u10 u11 U2 U1 o1 o0 o2 z1 z2 (zr _) (zr _) (by positivity) hM
  obtain ⟨r2, hr2, a2, b2⟩ := row_near u20 u21 u10 u11 U2 U1 o1 o0 o2 z3 z4 (zr _) (zr _) (by positivity) hM
  rw [hr1, hr2] at E
  obtain ⟨η, hη⟩ : ∃ η : ℚ, η = 0 * (21 / 10) + M * (111 / 10) / 2 ^ 24 + 1 / 2 ^ 96 := ⟨_, rfl⟩
  rw [← hη] at b1 b2
  obtain ⟨r, hr, -, b⟩ := row_near s20 s21 s10 s11 S2 S1 v1 v0 v2 a1 a2 b1 b2 (by rw [hη]; norm_num at *; linarith) hM
  rw [hr] at E
  refine ⟨r, _, E, ?_, b.trans ?_⟩
  · rw [@interp2_cell exactFmt _ _ _ _ _ _ hx hy hd _ _ _ _ _ _ hc hi hf hcd hj hg, @surface_exact exactFmt (fun _ => rfl) _ _ _ _ _ _ _ _ _ _ hne hne']
  · rw [hη]; norm_num at *; linarith

end Verif
