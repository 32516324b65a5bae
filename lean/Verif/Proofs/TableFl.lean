/-
Table lookups in any float format: no fault, and a finite result of bounded size.
-/
import Verif.Proofs.Fl
import Verif.Proofs.Table
import Mathlib.Tactic.Positivity
import Mathlib.Tactic.Linarith
import Mathlib.Tactic.NormNum

namespace Verif
open Fl FloatFmt

/-! ### Axes of numbers -/

/-- No used breakpoint is NaN and each is at most the next. -/
structure AxisNum (a : Axis) : Prop where
  pos : 0 < a.num
  fits : a.num ≤ maxAxis
  num : ∀ i (h : i < maxAxis), i < a.num → a.values ⟨i, h⟩ ≠ nan
  step : ∀ i (h : i + 1 < maxAxis), i + 1 < a.num → le (a.values ⟨i, by omega⟩) (a.values ⟨i + 1, h⟩) = true

theorem AxisNum.sorted {a : Axis} (h : AxisNum a) : AxisSorted a := by
  intro i j hij hj hi hj'
  induction j with
  | zero =>
    have : i = 0 := by omega
    subst this
    exact le_refl (h.num 0 hi hj)
  | succ j ih =>
    rcases Nat.lt_or_ge i (j + 1) with h1 | h1
    · exact le_trans (ih (by omega) (by omega) (by omega)) (h.step j hj' hj)
    · have : i = j + 1 := by omega
      subst this
      exact le_refl (h.num _ hi hj)

theorem clampAxis_ok {a : Axis} (h : AxisNum a) {v : Fl} (hv : v ≠ nan) :
    ∃ c, clampAxis a v = .ok c ∧ le (a.values ⟨0, by have := h.pos; have := h.fits; omega⟩) c = true ∧
      le c (a.values ⟨a.num - 1, by have := h.pos; have := h.fits; omega⟩) = true := by
  have hp := h.pos
  have hf := h.fits
  have e1 : rd a.values 0 = .ok (a.values ⟨0, by omega⟩) := rd_ok a.values 0 (by omega)
  have e2 : rd a.values ((a.num : Int) - 1) = .ok (a.values ⟨a.num - 1, by omega⟩) := by
    have : ((a.num : Int) - 1) = ((a.num - 1 : Nat) : Int) := by omega
    rw [this]; exact rd_ok a.values (a.num - 1) (by omega)
  have hs := h.sorted (i := 0) (j := a.num - 1) (by omega) (by omega) (by omega) (by omega)
  have h0 := h.num 0 (by omega) hp
  have hl := h.num (a.num - 1) (by omega) (by omega)
  unfold clampAxis
  rw [e1, except_bind_ok, e2, except_bind_ok]
  generalize ha : a.values ⟨0, _⟩ = lo at *
  generalize hb : a.values ⟨a.num - 1, _⟩ = hi at *
  by_cases c1 : lt v lo = true
  · simp only [c1, if_true, not_lt_of_le hs]
    exact ⟨lo, rfl, le_refl h0, hs⟩
  · simp only [Bool.not_eq_true] at c1
    have hlv := le_of_not_lt hv h0 c1
    simp only [c1]
    by_cases c2 : lt hi v = true
    · exact ⟨hi, by simp [c2], hs, le_refl hl⟩
    · simp only [Bool.not_eq_true] at c2
      exact ⟨v, by simp [c2], hlv, le_of_not_lt hl hv c2⟩

/-- A lookup on an axis of numbers that does not fill its array finds a cell with an upper entry. -/
theorem cell_ok {a : Axis} (h : AxisNum a) {v : Fl} (hv : v ≠ nan) :
    ∃ c i, ∃ hi : i < a.num, clampAxis a v = .ok c ∧ findCell a c = .ok i ∧
      le (a.values ⟨i, by have := h.fits; omega⟩) c = true ∧
      (∀ h' : i + 1 < a.num, lt c (a.values ⟨i + 1, by have := h.fits; omega⟩) = true) ∧
      le (a.values ⟨0, by have := h.pos; have := h.fits; omega⟩) c = true ∧
      le c (a.values ⟨a.num - 1, by have := h.pos; have := h.fits; omega⟩) = true := by
  obtain ⟨c, hc, h1, h2⟩ := clampAxis_ok h hv
  obtain ⟨i, hi, hf, h3, h4⟩ := findCell_spec h.sorted h.pos h.fits h1 h2
  exact ⟨c, i, hi, hc, hf, h3, h4, h1, h2⟩

theorem interp1_no_fault [FloatFmt] {t : Table1d} (h : AxisNum t.cols) (hn : t.cols.num < maxAxis) {v : Fl}
    (hv : v ≠ nan) : ∃ r, interp1 t v = .ok r := by
  obtain ⟨c, i, hi, hc, hf, -⟩ := cell_ok h hv
  unfold interp1
  rw [hc, except_bind_ok, hf, except_bind_ok]
  rw [rd_ok t.cols.values i (by omega), except_bind_ok]
  have e : ((i : Int) + 1) = ((i + 1 : Nat) : Int) := by push_cast; rfl
  rw [e, rd_ok t.cols.values (i + 1) (by omega), except_bind_ok, rd_ok t.data i (by omega), except_bind_ok,
    rd_ok t.data (i + 1) (by omega), except_bind_ok]
  exact ⟨_, rfl⟩

theorem interp2_no_fault [FloatFmt] {t : Table2d} (hx : AxisNum t.cols) (hy : AxisNum t.rows)
    (hn : t.cols.num < maxAxis) (hm : t.rows.num < maxAxis) {v w : Fl} (hv : v ≠ nan) (hw : w ≠ nan) :
    ∃ r, interp2 t v w = .ok r := by
  obtain ⟨c, i, hi, hc, hf, -⟩ := cell_ok hx hv
  obtain ⟨d, j, hj, hd, hg, -⟩ := cell_ok hy hw
  unfold interp2
  rw [hc, except_bind_ok, hd, except_bind_ok, hf, except_bind_ok, hg, except_bind_ok]
  have e : ((i : Int) + 1) = ((i + 1 : Nat) : Int) := by push_cast; rfl
  have e' : ((j : Int) + 1) = ((j + 1 : Nat) : Int) := by push_cast; rfl
  rw [e, e', rd_ok t.cols.values i (by omega), except_bind_ok, rd_ok t.cols.values (i + 1) (by omega), except_bind_ok,
    rd_ok t.rows.values j (by omega), except_bind_ok, rd_ok t.rows.values (j + 1) (by omega), except_bind_ok,
    rd_ok t.data j (by omega), except_bind_ok, rd_ok _ i (by omega), except_bind_ok, rd_ok _ (i + 1) (by omega),
    except_bind_ok, rd_ok t.data (j + 1) (by omega), except_bind_ok, rd_ok _ i (by omega), except_bind_ok,
    rd_ok _ (i + 1) (by omega), except_bind_ok]
  exact ⟨_, rfl⟩

/-! ### Size of the result -/

/-- Breakpoints are finite and at most 2^60 in size, neighbours differ by at least 2^-64, and so does the entry after
the last breakpoint, which is read by a lookup at the top. -/
structure AxisFl (a : Axis) (n : Nat) (x : Nat → ℚ) : Prop where
  num : a.num = n
  pos : 0 < n
  fits : n < maxAxis
  vals : ∀ i (h : i < maxAxis), i ≤ n → a.values ⟨i, h⟩ = fin (x i)
  size : ∀ i, i ≤ n → |x i| ≤ 2 ^ 60
  gap : ∀ i, i + 1 < n → (2 : ℚ) ^ (-64 : ℤ) ≤ x (i + 1) - x i
  top : (2 : ℚ) ^ (-64 : ℤ) ≤ |x n - x (n - 1)|

theorem AxisFl.axisNum {a : Axis} {n : Nat} {x : Nat → ℚ} (h : AxisFl a n x) : AxisNum a := by
  have := h.fits
  refine ⟨h.num ▸ h.pos, by rw [h.num]; omega, ?_, ?_⟩
  · intro i hi hin
    rw [h.vals i hi (by have := h.num; omega)]; simp
  · intro i hi hin
    have hg := h.gap i (by have := h.num; omega)
    rw [h.vals i (by omega) (by have := h.num; omega), h.vals (i + 1) hi (by have := h.num; omega)]
    have : (0 : ℚ) < (2 : ℚ) ^ (-64 : ℤ) := by positivity
    simp only [le_fin, decide_eq_true_eq]; linarith

/-- A clamped lookup value lies in its cell: between the cell's two entries, or exactly on the last breakpoint. -/
theorem AxisFl.cell {a : Axis} {n : Nat} {x : Nat → ℚ} (h : AxisFl a n x) {v : Fl} (hv : v ≠ nan) :
    ∃ c i, clampAxis a v = .ok (fin c) ∧ i < n ∧ findCell a (fin c) = .ok i ∧
      ((x i ≤ c ∧ c ≤ x (i + 1) ∧ (2 : ℚ) ^ (-64 : ℤ) ≤ x (i + 1) - x i) ∨
        (c = x i ∧ (2 : ℚ) ^ (-64 : ℤ) ≤ |x (i + 1) - x i|)) := by
  obtain ⟨c, i, hi, hc, hf, h1, h2, h3, h4⟩ := cell_ok h.axisNum hv
  have hnum := h.num
  have hfits := h.fits
  have hi' : i < n := by omega
  rw [h.vals 0 _ (by omega)] at h3
  rw [h.vals _ _ (by omega)] at h4
  rw [h.vals i _ (by omega)] at h1
  obtain ⟨q, rfl⟩ : ∃ q, c = fin q := by
    rcases c with _ | s | q
    · simp at h3
    · cases s <;> simp [le] at h3 h4
    · exact ⟨q, rfl⟩
  simp only [le_fin, decide_eq_true_eq] at h1 h4
  refine ⟨q, i, hc, hi', hf, ?_⟩
  by_cases hl : i + 1 < n
  · left
    have := h2 (by omega)
    rw [h.vals (i + 1) _ (by omega)] at this
    simp only [lt_fin, decide_eq_true_eq] at this
    exact ⟨h1, this.le, h.gap i hl⟩
  · right
    have e : i = n - 1 := by omega
    have e1 : i + 1 = n := by omega
    have e2 : a.num - 1 = i := by omega
    rw [e2] at h4
    have := h.top
    rw [← e, ← e1] at this
    exact ⟨by linarith, this⟩

section
variable [FloatFmt]

theorem rnd_pow2 (m : ℤ) (k : ℤ) (hm : |m| ≤ 2 ^ 24) (hk : |k| ≤ 64) :
    rnd ((m : ℚ) * (2 : ℚ) ^ k) = Fl.fin ((m : ℚ) * (2 : ℚ) ^ k) := rnd_dyadic m k hm hk

theorem rnd_neg_rep {a : ℚ} (h : rnd a = Fl.fin a) : rnd (-a) = Fl.fin (-a) := by
  rw [rnd_neg, h]; rfl

theorem rnd_gap {g : ℚ} (h : (2 : ℚ) ^ (-64 : ℤ) ≤ g) (h' : g ≤ 2 ^ 64) :
    ∃ r, rnd g = Fl.fin r ∧ 0 < r := by
  have l := rnd_pow2 1 (-64) (by norm_num) (by norm_num)
  have u := rnd_pow2 1 64 (by norm_num) (by norm_num)
  simp only [Int.cast_one, one_mul] at l u
  obtain ⟨y, hy, h1, -⟩ := rnd_between h (by simpa using h') l u
  exact ⟨y, hy, lt_of_lt_of_le (by positivity) h1⟩

/-- The two weights of a cell are numbers between 0 and 1. -/
theorem weights {a b c : ℚ} (ha : |a| ≤ 2 ^ 60) (hb : |b| ≤ 2 ^ 60)
    (h : (a ≤ c ∧ c ≤ b ∧ (2 : ℚ) ^ (-64 : ℤ) ≤ b - a) ∨ (c = a ∧ (2 : ℚ) ^ (-64 : ℤ) ≤ |b - a|)) :
    (∃ w, (fin c - fin a) / (fin b - fin a) = fin w ∧ 0 ≤ w ∧ w ≤ 1) ∧
    (∃ w, (fin b - fin c) / (fin b - fin a) = fin w ∧ 0 ≤ w ∧ w ≤ 1) := by
  have one : rnd 1 = Fl.fin 1 := by simpa using rnd_int 1 (by norm_num)
  have zero : rnd 0 = Fl.fin 0 := rnd_zero
  obtain ⟨a1, a2⟩ := abs_le.mp ha
  obtain ⟨b1, b2⟩ := abs_le.mp hb
  rcases h with ⟨h1, h2, h3⟩ | ⟨rfl, h3⟩
  · obtain ⟨g, hg, hg0⟩ := rnd_gap h3 (by norm_num at *; linarith)
    have hgg := rnd_idem hg
    have key : ∀ d, 0 ≤ d → d ≤ b - a → ∃ w, rnd d / rnd (b - a) = fin w ∧ 0 ≤ w ∧ w ≤ 1 := by
      intro d d0 d1
      obtain ⟨u, hu, u0, u1⟩ : ∃ u, rnd d = Fl.fin u ∧ 0 ≤ u ∧ u ≤ g := by
        have l := le_rnd_of_le d0 zero
        have r := rnd_mono d1
        rw [hg] at r
        rcases hx : rnd d with _ | s | y
        · exact absurd hx (rnd_ne_nan d)
        · rw [hx] at l r; cases s <;> simp [Fl.le] at l r
        · rw [hx] at l r
          exact ⟨y, rfl, by simpa using l, by simpa using r⟩
      rw [hu, hg, fin_div _ _ hg0.ne']
      exact rnd_between (div_nonneg u0 hg0.le) ((div_le_one hg0).mpr u1) zero one
    simp only [fin_sub]
    exact ⟨key _ (by linarith) (by linarith), key _ (by linarith) (by linarith)⟩
  · have hne : ∃ g, rnd (b - c) = Fl.fin g ∧ g ≠ 0 := by
      rcases le_total 0 (b - c) with h0 | h0
      · rw [abs_of_nonneg h0] at h3
        obtain ⟨g, hg, hg0⟩ := rnd_gap h3 (by norm_num at *; linarith)
        exact ⟨g, hg, hg0.ne'⟩
      · rw [abs_of_nonpos h0] at h3
        obtain ⟨g, hg, hg0⟩ := rnd_gap h3 (by norm_num at *; linarith)
        refine ⟨-g, ?_, neg_ne_zero.mpr hg0.ne'⟩
        have := rnd_neg (-(b - c))
        rw [neg_neg, hg] at this
        rw [this]; rfl
    obtain ⟨g, hg, hg0⟩ := hne
    simp only [fin_sub, sub_self, zero, hg]
    rw [fin_div _ _ hg0, fin_div _ _ hg0, div_self hg0, zero_div]
    exact ⟨⟨0, zero, by norm_num, by norm_num⟩, ⟨1, one, by norm_num, by norm_num⟩⟩

theorem weighted {w d M : ℚ} (h0 : 0 ≤ w) (h1 : w ≤ 1) (hM : rnd M = Fl.fin M) (hd : |d| ≤ M) :
    ∃ r, (fin w * fin d : Fl) = fin r ∧ |r| ≤ M ∧ (0 ≤ d → 0 ≤ r) ∧ rnd r = Fl.fin r := by
  obtain ⟨d1, d2⟩ := abs_le.mp hd
  have h2 : |w * d| ≤ M := by
    rw [abs_mul, abs_of_nonneg h0]
    calc w * |d| ≤ 1 * |d| := mul_le_mul_of_nonneg_right h1 (abs_nonneg d)
      _ ≤ M := by rw [one_mul]; exact hd
  obtain ⟨m1, m2⟩ := abs_le.mp h2
  obtain ⟨r, hr, r1, r2⟩ := rnd_between m1 m2 (rnd_neg_rep hM) hM
  refine ⟨r, by rw [fin_mul, hr], abs_le.mpr ⟨r1, r2⟩, fun hd0 => rnd_nonneg (mul_nonneg h0 hd0) hr, rnd_idem hr⟩

theorem addB {a b A B C : ℚ} (hC : rnd C = Fl.fin C) (ha : |a| ≤ A) (hb : |b| ≤ B) (hAB : A + B ≤ C) :
    ∃ r, (fin a + fin b : Fl) = fin r ∧ |r| ≤ C ∧ (0 ≤ a → 0 ≤ b → 0 ≤ r) ∧ rnd r = Fl.fin r := by
  obtain ⟨a1, a2⟩ := abs_le.mp ha
  obtain ⟨b1, b2⟩ := abs_le.mp hb
  obtain ⟨r, hr, r1, r2⟩ := rnd_between (a := -C) (b := C) (x := a + b) (by linarith) (by linarith) (rnd_neg_rep hC) hC
  exact ⟨r, by rw [fin_add, hr], abs_le.mpr ⟨r1, r2⟩, fun h1 h2 => rnd_nonneg (add_nonneg h1 h2) hr, rnd_idem hr⟩

/-! ### A decidable form of the hypotheses, for concrete tables -/

/-- The number a finite float holds. -/
def Fl.toQ : Fl → ℚ
  | fin q => q
  | _ => 0

/-- `AxisFl` for the numbers in the array. -/
def AxisCheck (a : Axis) : Prop :=
  (0 < a.num ∧ a.num < maxAxis) ∧
  (∀ i : Fin maxAxis, i ≤ a.num → a.values i = fin (a.values i).toQ ∧ |(a.values i).toQ| ≤ 2 ^ 60) ∧
  ∀ i j : Fin maxAxis, (i : Nat) + 1 = j → (j < a.num → 1 / 2 ^ 64 ≤ (a.values j).toQ - (a.values i).toQ) ∧
    (j = a.num → 1 / 2 ^ 64 ≤ |(a.values j).toQ - (a.values i).toQ|)

instance (a : Axis) : Decidable (AxisCheck a) := by unfold AxisCheck; infer_instance

/-- The numbers in an array. -/
def nums (f : Fin maxAxis → Fl) (i : Nat) : ℚ := if h : i < maxAxis then (f ⟨i, h⟩).toQ else 0

omit [FloatFmt] in
theorem AxisCheck.axisFl {a : Axis} (h : AxisCheck a) : AxisFl a a.num (nums a.values) := by
  obtain ⟨⟨h0, h1⟩, h2, h3⟩ := h
  have e : ((2 : ℚ) ^ (-64 : ℤ)) = 1 / 2 ^ 64 := by norm_num [zpow_neg]
  refine ⟨rfl, h0, h1, ?_, ?_, ?_, ?_⟩
  · intro i hi hin
    simp only [nums, hi, dif_pos]
    exact (h2 ⟨i, hi⟩ hin).1
  · intro i hin
    simp only [nums, show i < maxAxis by omega, dif_pos]
    exact (h2 ⟨i, by omega⟩ hin).2
  · intro i hin
    rw [e]
    simp only [nums, show i < maxAxis by omega, show i + 1 < maxAxis by omega, dif_pos]
    exact (h3 ⟨i, by omega⟩ ⟨i + 1, by omega⟩ rfl).1 hin
  · rw [e]
    simp only [nums, show a.num - 1 < maxAxis by omega, h1, dif_pos]
    exact (h3 ⟨a.num - 1, by omega⟩ ⟨a.num, h1⟩ (by simp; omega)).2 rfl

/-- One-dimensional lookup at any number, in any float format: the result is finite, not negative if no table value
is, and at most four times the size of the table values. -/
theorem interp1_bound {t : Table1d} {n : Nat} {x y : Nat → ℚ} {k : ℤ} (hx : AxisFl t.cols n x)
    (hd : ∀ i (h : i < maxAxis), i ≤ n → t.data ⟨i, h⟩ = fin (y i)) (hk : |k| ≤ 60)
    (hy : ∀ i, i ≤ n → |y i| ≤ (2 : ℚ) ^ k ∧ rnd (y i) = Fl.fin (y i)) {v : Fl} (hv : v ≠ nan) :
    ∃ r, interp1 t v = .ok (fin r) ∧ |r| ≤ 4 * (2 : ℚ) ^ k ∧ rnd r = Fl.fin r ∧
      ((∀ i, i ≤ n → 0 ≤ y i) → 0 ≤ r) := by
  obtain ⟨c, i, hc, hi, hf, hcell⟩ := hx.cell hv
  have hfits := hx.fits
  have hpos : (0 : ℚ) < (2 : ℚ) ^ k := by positivity
  obtain ⟨k1, k2⟩ := abs_le.mp hk
  obtain ⟨⟨w, hw, w0, w1⟩, -⟩ := weights (hx.size i (by omega)) (hx.size (i + 1) (by omega)) hcell
  obtain ⟨f1, f2⟩ := hy i (by omega)
  obtain ⟨s1, s2⟩ := hy (i + 1) (by omega)
  have P2 := rnd_pow2 2 k (by norm_num) (by rw [abs_le]; constructor <;> linarith)
  have P4 := rnd_pow2 4 k (by norm_num) (by rw [abs_le]; constructor <;> linarith)
  push_cast at P2 P4
  unfold interp1
  rw [hc, except_bind_ok, hf, except_bind_ok]
  have e : ((i : Int) + 1) = ((i + 1 : Nat) : Int) := by push_cast; rfl
  rw [e, rd_ok t.cols.values i (by omega), except_bind_ok, rd_ok t.cols.values (i + 1) (by omega), except_bind_ok,
    rd_ok t.data i (by omega), except_bind_ok, rd_ok t.data (i + 1) (by omega), except_bind_ok,
    hx.vals i (by omega) (by omega), hx.vals (i + 1) (by omega) (by omega), hd i (by omega) (by omega),
    hd (i + 1) (by omega) (by omega), hw]
  obtain ⟨fa, fb⟩ := abs_le.mp f1
  obtain ⟨sa, sb⟩ := abs_le.mp s1
  obtain ⟨D, hD, D1, D2⟩ := rnd_between (a := -(2 * (2 : ℚ) ^ k)) (b := 2 * (2 : ℚ) ^ k) (x := y (i + 1) - y i)
    (by linarith) (by linarith) (rnd_neg_rep P2) P2
  rw [fin_sub, hD]
  have hDabs : |D| ≤ 2 * (2 : ℚ) ^ k := abs_le.mpr ⟨D1, D2⟩
  -- the product, which is at least `min D 0`
  obtain ⟨p, hp, p1, p2, p3⟩ := weighted w0 w1 P2 hDabs
  have comm : (fin D * fin w : Fl) = fin w * fin D := by rw [fin_mul, fin_mul, mul_comm]
  rw [comm, hp]
  obtain ⟨r, hr, r1, -, r3⟩ := addB (a := p) (b := y i) P4 p1 f1 (by linarith)
  rw [hr]
  refine ⟨r, rfl, r1, r3, ?_⟩
  intro hnn
  have hfi := hnn i (by omega)
  have hsi := hnn (i + 1) (by omega)
  have hDge : -y i ≤ D := by
    have := rnd_mono (show -y i ≤ y (i + 1) - y i by linarith)
    rw [rnd_neg_rep f2, hD] at this
    simpa using this
  have hpge : -y i ≤ p := by
    have h1 : -y i ≤ w * D := by
      rcases le_total 0 D with h0 | h0
      · have := mul_nonneg w0 h0; linarith
      · have : D ≤ w * D := by nlinarith
        linarith
    have := rnd_mono h1
    rw [fin_mul] at hp
    rw [rnd_neg_rep f2, hp] at this
    simpa using this
  rw [fin_add] at hr
  exact rnd_nonneg (by linarith) hr

/-- Two-dimensional lookup at any pair of numbers, in any float format. -/
theorem interp2_bound {t : Table2d} {n m : Nat} {x y : Nat → ℚ} {z : Nat → Nat → ℚ} {k : ℤ}
    (hx : AxisFl t.cols n x) (hy : AxisFl t.rows m y)
    (hd : ∀ j i (hj : j < maxAxis) (hi : i < maxAxis), j ≤ m → i ≤ n → t.data ⟨j, hj⟩ ⟨i, hi⟩ = fin (z j i))
    (hk : |k| ≤ 60) (hz : ∀ j i, j ≤ m → i ≤ n → |z j i| ≤ (2 : ℚ) ^ k) {v w : Fl}
    (hv : v ≠ nan) (hw : w ≠ nan) :
    ∃ r, interp2 t v w = .ok (fin r) ∧ |r| ≤ 4 * (2 : ℚ) ^ k ∧ rnd r = Fl.fin r ∧
      ((∀ j i, j ≤ m → i ≤ n → 0 ≤ z j i) → 0 ≤ r) := by
  obtain ⟨c, i, hc, hi, hf, hcell⟩ := hx.cell hv
  obtain ⟨d, j, hcd, hj, hg, hcell'⟩ := hy.cell hw
  have hfits := hx.fits
  have hfits' := hy.fits
  have hpos : (0 : ℚ) < (2 : ℚ) ^ k := by positivity
  obtain ⟨k1, k2⟩ := abs_le.mp hk
  obtain ⟨⟨u1, hu1, u10, u11⟩, ⟨u2, hu2, u20, u21⟩⟩ := weights (hx.size i (by omega)) (hx.size (i + 1) (by omega)) hcell
  obtain ⟨⟨s1, hs1, s10, s11⟩, ⟨s2, hs2, s20, s21⟩⟩ := weights (hy.size j (by omega)) (hy.size (j + 1) (by omega)) hcell'
  have P1 := rnd_pow2 1 k (by norm_num) (by rw [abs_le]; constructor <;> linarith)
  have P2 := rnd_pow2 2 k (by norm_num) (by rw [abs_le]; constructor <;> linarith)
  have P4 := rnd_pow2 4 k (by norm_num) (by rw [abs_le]; constructor <;> linarith)
  push_cast at P1 P2 P4
  rw [one_mul] at P1
  unfold interp2
  rw [hc, except_bind_ok, hcd, except_bind_ok, hf, except_bind_ok, hg, except_bind_ok]
  have e : ((i : Int) + 1) = ((i + 1 : Nat) : Int) := by push_cast; rfl
  have e' : ((j : Int) + 1) = ((j + 1 : Nat) : Int) := by push_cast; rfl
  rw [e, e', rd_ok t.cols.values i (by omega), except_bind_ok, rd_ok t.cols.values (i + 1) (by omega), except_bind_ok,
    rd_ok t.rows.values j (by omega), except_bind_ok, rd_ok t.rows.values (j + 1) (by omega), except_bind_ok,
    rd_ok t.data j (by omega), except_bind_ok, rd_ok _ i (by omega), except_bind_ok, rd_ok _ (i + 1) (by omega),
    except_bind_ok, rd_ok t.data (j + 1) (by omega), except_bind_ok, rd_ok _ i (by omega), except_bind_ok,
    rd_ok _ (i + 1) (by omega), except_bind_ok,
    hx.vals i (by omega) (by omega), hx.vals (i + 1) (by omega) (by omega), hy.vals j (by omega) (by omega),
    hy.vals (j + 1) (by omega) (by omega), hd j i (by omega) (by omega) (by omega) (by omega),
    hd j (i + 1) (by omega) (by omega) (by omega) (by omega), hd (j + 1) i (by omega) (by omega) (by omega) (by omega),
    hd (j + 1) (i + 1) (by omega) (by omega) (by omega) (by omega), hu1, hu2, hs1, hs2]
  obtain ⟨a1, ha1, b1, n1, -⟩ := weighted u20 u21 P1 (hz j i (by omega) (by omega))
  obtain ⟨a2, ha2, b2, n2, -⟩ := weighted u10 u11 P1 (hz j (i + 1) (by omega) (by omega))
  obtain ⟨a3, ha3, b3, n3, -⟩ := weighted u20 u21 P1 (hz (j + 1) i (by omega) (by omega))
  obtain ⟨a4, ha4, b4, n4, -⟩ := weighted u10 u11 P1 (hz (j + 1) (i + 1) (by omega) (by omega))
  rw [ha1, ha2, ha3, ha4]
  obtain ⟨c1, hc1, d1, m1, -⟩ := addB P2 b1 b2 (by linarith)
  obtain ⟨c2, hc2, d2, m2, -⟩ := addB P2 b3 b4 (by linarith)
  simp only [hc1, hc2]
  obtain ⟨e1, he1, f1, o1, -⟩ := weighted s20 s21 P2 d1
  obtain ⟨e2, he2, f2, o2, -⟩ := weighted s10 s11 P2 d2
  rw [he1, he2]
  obtain ⟨r, hr, r1, r2, r3⟩ := addB P4 f1 f2 (by linarith)
  rw [hr]
  refine ⟨r, rfl, r1, r3, ?_⟩
  intro hnn
  exact r2 (o1 (m1 (n1 (hnn _ _ (by omega) (by omega))) (n2 (hnn _ _ (by omega) (by omega)))))
    (o2 (m2 (n3 (hnn _ _ (by omega) (by omega))) (n4 (hnn _ _ (by omega) (by omega)))))

end

end Verif
