/-
Table lookups in any float format: the result is close to the range of the used table entries.
-/
import Verif.Proofs.TableFl
import Verif.Spec.Safe

namespace Verif
open Fl FloatFmt

section
variable [FloatFmt]

/-- The error of one rounding. -/
theorem rnd_err {x : ℚ} (h : |x| ≤ 2 ^ 62) : ∃ y, rnd x = Fl.fin y ∧ |y - x| ≤ |x| / 2 ^ 24 + 1 / 2 ^ 63 ∧ rnd y = Fl.fin y := by
  suffices h : ∃ y, rnd x = Fl.fin y ∧ |y - x| ≤ |x| / 2 ^ 24 + 1 / 2 ^ 63 by
    obtain ⟨y, h1, h2⟩ := h
    exact ⟨y, h1, h2, rnd_idem h1⟩
  rcases le_total ((2 : ℚ) ^ (-100 : ℤ)) |x| with h1 | h1
  · obtain ⟨y, hy, hy1⟩ := rnd_rel x h1 (by
      refine le_trans h ?_
      norm_num)
    refine ⟨y, hy, le_trans hy1 ?_⟩
    have : (0 : ℚ) ≤ 1 / 2 ^ 63 := by positivity
    linarith
  · have p := rnd_pow2 1 (-64) (by norm_num) (by norm_num)
    simp only [Int.cast_one, one_mul] at p
    have e : ((2 : ℚ) ^ (-64 : ℤ)) = 1 / 2 ^ 64 := by norm_num [zpow_neg]
    have e2 : ((2 : ℚ) ^ (-100 : ℤ)) = 1 / 2 ^ 100 := by norm_num [zpow_neg]
    rw [e2] at h1
    rw [e] at p
    obtain ⟨a, b⟩ := abs_le.mp h1
    obtain ⟨y, hy, y1, y2⟩ := rnd_between (a := -(1 / 2 ^ 64)) (b := 1 / 2 ^ 64) (x := x)
      (le_trans (by norm_num) a) (le_trans b (by norm_num)) (rnd_neg_rep p) p
    refine ⟨y, hy, ?_⟩
    have h0 : (0 : ℚ) ≤ |x| / 2 ^ 24 := by positivity
    rw [abs_le]
    norm_num at *
    constructor <;> linarith

/-- The weights of a cell that is at least 2^-20 wide add up to nearly 1. -/
theorem weights_sum {a b c : ℚ} (ha : |a| ≤ 2 ^ 60) (hb : |b| ≤ 2 ^ 60) (h1 : a ≤ c) (h2 : c ≤ b) (h3 : 1 / 2 ^ 20 ≤ b - a) :
    ∃ w1 w2, (fin b - fin c) / (fin b - fin a) = fin w1 ∧ (fin c - fin a) / (fin b - fin a) = fin w2 ∧
      0 ≤ w1 ∧ w1 ≤ 1 ∧ 0 ≤ w2 ∧ w2 ≤ 1 ∧ |w1 + w2 - 1| ≤ 1 / 2 ^ 20 := by
  obtain ⟨⟨w2, e2, p2, q2⟩, ⟨w1, e1, p1, q1⟩⟩ := weights ha hb (c := c) (.inl ⟨h1, h2, by
    refine le_trans ?_ h3
    norm_num [zpow_neg]⟩)
  refine ⟨w1, w2, e1, e2, p1, q1, p2, q2, ?_⟩
  obtain ⟨a1, a2⟩ := abs_le.mp ha
  obtain ⟨b1, b2⟩ := abs_le.mp hb
  have hG : 0 < b - a := lt_of_lt_of_le (by norm_num) h3
  have hGm : b - a ≤ 2 ^ 61 := by norm_num at *; linarith
  obtain ⟨g, hg, hge, -⟩ := rnd_err (x := b - a) (by rw [abs_of_pos hG]; exact le_trans hGm (by norm_num))
  obtain ⟨u1, hu1, hu1e, -⟩ := rnd_err (x := b - c) (by rw [abs_of_nonneg (by linarith)]; exact le_trans (by linarith : b - c ≤ b - a) (le_trans hGm (by norm_num)))
  obtain ⟨u2, hu2, hu2e, -⟩ := rnd_err (x := c - a) (by rw [abs_of_nonneg (by linarith)]; exact le_trans (by linarith : c - a ≤ b - a) (le_trans hGm (by norm_num)))
  rw [abs_of_pos hG] at hge
  rw [abs_of_nonneg (by linarith : 0 ≤ b - c)] at hu1e
  rw [abs_of_nonneg (by linarith : 0 ≤ c - a)] at hu2e
  obtain ⟨g1, g2⟩ := abs_le.mp hge
  obtain ⟨s1, s2⟩ := abs_le.mp hu1e
  obtain ⟨t1, t2⟩ := abs_le.mp hu2e
  generalize hGd : b - a = G at *
  have hbc : b - c = G - (c - a) := by rw [← hGd]; ring
  generalize hcd : c - a = C at *
  rw [hbc] at s1 s2
  have hg0 : 0 < g := by norm_num at *; linarith
  have hC0 : 0 ≤ C := by rw [← hcd]; linarith
  have hC1 : C ≤ G := by rw [← hcd, ← hGd]; linarith
  -- the exact quotients
  have hq : |u1 / g + u2 / g - 1| ≤ 1 / 2 ^ 21 := by
    rw [← add_div, div_sub_one hg0.ne', abs_div, abs_of_pos hg0, div_le_iff₀ hg0, abs_le]
    norm_num at *
    constructor <;> linarith
  have hu1g : |u1 / g| ≤ 2 := by
    rw [abs_div, abs_of_pos hg0, div_le_iff₀ hg0, abs_le]
    norm_num at *
    constructor <;> linarith
  have hu2g : |u2 / g| ≤ 2 := by
    rw [abs_div, abs_of_pos hg0, div_le_iff₀ hg0, abs_le]
    norm_num at *
    constructor <;> linarith
  rw [fin_sub, fin_sub, hGd, hbc] at e1
  rw [hbc] at hu1
  rw [hu1, hg, fin_div _ _ hg0.ne'] at e1
  rw [fin_sub, fin_sub, hGd, hcd, hu2, hg, fin_div _ _ hg0.ne'] at e2
  obtain ⟨z1, hz1, hz1e, -⟩ := rnd_err (x := u1 / g) (le_trans hu1g (by norm_num))
  obtain ⟨z2, hz2, hz2e, -⟩ := rnd_err (x := u2 / g) (le_trans hu2g (by norm_num))
  rw [hz1] at e1
  rw [hz2] at e2
  simp only [Fl.fin.injEq] at e1 e2
  subst e1 e2
  have k1 : |u1 / g| / 2 ^ 24 ≤ 2 / 2 ^ 24 := by apply div_le_div_of_nonneg_right hu1g; positivity
  have k2 : |u2 / g| / 2 ^ 24 ≤ 2 / 2 ^ 24 := by apply div_le_div_of_nonneg_right hu2g; positivity
  obtain ⟨x1, x2⟩ := abs_le.mp hq
  obtain ⟨y1, y2⟩ := abs_le.mp hz1e
  obtain ⟨y3, y4⟩ := abs_le.mp hz2e
  generalize u1 / g = A at *
  generalize u2 / g = B at *
  rw [abs_le]
  norm_num at *
  constructor <;> linarith

/-- The cell of a lookup with its two weights; at the top of the table the second weight is 0. -/
theorem AxisFl.cellW {a : Axis} {n : Nat} {x : Nat → ℚ} (h : AxisFl a n x) (hg : ∀ i, i + 1 < n → 1 / 2 ^ 20 ≤ x (i + 1) - x i)
    {v : Fl} (hv : v ≠ nan) :
    ∃ c i w1 w2, clampAxis a v = .ok (fin c) ∧ i < n ∧ findCell a (fin c) = .ok i ∧
      (fin (x (i + 1)) - fin c) / (fin (x (i + 1)) - fin (x i)) = fin w1 ∧
      (fin c - fin (x i)) / (fin (x (i + 1)) - fin (x i)) = fin w2 ∧
      0 ≤ w1 ∧ w1 ≤ 1 ∧ 0 ≤ w2 ∧ w2 ≤ 1 ∧ |w1 + w2 - 1| ≤ 1 / 2 ^ 20 ∧ (i + 1 < n ∨ w2 = 0) := by
  obtain ⟨c, i, hi, hc, hf, h1, h2, h3, h4⟩ := cell_ok h.axisNum hv
  have hnum := h.num
  have hfits := h.fits
  have hi' : i < n := by omega
  rw [h.vals 0 _ (by omega)] at h3
  rw [h.vals _ _ (by omega)] at h4
  rw [h.vals i _ (by omega)] at h1
  obtain ⟨q, rfl⟩ : ∃ q, c = fin q := by
    rcases c with _ | s | q
    · simp at h3
    · cases s <;> simp [le] at h3 h4
    · exact ⟨q, rfl⟩
  simp only [le_fin, decide_eq_true_eq] at h1 h4
  by_cases hl : i + 1 < n
  · have := h2 (by omega)
    rw [h.vals (i + 1) _ (by omega)] at this
    simp only [lt_fin, decide_eq_true_eq] at this
    obtain ⟨w1, w2, e1, e2, k⟩ := weights_sum (h.size i (by omega)) (h.size (i + 1) (by omega)) h1 this.le (hg i hl)
    exact ⟨q, i, w1, w2, hc, hi', hf, e1, e2, k.1, k.2.1, k.2.2.1, k.2.2.2.1, k.2.2.2.2, .inl hl⟩
  · have e : i = n - 1 := by omega
    have e1 : i + 1 = n := by omega
    have e2 : a.num - 1 = i := by omega
    rw [e2] at h4
    have ht := h.top
    rw [← e, ← e1] at ht
    have hq : q = x i := by linarith
    have zero : rnd 0 = Fl.fin 0 := rnd_zero
    have one : rnd 1 = Fl.fin 1 := by simpa using rnd_int 1 (by norm_num)
    have hne : ∃ g, rnd (x (i + 1) - x i) = Fl.fin g ∧ g ≠ 0 := by
      obtain ⟨b1, b2⟩ := abs_le.mp (h.size i (by omega))
      obtain ⟨b3, b4⟩ := abs_le.mp (h.size (i + 1) (by omega))
      rcases le_total 0 (x (i + 1) - x i) with h0 | h0
      · rw [abs_of_nonneg h0] at ht
        obtain ⟨g, hg, hg0⟩ := rnd_gap ht (by norm_num at *; linarith)
        exact ⟨g, hg, hg0.ne'⟩
      · rw [abs_of_nonpos h0] at ht
        obtain ⟨g, hg, hg0⟩ := rnd_gap ht (by norm_num at *; linarith)
        refine ⟨-g, ?_, neg_ne_zero.mpr hg0.ne'⟩
        have := rnd_neg (-(x (i + 1) - x i))
        rw [neg_neg, hg] at this
        rw [this]; rfl
    obtain ⟨g, hgr, hg0⟩ := hne
    refine ⟨q, i, 1, 0, hc, hi', hf, ?_, ?_, by norm_num, by norm_num, by norm_num, by norm_num, by norm_num, .inr rfl⟩
    · rw [hq, fin_sub, hgr, fin_div _ _ hg0, div_self hg0, one]
    · rw [hq, fin_sub, fin_sub, hgr, sub_self, zero, fin_div _ _ hg0, zero_div, zero]

/-- The weighted sum of two entries. -/
theorem mix {w1 w2 d1 d2 lo hi M : ℚ} (a1 : 0 ≤ w1) (b1 : w1 ≤ 1) (a2 : 0 ≤ w2) (b2 : w2 ≤ 1)
    (hs : |w1 + w2 - 1| ≤ 1 / 2 ^ 20) (h1 : lo ≤ d1 ∧ d1 ≤ hi) (h2 : w2 = 0 ∨ (lo ≤ d2 ∧ d2 ≤ hi))
    (hlo : |lo| ≤ M) (hhi : |hi| ≤ M) (hM : M ≤ 2 ^ 50) :
    ∃ r, (fin w1 * fin d1 + fin w2 * fin d2 : Fl) = fin r ∧ lo - (M / 2 ^ 18 + 1 / 2 ^ 58) ≤ r ∧
      r ≤ hi + (M / 2 ^ 18 + 1 / 2 ^ 58) ∧ (0 ≤ lo → 0 ≤ r) ∧ rnd r = Fl.fin r := by
  -- an unused entry may be replaced by the used one
  suffices key : ∀ d2, lo ≤ d2 ∧ d2 ≤ hi → ∃ r, (fin w1 * fin d1 + fin w2 * fin d2 : Fl) = fin r ∧
      lo - (M / 2 ^ 18 + 1 / 2 ^ 58) ≤ r ∧ r ≤ hi + (M / 2 ^ 18 + 1 / 2 ^ 58) ∧ (0 ≤ lo → 0 ≤ r) ∧ rnd r = Fl.fin r by
    rcases h2 with h2 | h2
    · obtain ⟨r, hr, k⟩ := key d1 h1
      refine ⟨r, ?_, k⟩
      rw [← hr, h2, fin_mul 0 d2, fin_mul 0 d1, zero_mul, zero_mul]
    · exact key d2 h2
  clear h2 d2
  intro d2 h2
  obtain ⟨l1, l2⟩ := abs_le.mp hlo
  obtain ⟨m1, m2⟩ := abs_le.mp hhi
  obtain ⟨s1, s2⟩ := abs_le.mp hs
  have hM0 : 0 ≤ M := by have := abs_nonneg lo; linarith
  have hd1 : |d1| ≤ M := abs_le.mpr ⟨by linarith [h1.1], by linarith [h1.2]⟩
  have hd2 : |d2| ≤ M := abs_le.mpr ⟨by linarith [h2.1], by linarith [h2.2]⟩
  have hp1 : |w1 * d1| ≤ M := by rw [abs_mul, abs_of_nonneg a1]; nlinarith [abs_nonneg d1]
  have hp2 : |w2 * d2| ≤ M := by rw [abs_mul, abs_of_nonneg a2]; nlinarith [abs_nonneg d2]
  obtain ⟨p1, e1, r1, -⟩ := rnd_err (x := w1 * d1) (le_trans hp1 (le_trans hM (by norm_num)))
  obtain ⟨p2, e2, r2, -⟩ := rnd_err (x := w2 * d2) (le_trans hp2 (le_trans hM (by norm_num)))
  have k1 : |w1 * d1| / 2 ^ 24 ≤ M / 2 ^ 24 := by apply div_le_div_of_nonneg_right hp1; positivity
  have k2 : |w2 * d2| / 2 ^ 24 ≤ M / 2 ^ 24 := by apply div_le_div_of_nonneg_right hp2; positivity
  obtain ⟨x1, x2⟩ := abs_le.mp r1
  obtain ⟨y1, y2⟩ := abs_le.mp r2
  obtain ⟨n1, n2⟩ := abs_le.mp hp1
  obtain ⟨n3, n4⟩ := abs_le.mp hp2
  have hsum : |p1 + p2| ≤ 3 * M + 1 / 2 ^ 61 := by
    rw [abs_le]
    norm_num at *
    constructor <;> linarith
  obtain ⟨r, e3, r3, r4⟩ := rnd_err (x := p1 + p2) (le_trans hsum (by norm_num at *; linarith))
  have k3 : |p1 + p2| / 2 ^ 24 ≤ (3 * M + 1 / 2 ^ 61) / 2 ^ 24 := by apply div_le_div_of_nonneg_right hsum; positivity
  obtain ⟨z1, z2⟩ := abs_le.mp r3
  -- the exact weighted sum
  have lower : lo - M / 2 ^ 20 ≤ w1 * d1 + w2 * d2 := by
    have h5 : (w1 + w2) * lo ≤ w1 * d1 + w2 * d2 := by nlinarith [h1.1, h2.1]
    have h6 : |(w1 + w2 - 1) * lo| ≤ 1 / 2 ^ 20 * M := by
      rw [abs_mul]; exact mul_le_mul hs hlo (abs_nonneg _) (by positivity)
    obtain ⟨h7, -⟩ := abs_le.mp h6
    have : (w1 + w2) * lo = lo + (w1 + w2 - 1) * lo := by ring
    linarith
  have upper : w1 * d1 + w2 * d2 ≤ hi + M / 2 ^ 20 := by
    have h5 : w1 * d1 + w2 * d2 ≤ (w1 + w2) * hi := by nlinarith [h1.2, h2.2]
    have h6 : |(w1 + w2 - 1) * hi| ≤ 1 / 2 ^ 20 * M := by
      rw [abs_mul]; exact mul_le_mul hs hhi (abs_nonneg _) (by positivity)
    obtain ⟨-, h7⟩ := abs_le.mp h6
    have : (w1 + w2) * hi = hi + (w1 + w2 - 1) * hi := by ring
    linarith
  refine ⟨r, by rw [fin_mul, fin_mul, e1, e2, fin_add, e3], ?_, ?_, ?_, r4⟩
  · generalize w1 * d1 = A at *
    generalize w2 * d2 = B at *
    norm_num at *
    linarith
  · generalize w1 * d1 = A at *
    generalize w2 * d2 = B at *
    norm_num at *
    linarith
  · intro h0
    exact rnd_nonneg (add_nonneg (rnd_nonneg (mul_nonneg a1 (le_trans h0 h1.1)) e1)
      (rnd_nonneg (mul_nonneg a2 (le_trans h0 h2.1)) e2)) e3

omit [FloatFmt] in
theorem AxisSane.axisFl {a : Axis} (h : AxisSane a) :
    AxisFl a a.num (nums a.values) ∧ ∀ i, i + 1 < a.num → 1 / 2 ^ 20 ≤ nums a.values (i + 1) - nums a.values i := by
  obtain ⟨h1, h2, h3⟩ := h
  refine ⟨AxisCheck.axisFl ⟨h1, h2, fun i j hij => ⟨fun hj => le_trans (by norm_num) ((h3 i j hij).1 hj), (h3 i j hij).2⟩⟩, ?_⟩
  intro i hi
  have hf := h1.2
  unfold nums
  rw [dif_pos (show i + 1 < maxAxis by omega), dif_pos (show i < maxAxis by omega)]
  exact (h3 ⟨i, by omega⟩ ⟨i + 1, by omega⟩ rfl).1 hi

/-- The interpolation between two entries, in the form used for one axis. -/
theorem blend {F S w lo hi M : ℚ} (w0 : 0 ≤ w) (w1 : w ≤ 1) (hF : lo ≤ F ∧ F ≤ hi) (hS : lo ≤ S ∧ S ≤ hi)
    (hlo : |lo| ≤ M) (hhi : |hi| ≤ M) (hM : M ≤ 2 ^ 40) (hrep : rnd F = Fl.fin F) :
    ∃ r, ((fin S - fin F) * fin w + fin F : Fl) = fin r ∧ lo - (M / 2 ^ 16 + 1 / 2 ^ 50) ≤ r ∧
      r ≤ hi + (M / 2 ^ 16 + 1 / 2 ^ 50) ∧ (0 ≤ lo → 0 ≤ r) := by
  obtain ⟨l1, l2⟩ := abs_le.mp hlo
  obtain ⟨m1, m2⟩ := abs_le.mp hhi
  have hM0 : 0 ≤ M := by have := abs_nonneg lo; linarith
  have f1 : -M ≤ F := by linarith [hF.1]
  have f2 : F ≤ M := by linarith [hF.2]
  have g1 : -M ≤ S := by linarith [hS.1]
  have g2 : S ≤ M := by linarith [hS.2]
  have hSF : |S - F| ≤ 2 * M := abs_le.mpr ⟨by linarith, by linarith⟩
  obtain ⟨D, hD, D1, -⟩ := rnd_err (x := S - F) (le_trans hSF (by norm_num at *; linarith))
  have k1 : |S - F| / 2 ^ 24 ≤ 2 * M / 2 ^ 24 := by apply div_le_div_of_nonneg_right hSF; positivity
  have D1' : |D - (S - F)| ≤ 2 * M / 2 ^ 24 + 1 / 2 ^ 63 := by linarith
  obtain ⟨D2, D3⟩ := abs_le.mp D1'
  obtain ⟨q1, q2⟩ := abs_le.mp hSF
  have hDM : |D| ≤ 3 * M + 1 / 2 ^ 62 := by
    clear D1 k1 hD D1' hlo hhi
    rw [abs_le]; constructor <;> linarith
  have hDw : |D * w| ≤ 3 * M + 1 / 2 ^ 62 := by
    rw [abs_mul, abs_of_nonneg w0]
    exact le_trans (mul_le_of_le_one_right (abs_nonneg D) w1) hDM
  obtain ⟨p, hp, p1, -⟩ := rnd_err (x := D * w) (le_trans hDw (by norm_num at hM ⊢; linarith))
  have k2 : |D * w| / 2 ^ 24 ≤ (3 * M + 1 / 2 ^ 62) / 2 ^ 24 := by apply div_le_div_of_nonneg_right hDw; positivity
  have p1' : |p - D * w| ≤ (3 * M + 1 / 2 ^ 62) / 2 ^ 24 + 1 / 2 ^ 63 := by linarith
  obtain ⟨p2, p3⟩ := abs_le.mp p1'
  obtain ⟨q3, q4⟩ := abs_le.mp hDw
  have hpF : |p + F| ≤ 5 * M + 1 / 2 ^ 60 := by
    clear D1 k1 k2 p1 p1' hD hp D1' hlo hhi
    rw [abs_le]; constructor <;> linarith
  obtain ⟨r, hr, r1, -⟩ := rnd_err (x := p + F) (le_trans hpF (by norm_num at hM ⊢; linarith))
  have k3 : |p + F| / 2 ^ 24 ≤ (5 * M + 1 / 2 ^ 60) / 2 ^ 24 := by apply div_le_div_of_nonneg_right hpF; positivity
  have r1' : |r - (p + F)| ≤ (5 * M + 1 / 2 ^ 60) / 2 ^ 24 + 1 / 2 ^ 63 := by linarith
  obtain ⟨r2, r3⟩ := abs_le.mp r1'
  -- the error of the first difference is scaled by the weight
  have hDe : |D * w - (S - F) * w| ≤ 2 * M / 2 ^ 24 + 1 / 2 ^ 63 := by
    rw [← sub_mul, abs_mul, abs_of_nonneg w0]
    exact le_trans (mul_le_of_le_one_right (abs_nonneg _) w1) D1'
  obtain ⟨x1, x2⟩ := abs_le.mp hDe
  have lower : lo ≤ F + (S - F) * w := by
    have h1 := mul_nonneg (sub_nonneg.mpr hF.1) (sub_nonneg.mpr w1)
    have h2 := mul_nonneg (sub_nonneg.mpr hS.1) w0
    have e : F + (S - F) * w - lo = (F - lo) * (1 - w) + (S - lo) * w := by ring
    exact sub_nonneg.mp (e ▸ add_nonneg h1 h2)
  have upper : F + (S - F) * w ≤ hi := by
    have h1 := mul_nonneg (sub_nonneg.mpr hF.2) (sub_nonneg.mpr w1)
    have h2 := mul_nonneg (sub_nonneg.mpr hS.2) w0
    have e : hi - (F + (S - F) * w) = (hi - F) * (1 - w) + (hi - S) * w := by ring
    exact sub_nonneg.mp (e ▸ add_nonneg h1 h2)
  refine ⟨r, by rw [fin_sub, hD, fin_mul, hp, fin_add, hr], ?_, ?_, ?_⟩
  · clear D1 k1 k2 k3 p1 p1' r1 r1' hD hp hr D1' hlo hhi hSF hDM hDw hpF hDe
    linarith
  · clear D1 k1 k2 k3 p1 p1' r1 r1' hD hp hr D1' hlo hhi hSF hDM hDw hpF hDe
    linarith
  · intro h0
    have hF0 : 0 ≤ F := le_trans h0 hF.1
    have hS0 : 0 ≤ S := le_trans h0 hS.1
    have hDge : -F ≤ D := by
      have := rnd_mono (show -F ≤ S - F from by rw [neg_eq_zero_sub]; exact sub_le_sub_right hS0 F)
      rw [rnd_neg_rep hrep, hD] at this
      simpa using this
    have hpge : -F ≤ p := by
      have h1 : -F ≤ D * w := by
        rcases le_total 0 D with h0 | h0
        · exact le_trans (neg_nonpos.mpr hF0) (mul_nonneg h0 w0)
        · have := mul_le_mul_of_nonpos_left w1 h0
          rw [mul_one] at this
          exact le_trans hDge this
      have := rnd_mono h1
      rw [rnd_neg_rep hrep, hp] at this
      simpa using this
    exact rnd_nonneg (neg_le_iff_add_nonneg.mp hpge) hr

/-- One-dimensional lookup. -/
theorem interp1_range {t : Table1d} {lo hi M : ℚ} (ht : TableIn1 t lo hi) (hlo : |lo| ≤ M) (hhi : |hi| ≤ M) (hM : M ≤ 2 ^ 40)
    {v : Fl} (hv : v ≠ nan) :
    ∃ r, interp1 t v = .ok (fin r) ∧ lo - (M / 2 ^ 16 + 1 / 2 ^ 50) ≤ r ∧ r ≤ hi + (M / 2 ^ 16 + 1 / 2 ^ 50) ∧
      (0 ≤ lo → 0 ≤ r) := by
  obtain ⟨ha, hd⟩ := ht
  obtain ⟨hx, hg⟩ := ha.axisFl
  obtain ⟨c, i, w1, w, hc, hi', hf, e1, hw, -, -, w0, w1', -, htop⟩ := hx.cellW hg hv
  have hfits := ha.1.2
  obtain ⟨df, df2, df3, df4⟩ := hd ⟨i, by omega⟩ (by show i ≤ _; omega)
  obtain ⟨ds, -, ds3, ds4⟩ := hd ⟨i + 1, by omega⟩ (by show i + 1 ≤ _; omega)
  have df4 := df4 hi'
  generalize hF : (t.data ⟨i, by omega⟩).toQ = F at *
  generalize hS : (t.data ⟨i + 1, by omega⟩).toQ = S at *
  unfold interp1
  rw [hc, except_bind_ok, hf, except_bind_ok]
  have e : ((i : Int) + 1) = ((i + 1 : Nat) : Int) := by push_cast; rfl
  rw [e, rd_ok t.cols.values i (by omega), except_bind_ok, rd_ok t.cols.values (i + 1) (by omega), except_bind_ok,
    rd_ok t.data i (by omega), except_bind_ok, rd_ok t.data (i + 1) (by omega), except_bind_ok,
    hx.vals i (by omega) (by omega), hx.vals (i + 1) (by omega) (by omega), df, ds, hw]
  clear e1 hw hf hc
  rcases htop with htop | rfl
  · obtain ⟨r, hr, k⟩ := blend w0 w1' df4 (ds4 htop) hlo hhi hM df2
    exact ⟨r, congrArg Except.ok hr, k⟩
  · have hM0 : 0 ≤ M := le_trans (abs_nonneg lo) hlo
    obtain ⟨g1, g2⟩ := abs_le.mp ds3
    obtain ⟨g3, g4⟩ := abs_le.mp df3
    have hSF : |S - F| ≤ 2 ^ 42 := by
      clear ds3 df3 hlo hhi
      rw [abs_le]; constructor <;> linarith
    obtain ⟨D, hD, -⟩ := rnd_err (x := S - F) (le_trans hSF (by norm_num))
    have hp : 0 ≤ M / 2 ^ 16 + 1 / 2 ^ 50 := by positivity
    refine ⟨F, congrArg Except.ok (a₁ := (fin S - fin F) * fin 0 + fin F) ?_, by linarith [df4.1], by linarith [df4.2], fun h0 => by linarith [df4.1]⟩
    rw [fin_sub, hD, fin_mul, mul_zero, rnd_zero, fin_add, zero_add, df2]

/-- Two-dimensional lookup. -/
theorem interp2_range {t : Table2d} {lo hi M : ℚ} (ht : TableIn2 t lo hi) (hlo : |lo| ≤ M) (hhi : |hi| ≤ M) (hM : M ≤ 2 ^ 40)
    {v w : Fl} (hv : v ≠ nan) (hw : w ≠ nan) :
    ∃ r, interp2 t v w = .ok (fin r) ∧ lo - (M / 2 ^ 16 + 1 / 2 ^ 50) ≤ r ∧ r ≤ hi + (M / 2 ^ 16 + 1 / 2 ^ 50) ∧
      (0 ≤ lo → 0 ≤ r) := by
  obtain ⟨⟨ha, hb⟩, hd⟩ := ht
  obtain ⟨hx, hgx⟩ := ha.axisFl
  obtain ⟨hy, hgy⟩ := hb.axisFl
  obtain ⟨c, i, u1, u2, hc, hi', hf, e1, e2, a1, a2, a3, a4, a5, htop⟩ := hx.cellW hgx hv
  obtain ⟨d, j, v1, v2, hdc, hj', hg, e3, e4, b1, b2, b3, b4, b5, htop'⟩ := hy.cellW hgy hw
  have hfx := ha.1.2
  have hfy := hb.1.2
  unfold interp2
  rw [hc, except_bind_ok, hdc, except_bind_ok, hf, except_bind_ok, hg, except_bind_ok]
  have e : ((i : Int) + 1) = ((i + 1 : Nat) : Int) := by push_cast; rfl
  have e' : ((j : Int) + 1) = ((j + 1 : Nat) : Int) := by push_cast; rfl
  obtain ⟨z11, y11, x11⟩ := hd ⟨j, by omega⟩ ⟨i, by omega⟩ (by show j ≤ _; omega) (by show i ≤ _; omega)
  obtain ⟨z12, y12, x12⟩ := hd ⟨j, by omega⟩ ⟨i + 1, by omega⟩ (by show j ≤ _; omega) (by show i + 1 ≤ _; omega)
  obtain ⟨z21, y21, x21⟩ := hd ⟨j + 1, by omega⟩ ⟨i, by omega⟩ (by show j + 1 ≤ _; omega) (by show i ≤ _; omega)
  obtain ⟨z22, y22, x22⟩ := hd ⟨j + 1, by omega⟩ ⟨i + 1, by omega⟩ (by show j + 1 ≤ _; omega) (by show i + 1 ≤ _; omega)
  rw [e, e', rd_ok t.cols.values i (by omega), except_bind_ok, rd_ok t.cols.values (i + 1) (by omega), except_bind_ok,
    rd_ok t.rows.values j (by omega), except_bind_ok, rd_ok t.rows.values (j + 1) (by omega), except_bind_ok,
    rd_ok t.data j (by omega), except_bind_ok, rd_ok _ i (by omega), except_bind_ok, rd_ok _ (i + 1) (by omega),
    except_bind_ok, rd_ok t.data (j + 1) (by omega), except_bind_ok, rd_ok _ i (by omega), except_bind_ok,
    rd_ok _ (i + 1) (by omega), except_bind_ok,
    hx.vals i (by omega) (by omega), hx.vals (i + 1) (by omega) (by omega), hy.vals j (by omega) (by omega),
    hy.vals (j + 1) (by omega) (by omega), e1, e2, e3, e4, z11, z12, z21, z22]
  simp only at x11 x12 x21 x22
  generalize (t.data ⟨j, by omega⟩ ⟨i, by omega⟩).toQ = d11 at *
  generalize (t.data ⟨j, by omega⟩ ⟨i + 1, by omega⟩).toQ = d12 at *
  generalize (t.data ⟨j + 1, by omega⟩ ⟨i, by omega⟩).toQ = d21 at *
  generalize (t.data ⟨j + 1, by omega⟩ ⟨i + 1, by omega⟩).toQ = d22 at *
  obtain ⟨r1, h1, l1, m1, n1, -⟩ := mix (lo := lo) (hi := hi) (d2 := d12) a1 a2 a3 a4 a5 (x11 hj' hi')
    (htop.symm.imp_right fun h => x12 hj' h) hlo hhi (le_trans hM (by norm_num))
  -- the row after the last is any number, with weight 0
  obtain ⟨r2, h2, hr2⟩ : ∃ r2, (fin u1 * fin d21 + fin u2 * fin d22 : Fl) = fin r2 ∧
      (j + 1 < t.rows.num → lo - (M / 2 ^ 18 + 1 / 2 ^ 58) ≤ r2 ∧ r2 ≤ hi + (M / 2 ^ 18 + 1 / 2 ^ 58) ∧ (0 ≤ lo → 0 ≤ r2)) := by
    by_cases hjn : j + 1 < t.rows.num
    · obtain ⟨r2, h2, l2, m2, n2, -⟩ := mix (lo := lo) (hi := hi) (d2 := d22) a1 a2 a3 a4 a5 (x21 hjn hi')
        (htop.symm.imp_right fun h => x22 hjn h) hlo hhi (le_trans hM (by norm_num))
      exact ⟨r2, h2, fun _ => ⟨l2, m2, n2⟩⟩
    · obtain ⟨r2, h2, -⟩ := mix (lo := -2 ^ 40) (hi := 2 ^ 40) (M := 2 ^ 40) (d1 := d21) (d2 := d22) a1 a2 a3 a4 a5
        (abs_le.mp y21) (.inr (abs_le.mp y22)) (by norm_num) (by norm_num) (by norm_num)
      exact ⟨r2, h2, fun h => absurd h hjn⟩
  rw [h1, h2]
  obtain ⟨g1, g2⟩ := abs_le.mp hlo
  obtain ⟨g3, g4⟩ := abs_le.mp hhi
  have hM0 : 0 ≤ M := by have := abs_nonneg lo; linarith
  -- the second interpolation, on the slightly larger interval
  by_cases h0 : 0 ≤ lo
  · obtain ⟨r, h3, l3, m3, n3, -⟩ := mix (lo := max 0 (lo - (M / 2 ^ 18 + 1 / 2 ^ 58))) (hi := hi + (M / 2 ^ 18 + 1 / 2 ^ 58))
      (d1 := r1) (d2 := r2) (M := 2 * M + 1) b1 b2 b3 b4 b5 ⟨max_le (n1 h0) l1, m1⟩
      (htop'.symm.imp_right fun h => ⟨max_le ((hr2 h).2.2 h0) (hr2 h).1, (hr2 h).2.1⟩)
      (by rw [abs_of_nonneg (le_max_left _ _)]; apply max_le <;> (norm_num at *; linarith))
      (by rw [abs_le]; norm_num at *; constructor <;> linarith) (by norm_num at *; linarith)
    refine ⟨r, congrArg Except.ok h3, ?_, ?_, fun _ => n3 (le_max_left _ _)⟩
    · -- sharper error from the true size
      obtain ⟨r', h3', l3', m3', -, -⟩ := mix (lo := lo - (M / 2 ^ 18 + 1 / 2 ^ 58)) (hi := hi + (M / 2 ^ 18 + 1 / 2 ^ 58))
        (d1 := r1) (d2 := r2) (M := M + (M / 2 ^ 18 + 1 / 2 ^ 58)) b1 b2 b3 b4 b5 ⟨l1, m1⟩
        (htop'.symm.imp_right fun h => ⟨(hr2 h).1, (hr2 h).2.1⟩)
        (by rw [abs_le]; norm_num at *; constructor <;> linarith)
        (by rw [abs_le]; norm_num at *; constructor <;> linarith) (by norm_num at *; linarith)
      rw [h3] at h3'
      simp only [Fl.fin.injEq] at h3'
      subst h3'
      norm_num at *
      linarith
    · obtain ⟨r', h3', l3', m3', -, -⟩ := mix (lo := lo - (M / 2 ^ 18 + 1 / 2 ^ 58)) (hi := hi + (M / 2 ^ 18 + 1 / 2 ^ 58))
        (d1 := r1) (d2 := r2) (M := M + (M / 2 ^ 18 + 1 / 2 ^ 58)) b1 b2 b3 b4 b5 ⟨l1, m1⟩
        (htop'.symm.imp_right fun h => ⟨(hr2 h).1, (hr2 h).2.1⟩)
        (by rw [abs_le]; norm_num at *; constructor <;> linarith)
        (by rw [abs_le]; norm_num at *; constructor <;> linarith) (by norm_num at *; linarith)
      rw [h3] at h3'
      simp only [Fl.fin.injEq] at h3'
      subst h3'
      norm_num at *
      linarith
  · obtain ⟨r, h3, l3, m3, -, -⟩ := mix (lo := lo - (M / 2 ^ 18 + 1 / 2 ^ 58)) (hi := hi + (M / 2 ^ 18 + 1 / 2 ^ 58))
      (d1 := r1) (d2 := r2) (M := M + (M / 2 ^ 18 + 1 / 2 ^ 58)) b1 b2 b3 b4 b5 ⟨l1, m1⟩
      (htop'.symm.imp_right fun h => ⟨(hr2 h).1, (hr2 h).2.1⟩)
      (by rw [abs_le]; norm_num at *; constructor <;> linarith)
      (by rw [abs_le]; norm_num at *; constructor <;> linarith) (by norm_num at *; linarith)
    refine ⟨r, congrArg Except.ok h3, ?_, ?_, fun h => absurd h h0⟩
    · norm_num at *
      linarith
    · norm_num at *
      linarith

end

end Verif
