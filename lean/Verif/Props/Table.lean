/-
C04: cell search.  C05: one-dimensional lookup.  C06: two-dimensional lookup.
-/
import Verif.Proofs.Table
import Mathlib.Tactic.IntervalCases

namespace Verif
open Fl

/-! ## C04 -/

/-- The search terminates without touching memory outside the axis, for every axis size, and
returns the last cell whose breakpoint is not above the value. -/
theorem C04_cell_search (a : Axis) (value : Fl) (h0 : 0 < a.num) (hn : a.num ≤ maxAxis)
    (hsorted : ∀ i (h : i + 1 < a.num),
      le (a.values ⟨i, by omega⟩) (a.values ⟨i + 1, by omega⟩) = true)
    (hlo : le (a.values ⟨0, by omega⟩) value = true)
    (hhi : le value (a.values ⟨a.num - 1, by omega⟩) = true) :
    ∃ i, ∃ hi : i < a.num, findCell a value = .ok i ∧
      le (a.values ⟨i, by omega⟩) value = true ∧
      ∀ j (hj : j < a.num), i < j → lt value (a.values ⟨j, by omega⟩) = true := by
  have hs : AxisSorted a := by
    intro i j hij hj hi hj'
    induction j with
    | zero =>
      have : i = 0 := by omega
      subst this
      exact le_refl (ne_nan_of_le_left hlo)
    | succ j ih =>
      rcases Nat.lt_or_ge i (j + 1) with h | h
      · exact Fl.le_trans (ih (by omega) (by omega) (by omega)) (hsorted j hj)
      · have : i = j + 1 := by omega
        subst this
        exact le_refl (ne_nan_of_le_right (hsorted j hj))
  obtain ⟨i, hi, hf, hl, hu⟩ := findCell_spec hs h0 hn hlo hhi
  exact ⟨i, hi, hf, hl, fun j hj hij => lt_of_lt_of_le (hu (by omega)) (hs _ _ (by omega) hj _ _)⟩

/-- A four-entry axis 5, 10, 12, 15 used below; entries past `num` are zero. -/
def sampleAxis : Axis := { num := 4, values := fun i => fin (([5, 10, 12, 15] : List ℚ).getD i 0) }

example : 0 < sampleAxis.num ∧ sampleAxis.num ≤ maxAxis ∧
    (∀ i, (h : i + 1 < sampleAxis.num) → le (sampleAxis.values ⟨i, by
        have : sampleAxis.num = 4 := rfl
        show _ < 24
        omega⟩) (sampleAxis.values ⟨i + 1, by
        have : sampleAxis.num = 4 := rfl
        show _ < 24
        omega⟩) = true) ∧
    findCell sampleAxis (fin 12) = .ok 2 ∧ findCell sampleAxis (fin 15) = .ok 3 := by
  refine ⟨by decide, by decide, ?_, by decide +kernel, by decide +kernel⟩
  intro i h
  have h4 : i + 1 < 4 := h
  obtain rfl | rfl | rfl : i = 0 ∨ i = 1 ∨ i = 2 := by omega
  all_goals norm_num [sampleAxis]

/-! ## C05 -/

/-- The full claim, kept in view: for every strictly increasing table of up to 24 points and every
lookup value, the lookup is the polyline value.  It is false, see `C05_full_false`. -/
def C05_full : Prop :=
  ∀ (t : Table1d) (n : Nat) (x y : Nat → ℚ) (v : ℚ), 2 ≤ n → n ≤ maxAxis →
    AxisIs t.cols n x → (∀ i (hi : i < maxAxis), i < n → t.data ⟨i, hi⟩ = fin (y i)) →
    StrictlyIncreasing n x →
    ∃ r, @interp1 exactFmt t (fin v) = .ok (fin r) ∧ OnPolyline n x y v r

/-- Below the last breakpoint the lookup is the polyline value, whatever the unused array entries
hold.  (Missing for C05: values at or above the last breakpoint, see the next theorem.) -/
theorem C05_below_top_partial (t : Table1d) (n : Nat) (x y : Nat → ℚ) (v : ℚ)
    (h2 : 2 ≤ n) (h24 : n ≤ maxAxis)
    (hx : AxisIs t.cols n x) (hy : ∀ i (hi : i < maxAxis), i < n → t.data ⟨i, hi⟩ = fin (y i))
    (hs : StrictlyIncreasing n x) (hv : v < x (n - 1)) :
    ∃ r, @interp1 exactFmt t (fin v) = .ok (fin r) ∧ OnPolyline n x y v r := by
  obtain ⟨hc0, hc1⟩ := clampTo_mem hs (by omega) v
  obtain ⟨i, hi, hf, hl, hu⟩ := findCell_eq hx hs (by omega) h24 hc0 hc1
  have hctop : clampTo n x v < x (n - 1) := by
    unfold clampTo
    exact max_lt (strict_lt hs (by omega) (by omega)) (by rw [min_eq_left hv.le]; exact hv)
  have hi1 : i + 1 < n := by
    by_contra hge
    have : i = n - 1 := by omega
    subst this
    linarith
  have hu' := hu hi1
  have hd : x i < x (i + 1) := hs i hi1
  have hd0 : x (i + 1) - x i ≠ 0 := by intro h; linarith
  set c := clampTo n x v with hc
  refine ⟨(y (i + 1) - y i) * ((c - x i) / (x (i + 1) - x i)) + y i, ?_, ?_⟩
  · let _ := exactFmt
    unfold interp1
    rw [clampAxis_eq hx hs (by omega) h24, except_bind_ok, hf, except_bind_ok,
      rd_ok _ i (by omega), except_bind_ok, hx.2 i _ hi,
      show ((i : Int) + 1) = ((i + 1 : ℕ) : Int) by push_cast; rfl,
      rd_ok _ (i + 1) (by omega), except_bind_ok, hx.2 (i + 1) _ hi1,
      rd_ok _ i (by omega), except_bind_ok, hy i _ hi,
      rd_ok _ (i + 1) (by omega), except_bind_ok, hy (i + 1) _ hi1]
    simp only [fin_sub, exact_rnd, fin_div _ _ hd0, fin_mul, fin_add, except_pure]
    rfl
  · refine ⟨?_, ?_, ?_⟩
    · intro hle
      have hcx : c = x 0 := by
        rw [hc]; unfold clampTo; rw [max_eq_left]; exact (min_le_left _ _).trans hle
      have hi0 : i = 0 := by
        by_contra hne
        have := strict_lt hs (show 0 < i by omega) hi
        linarith
      subst hi0
      rw [hcx]; simp
    · intro hle; linarith
    · intro j hj hj1 hj2
      have hcv : c = v := by
        have h0 : x 0 ≤ x j := strict_le hs (by omega) (by omega)
        rw [hc]; unfold clampTo
        rw [min_eq_left hv.le, max_eq_right (by linarith)]
      rw [hcv] at hl hu' ⊢
      rcases lt_or_eq_of_le hj2 with hlt | heq
      · have hij : i = j := by
          rcases Nat.lt_trichotomy i j with h | h | h
          · have := strict_le hs (show i + 1 ≤ j by omega) (by omega)
            linarith
          · exact h
          · have := strict_le hs (show j + 1 ≤ i by omega) (by omega)
            linarith
        subst hij
        field_simp
        ring
      · -- at the upper end of segment j, which is the lower end of segment i = j+1
        have hij : i = j + 1 := by
          rcases Nat.lt_trichotomy i (j + 1) with h | h | h
          · have := strict_le hs (show i + 1 ≤ j + 1 by omega) hj
            linarith
          · exact h
          · have := strict_lt hs (show j + 1 < i by omega) hi
            linarith
        subst hij
        rw [heq]; simp

/-- At and above the last breakpoint the lookup is the last data value, provided the array is not
full and the unused entry after the last breakpoint differs from it (both finite). -/
theorem C05_at_top_partial (t : Table1d) (n : Nat) (x y : Nat → ℚ) (v : ℚ)
    (h1 : 1 ≤ n) (h24 : n < maxAxis)
    (hx : AxisIs t.cols n x) (hy : ∀ i (hi : i < maxAxis), i < n → t.data ⟨i, hi⟩ = fin (y i))
    (hs : StrictlyIncreasing n x) (hv : x (n - 1) ≤ v)
    (jx jy : ℚ) (hjx : t.cols.values ⟨n, h24⟩ = fin jx) (hjy : t.data ⟨n, h24⟩ = fin jy)
    (hne : jx ≠ x (n - 1)) :
    ∃ r, @interp1 exactFmt t (fin v) = .ok (fin r) ∧ OnPolyline n x y v r := by
  obtain ⟨hc0, hc1⟩ := clampTo_mem hs (by omega) v
  obtain ⟨i, hi, hf, hl, hu⟩ := findCell_eq hx hs (by omega) (by omega) hc0 hc1
  have hctop : clampTo n x v = x (n - 1) := by
    unfold clampTo
    rw [min_eq_right hv, max_eq_right (strict_le hs (by omega) (by omega))]
  have hin : i = n - 1 := by
    by_contra hne'
    have := hu (by omega)
    have := strict_le hs (show i + 1 ≤ n - 1 by omega) (by omega)
    linarith
  have hd0 : jx - x (n - 1) ≠ 0 := sub_ne_zero.mpr hne
  refine ⟨y (n - 1), ?_, ?_⟩
  · let _ := exactFmt
    have e : ((n - 1 : ℕ) : Int) + 1 = ((n : ℕ) : Int) := by omega
    unfold interp1
    rw [clampAxis_eq hx hs (by omega) (by omega), except_bind_ok, hf, except_bind_ok, hin,
      rd_ok _ (n - 1) (by omega), except_bind_ok, hx.2 (n - 1) _ (by omega), e,
      rd_ok _ n h24, except_bind_ok, hjx,
      rd_ok _ (n - 1) (by omega), except_bind_ok, hy (n - 1) _ (by omega),
      rd_ok _ n h24, except_bind_ok, hjy, hctop]
    simp only [fin_sub, exact_rnd, fin_div _ _ hd0, fin_mul, fin_add, except_pure]
    simp
  · refine ⟨?_, fun _ => rfl, ?_⟩
    · intro hle
      rcases Nat.lt_or_ge 0 (n - 1) with h | h
      · have := strict_lt hs h (by omega)
        linarith
      · have : n - 1 = 0 := by omega
        rw [this]
    · intro j hj hj1 hj2
      have hjn : j + 1 = n - 1 := by
        by_contra hne'
        have := strict_lt hs (show j + 1 < n - 1 by omega) (by omega)
        linarith
      have hvx : v = x (n - 1) := by rw [hjn] at hj2; linarith
      rw [hvx, hjn]

/-- The lookup lies between the smallest and the largest data value it was given. -/
theorem C05_within_data (n : Nat) (x y : Nat → ℚ) (v r lo hi : ℚ) (h1 : 1 ≤ n)
    (hs : StrictlyIncreasing n x) (hr : OnPolyline n x y v r)
    (hy : ∀ i, i < n → lo ≤ y i ∧ y i ≤ hi) : lo ≤ r ∧ r ≤ hi := by
  obtain ⟨hbot, htop, hmid⟩ := hr
  by_cases hb : v ≤ x 0
  · rw [hbot hb]; exact hy 0 (by omega)
  by_cases ht : x (n - 1) ≤ v
  · rw [htop ht]; exact hy (n - 1) (by omega)
  -- find the segment
  have hseg : ∃ i, i + 1 < n ∧ x i ≤ v ∧ v ≤ x (i + 1) := by
    by_contra hno
    push Not at hno
    have : ∀ i, i < n → x i < v := by
      intro i hi
      induction i with
      | zero => linarith
      | succ i ih => exact hno i hi (ih (by omega)).le
    exact absurd (this (n - 1) (by omega)) (by linarith)
  obtain ⟨i, hi1, h2, h3⟩ := hseg
  have e := hmid i hi1 h2 h3
  have hd : 0 < x (i + 1) - x i := by linarith [hs i hi1]
  obtain ⟨a1, a2⟩ := hy i (by omega)
  obtain ⟨b1, b2⟩ := hy (i + 1) hi1
  have e' : r * (x (i + 1) - x i) = y i * (x (i + 1) - v) + y (i + 1) * (v - x i) := by linarith
  have u0 : 0 ≤ x (i + 1) - v := by linarith
  have u1 : 0 ≤ v - x i := by linarith
  constructor
  · have : lo * (x (i + 1) - x i) ≤ r * (x (i + 1) - x i) := by
      rw [e']
      have := mul_le_mul_of_nonneg_right a1 u0
      have := mul_le_mul_of_nonneg_right b1 u1
      linarith
    exact le_of_mul_le_mul_right this hd
  · have : r * (x (i + 1) - x i) ≤ hi * (x (i + 1) - x i) := by
      rw [e']
      have := mul_le_mul_of_nonneg_right a2 u0
      have := mul_le_mul_of_nonneg_right b2 u1
      linarith
    exact le_of_mul_le_mul_right this hd

/-- Violation: at (or above) the last breakpoint of a full 24-entry table the lookup reads past the
end of the axis. -/
theorem C05_full_table_reads_oob (t : Table1d) (x : Nat → ℚ) (v : ℚ) [FloatFmt]
    (hx : AxisIs t.cols maxAxis x) (hs : StrictlyIncreasing maxAxis x) (hv : x (maxAxis - 1) ≤ v) :
    interp1 t (fin v) = .error .oob := by
  obtain ⟨hc0, hc1⟩ := clampTo_mem hs (by decide) v
  obtain ⟨i, hi, hf, hl, hu⟩ := findCell_eq hx hs (by decide) (Nat.le_refl _) hc0 hc1
  have hctop : clampTo maxAxis x v = x (maxAxis - 1) := by
    unfold clampTo
    rw [min_eq_right hv, max_eq_right (strict_le hs (by decide) (by decide))]
  have hin : i = maxAxis - 1 := by
    by_contra hne'
    have := hu (by omega)
    have := strict_le hs (show i + 1 ≤ maxAxis - 1 by omega) (by decide)
    linarith
  unfold interp1
  rw [clampAxis_eq hx hs (by decide) (Nat.le_refl _), except_bind_ok, hf, except_bind_ok, hin,
    rd_ok _ (maxAxis - 1) (by decide), except_bind_ok,
    rd_oob _ _ (by right; decide), except_bind_error]

/-- A full table 0..23 with data 0..23. -/
def fullTable : Table1d :=
  { cols := { num := 24, values := fun i => fin ((i : ℕ) : ℚ) }, data := fun i => fin ((i : ℕ) : ℚ) }

theorem C05_full_false : ¬ C05_full := by
  intro h
  have hs : StrictlyIncreasing maxAxis (fun i => (i : ℚ)) := by
    intro i _; push_cast; linarith
  have hx : AxisIs fullTable.cols maxAxis (fun i => (i : ℚ)) := ⟨rfl, fun i hi _ => rfl⟩
  obtain ⟨r, hr, _⟩ := h fullTable 24 (fun i => (i : ℚ)) (fun i => (i : ℚ)) 23 (by decide)
    (Nat.le_refl _) hx (fun i hi _ => rfl) hs
  rw [@C05_full_table_reads_oob fullTable _ 23 exactFmt hx hs (by norm_num [maxAxis])] at hr
  cases hr

/-- Violation: when the unused entry after the last breakpoint repeats it (as after a console write
that shortens an axis, or a last breakpoint of 0), the lookup at the top is NaN. -/
theorem C05_top_nan :
    @interp1 exactFmt
      { cols := { num := 2, values := fun i => fin (([1, 2, 2] : List ℚ).getD i 0) },
        data := fun _ => fin 7 } (fin 5) = .ok nan := by
  decide +kernel

/-- At every breakpoint but the last, the stored value is returned unchanged in single precision
too (any rounding), when neighbouring values do not overflow on subtraction. -/
theorem C05_breakpoint [FloatFmt] (t : Table1d) (n : Nat) (x y : Nat → ℚ) (i : Nat)
    (hi : i + 1 < n) (h24 : n ≤ maxAxis)
    (hx : AxisIs t.cols n x) (hy : ∀ i (hi : i < maxAxis), i < n → t.data ⟨i, hi⟩ = fin (y i))
    (hs : StrictlyIncreasing n x)
    (hrep : FloatFmt.rnd (y i) = fin (y i))
    (hdx : ∃ d, FloatFmt.rnd (x (i + 1) - x i) = fin d ∧ d ≠ 0)
    (hdy : ∃ d, FloatFmt.rnd (y (i + 1) - y i) = fin d) :
    interp1 t (fin (x i)) = .ok (fin (y i)) := by
  have hc : clampTo n x (x i) = x i := by
    unfold clampTo
    rw [min_eq_left (strict_le hs (by omega) (by omega)), max_eq_right (strict_le hs (by omega) (by omega))]
  obtain ⟨k, hk, hf, hl, hu⟩ := findCell_eq hx hs (by omega) h24 (v := x i)
    (strict_le hs (by omega) (by omega)) (strict_le hs (by omega) (by omega))
  have hki : k = i := by
    rcases Nat.lt_trichotomy k i with h | h | h
    · have := hu (by omega)
      have := strict_le hs (show k + 1 ≤ i by omega) (by omega)
      linarith
    · exact h
    · have := strict_lt hs h hk
      linarith
  subst hki
  obtain ⟨d, hd, hd0⟩ := hdx
  obtain ⟨e, he⟩ := hdy
  unfold interp1
  rw [clampAxis_eq hx hs (by omega) h24, except_bind_ok, hc, hf, except_bind_ok,
    rd_ok _ k (by omega), except_bind_ok, hx.2 k _ hk,
    show ((k : Int) + 1) = ((k + 1 : ℕ) : Int) by push_cast; rfl,
    rd_ok _ (k + 1) (by omega), except_bind_ok, hx.2 (k + 1) _ hi,
    rd_ok _ k (by omega), except_bind_ok, hy k _ hk,
    rd_ok _ (k + 1) (by omega), except_bind_ok, hy (k + 1) _ hi]
  simp only [fin_sub, hd, he, sub_self, FloatFmt.rnd_zero, fin_div _ _ hd0, zero_div, fin_mul, mul_zero,
    fin_add, zero_add, hrep, except_pure]

/-- The table used in the examples: (5,50) (10,110) (12,120) (15,150). -/
def sampleTable : Table1d :=
  { cols := sampleAxis, data := fun i => fin (([50, 110, 120, 150] : List ℚ).getD i 0) }

example : AxisIs sampleTable.cols 4 (fun i => (([5, 10, 12, 15] : List ℚ).getD i 0)) ∧
    StrictlyIncreasing 4 (fun i => (([5, 10, 12, 15] : List ℚ).getD i 0)) ∧
    @interp1 exactFmt sampleTable (fin (15 / 2)) = .ok (fin 80) ∧
    @interp1 binary32 sampleTable (fin 15) = .ok (fin 150) ∧
    @interp1 binary32 sampleTable (fin 3) = .ok (fin 50) ∧
    @interp1 binary32 sampleTable (fin 12) = .ok (fin 120) := by
  refine ⟨⟨rfl, fun i hi h => rfl⟩, ?_, by decide +kernel, by decide +kernel, by decide +kernel,
    by decide +kernel⟩
  intro i hi
  have : i < 3 := by omega
  interval_cases i <;> norm_num

/-! ## C06 -/

/-- The full claim for two-dimensional tables, false (see `C06_full_false`). -/
def C06_full : Prop :=
  ∀ (t : Table2d) (n m : Nat) (x y : Nat → ℚ) (z : Nat → Nat → ℚ) (v w : ℚ),
    2 ≤ n → n ≤ maxAxis → 2 ≤ m → m ≤ maxAxis →
    AxisIs t.cols n x → AxisIs t.rows m y →
    (∀ j i (hj : j < maxAxis) (hi : i < maxAxis), j < m → i < n → t.data ⟨j, hj⟩ ⟨i, hi⟩ = fin (z j i)) →
    StrictlyIncreasing n x → StrictlyIncreasing m y →
    ∃ r, @interp2 exactFmt t (fin v) (fin w) = .ok (fin r) ∧ OnSurface n m x y z v w r

/-- The lookup value is below the last of at least two breakpoints, or the array is not full and
the unused entry after the last breakpoint is a finite number different from it. -/
def TopSafe (a : Axis) (n : Nat) (x : Nat → ℚ) (v : ℚ) : Prop :=
  (2 ≤ n ∧ v < x (n - 1)) ∨ ∃ (h : n < maxAxis) (j : ℚ), a.values ⟨n, h⟩ = fin j ∧ j ≠ x (n - 1)

theorem upper_entry {a : Axis} {n : Nat} {x : Nat → ℚ} (hx : AxisIs a n x)
    (hs : StrictlyIncreasing n x) (h24 : n ≤ maxAxis) {v : ℚ} (ht : TopSafe a n x v) {i : Nat}
    (hi : i < n) (hl : x i ≤ clampTo n x v) :
    ∃ x2, ∃ h : i + 1 < maxAxis, a.values ⟨i + 1, h⟩ = fin x2 ∧ x2 ≠ x i ∧ (i + 1 < n → x2 = x (i + 1)) := by
  by_cases hin : i + 1 < n
  · exact ⟨x (i + 1), by omega, hx.2 _ _ hin, (hs i hin).ne', fun _ => rfl⟩
  · have hi' : i = n - 1 := by omega
    rcases ht with ⟨h2, hv⟩ | ⟨h, j, hj, hne⟩
    · exfalso
      have : clampTo n x v < x (n - 1) := by
        unfold clampTo
        exact max_lt (strict_lt hs (by omega) (by omega)) (by rw [min_eq_left hv.le]; exact hv)
      rw [hi'] at hl
      linarith
    · have e : i + 1 = n := by omega
      refine ⟨j, by omega, ?_, by rw [hi']; exact hne, fun h => by omega⟩
      simpa [e] using hj

/-- The lookup is the bilinear value (clamped at all edges) for every point, for tables whose top
edges are safe in the sense of `TopSafe` and whose stored data are finite.  Missing for C06: the
top edge of a full axis, and top edges followed by an equal unused entry. -/
theorem C06_lookup_partial (t : Table2d) (n m : Nat) (x y : Nat → ℚ) (z : Nat → Nat → ℚ) (v w : ℚ)
    (hn1 : 1 ≤ n) (hn : n ≤ maxAxis) (hm1 : 1 ≤ m) (hm : m ≤ maxAxis)
    (hx : AxisIs t.cols n x) (hy : AxisIs t.rows m y)
    (hz : ∀ j i (hj : j < maxAxis) (hi : i < maxAxis), j < m → i < n → t.data ⟨j, hj⟩ ⟨i, hi⟩ = fin (z j i))
    (hfin : ∀ j i, ∃ q, t.data j i = fin q)
    (hsx : StrictlyIncreasing n x) (hsy : StrictlyIncreasing m y)
    (hv : TopSafe t.cols n x v) (hw : TopSafe t.rows m y w) :
    ∃ r, @interp2 exactFmt t (fin v) (fin w) = .ok (fin r) ∧ OnSurface n m x y z v w r := by
  obtain ⟨hc0, hc1⟩ := clampTo_mem hsx (by omega) v
  obtain ⟨hd0, hd1⟩ := clampTo_mem hsy (by omega) w
  obtain ⟨i, hi, hf, hl, hu⟩ := findCell_eq hx hsx (by omega) hn hc0 hc1
  obtain ⟨j, hj, hg, hl', hu'⟩ := findCell_eq hy hsy (by omega) hm hd0 hd1
  obtain ⟨x2, hi24, hx2, hx2ne, hx2e⟩ := upper_entry hx hsx hn hv hi hl
  obtain ⟨y2, hj24, hy2, hy2ne, hy2e⟩ := upper_entry hy hsy hm hw hj hl'
  obtain ⟨d12, hd12⟩ := hfin ⟨j, by omega⟩ ⟨i + 1, hi24⟩
  obtain ⟨d21, hd21⟩ := hfin ⟨j + 1, hj24⟩ ⟨i, by omega⟩
  obtain ⟨d22, hd22⟩ := hfin ⟨j + 1, hj24⟩ ⟨i + 1, hi24⟩
  have e12 : i + 1 < n → d12 = z j (i + 1) := by
    intro h
    have := hz j (i + 1) (by omega) hi24 hj h
    rw [hd12] at this
    injection this
  have e21 : j + 1 < m → d21 = z (j + 1) i := by
    intro h
    have := hz (j + 1) i hj24 (by omega) h hi
    rw [hd21] at this
    injection this
  have e22 : j + 1 < m → i + 1 < n → d22 = z (j + 1) (i + 1) := by
    intro h h'
    have := hz (j + 1) (i + 1) hj24 hi24 h h'
    rw [hd22] at this
    injection this
  have hX : x2 - x i ≠ 0 := sub_ne_zero.mpr hx2ne
  have hY : y2 - y j ≠ 0 := sub_ne_zero.mpr hy2ne
  obtain ⟨c, hc⟩ : ∃ c, c = clampTo n x v := ⟨_, rfl⟩
  obtain ⟨d, hd⟩ : ∃ d, d = clampTo m y w := ⟨_, rfl⟩
  rw [← hc] at hc0 hc1 hf hl hu
  rw [← hd] at hd0 hd1 hg hl' hu'
  refine ⟨(y2 - d) / (y2 - y j) * ((x2 - c) / (x2 - x i) * z j i + (c - x i) / (x2 - x i) * d12)
    + (d - y j) / (y2 - y j) * ((x2 - c) / (x2 - x i) * d21 + (c - x i) / (x2 - x i) * d22), ?_, ?_⟩
  · let _ := exactFmt
    have ei : ((i : Int) + 1) = ((i + 1 : ℕ) : Int) := by push_cast; rfl
    have ej : ((j : Int) + 1) = ((j + 1 : ℕ) : Int) := by push_cast; rfl
    unfold interp2
    rw [clampAxis_eq hx hsx (by omega) hn, except_bind_ok, clampAxis_eq hy hsy (by omega) hm,
      except_bind_ok, ← hc, ← hd, hf, except_bind_ok, hg, except_bind_ok, ei, ej,
      rd_ok _ i (by omega), except_bind_ok, hx.2 i _ hi,
      rd_ok _ (i + 1) hi24, except_bind_ok, hx2,
      rd_ok _ j (by omega), except_bind_ok, hy.2 j _ hj,
      rd_ok _ (j + 1) hj24, except_bind_ok, hy2,
      rd_ok _ j (by omega), except_bind_ok,
      rd_ok _ i (by omega), except_bind_ok, rd_ok _ (i + 1) hi24, except_bind_ok,
      rd_ok _ (j + 1) hj24, except_bind_ok,
      rd_ok _ i (by omega), except_bind_ok, rd_ok _ (i + 1) hi24, except_bind_ok,
      hz j i _ _ hj hi, hd12, hd21, hd22]
    simp only [fin_sub, exact_rnd, fin_div _ _ hX, fin_div _ _ hY, fin_mul, fin_add, except_pure]
  · intro i' j' hi' hj' ha hb ha' hb'
    rw [← hc] at ha hb ⊢
    rw [← hd] at ha' hb' ⊢
    -- cell (i', j') is the cell found, or the one before it on an axis, on their common edge
    have hI : i' = i ∨ (i = i' + 1 ∧ c = x i) := by
      rcases Nat.lt_trichotomy i i' with h' | h' | h'
      · have := hu (by omega)
        have := strict_le hsx (show i + 1 ≤ i' by omega) (by omega); linarith
      · exact Or.inl h'.symm
      · right
        have h1 := strict_le hsx (show i' + 1 ≤ i by omega) hi
        have hci : c = x i := le_antisymm (by linarith) hl
        refine ⟨?_, hci⟩
        by_contra hne
        have := strict_lt hsx (show i' + 1 < i by omega) hi
        linarith
    have hJ : j' = j ∨ (j = j' + 1 ∧ d = y j) := by
      rcases Nat.lt_trichotomy j j' with h' | h' | h'
      · have := hu' (by omega)
        have := strict_le hsy (show j + 1 ≤ j' by omega) (by omega); linarith
      · exact Or.inl h'.symm
      · right
        have h1 := strict_le hsy (show j' + 1 ≤ j by omega) hj
        have hdj : d = y j := le_antisymm (by linarith) hl'
        refine ⟨?_, hdj⟩
        by_contra hne
        have := strict_lt hsy (show j' + 1 < j by omega) hj
        linarith
    rcases hI with rfl | ⟨rfl, hcx⟩ <;> rcases hJ with rfl | ⟨rfl, hdy⟩
    · rw [hx2e hi'] at hX ⊢
      rw [hy2e hj'] at hY ⊢
      rw [e12 hi', e21 hj', e22 hj' hi']
      field_simp; ring
    · rw [hx2e hi'] at hX ⊢
      rw [e12 hi', hdy, sub_self, zero_div, zero_mul, div_self hY]
      field_simp; ring
    · rw [hy2e hj'] at hY ⊢
      rw [e21 hj', hcx, sub_self, zero_div, zero_mul, zero_mul, div_self hX]
      field_simp; ring
    · rw [hcx, hdy, sub_self, sub_self, zero_div, zero_div, zero_mul, zero_mul, zero_mul,
        div_self hX, div_self hY]
      ring

/-- The bilinear value lies between the smallest and largest stored value. -/
theorem C06_within_data (n m : Nat) (x y : Nat → ℚ) (z : Nat → Nat → ℚ) (v w r lo hi : ℚ)
    (hn : 2 ≤ n) (hm : 2 ≤ m)
    (hsx : StrictlyIncreasing n x) (hsy : StrictlyIncreasing m y)
    (hr : OnSurface n m x y z v w r)
    (hz : ∀ j i, j < m → i < n → lo ≤ z j i ∧ z j i ≤ hi) : lo ≤ r ∧ r ≤ hi := by
  have seg : ∀ (n : Nat) (x : Nat → ℚ), 2 ≤ n → StrictlyIncreasing n x → ∀ c, x 0 ≤ c → c ≤ x (n - 1) →
      ∃ i, i + 1 < n ∧ x i ≤ c ∧ c ≤ x (i + 1) := by
    intro n x hn hs c h0 h1
    by_contra hno
    push Not at hno
    have : ∀ i, i < n → i ≠ 0 → x i < c := by
      intro i hi hi0
      induction i with
      | zero => omega
      | succ i ih =>
        rcases Nat.eq_zero_or_pos i with h | h
        · subst h; exact hno 0 hi h0
        · exact hno i hi (ih (by omega) (by omega)).le
    exact absurd (this (n - 1) (by omega) (by omega)) (by linarith)
  obtain ⟨i, hi1, a1, a2⟩ := seg n x hn hsx _ (clampTo_mem hsx (by omega) v).1 (clampTo_mem hsx (by omega) v).2
  obtain ⟨j, hj1, b1, b2⟩ := seg m y hm hsy _ (clampTo_mem hsy (by omega) w).1 (clampTo_mem hsy (by omega) w).2
  have e := hr i j hi1 hj1 a1 a2 b1 b2
  set c := clampTo n x v
  set d := clampTo m y w
  have hX : 0 < x (i + 1) - x i := by linarith [hsx i hi1]
  have hY : 0 < y (j + 1) - y j := by linarith [hsy j hj1]
  have p1 : 0 ≤ (x (i + 1) - c) * (y (j + 1) - d) := mul_nonneg (by linarith) (by linarith)
  have p2 : 0 ≤ (c - x i) * (y (j + 1) - d) := mul_nonneg (by linarith) (by linarith)
  have p3 : 0 ≤ (x (i + 1) - c) * (d - y j) := mul_nonneg (by linarith) (by linarith)
  have p4 : 0 ≤ (c - x i) * (d - y j) := mul_nonneg (by linarith) (by linarith)
  obtain ⟨l1, u1⟩ := hz j i (by omega) (by omega)
  obtain ⟨l2, u2⟩ := hz j (i + 1) (by omega) hi1
  obtain ⟨l3, u3⟩ := hz (j + 1) i hj1 (by omega)
  obtain ⟨l4, u4⟩ := hz (j + 1) (i + 1) hj1 hi1
  have hXY : 0 < (x (i + 1) - x i) * (y (j + 1) - y j) := by positivity
  constructor
  · apply le_of_mul_le_mul_right _ hXY
    rw [e]
    have := mul_le_mul_of_nonneg_left l1 p1
    have := mul_le_mul_of_nonneg_left l2 p2
    have := mul_le_mul_of_nonneg_left l3 p3
    have := mul_le_mul_of_nonneg_left l4 p4
    linarith
  · apply le_of_mul_le_mul_right _ hXY
    rw [e]
    have := mul_le_mul_of_nonneg_left u1 p1
    have := mul_le_mul_of_nonneg_left u2 p2
    have := mul_le_mul_of_nonneg_left u3 p3
    have := mul_le_mul_of_nonneg_left u4 p4
    linarith

/-- A full 24x24 table with breakpoints 0..23 on both axes. -/
def fullTable2 : Table2d :=
  { rows := { num := 24, values := fun i => fin ((i : ℕ) : ℚ) },
    cols := { num := 24, values := fun i => fin ((i : ℕ) : ℚ) },
    data := fun _ _ => fin 1 }

/-- Violation: the top edge of a full axis reads out of bounds. -/
theorem C06_full_false : ¬ C06_full := by
  intro h
  have hs : StrictlyIncreasing maxAxis (fun i => (i : ℚ)) := by
    intro i _; push_cast; linarith
  obtain ⟨r, hr, _⟩ := h fullTable2 24 24 (fun i => (i : ℚ)) (fun i => (i : ℚ)) (fun _ _ => 1) 23 0
    (by decide) (Nat.le_refl _) (by decide) (Nat.le_refl _) ⟨rfl, fun i hi _ => rfl⟩
    ⟨rfl, fun i hi _ => rfl⟩ (fun _ _ _ _ _ _ => rfl) hs hs
  have : @interp2 exactFmt fullTable2 (fin 23) (fin 0) = .error .oob := by decide +kernel
  rw [this] at hr
  cases hr

/-- The 4x4 table of the project's unit tests (src/table.c): columns 5,10,12,15, rows -50,-40,-30,-20. -/
def sampleTable2 : Table2d :=
  { cols := sampleAxis,
    rows := { num := 4, values := fun i => fin (([-50, -40, -30, -20] : List ℚ).getD i 0) },
    data := fun j i => fin ((([[50, 110, 120, 150], [60, 120, 130, 160], [70, 130, 140, 170],
      [80, 140, 150, 180]] : List (List ℚ)).getD j []).getD i 0) }

example : @interp2 exactFmt sampleTable2 (fin (15 / 2)) (fin (-45)) = .ok (fin 85) ∧
    @interp2 binary32 sampleTable2 (fin 3) (fin (-60)) = .ok (fin 50) ∧
    @interp2 binary32 sampleTable2 (fin 15) (fin (-20)) = .ok (fin 180) := by decide +kernel

end Verif
