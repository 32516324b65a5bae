import Verif.Model.Table
import Verif.Spec.Interp
import Verif.Proofs.Fl

namespace Verif
namespace Fl

theorem lt_of_lt_of_le {a b c : Fl} (h1 : lt a b = true) (h2 : le b c = true) : lt a c = true := by
  rcases a with _ | a | a <;> rcases b with _ | b | b <;> rcases c with _ | c | c <;>
    (try cases a) <;> (try cases b) <;> (try cases c) <;> simp_all [le, lt]
  linarith

theorem ne_nan_of_le_left {a b : Fl} (h : le a b = true) : a ≠ nan := by
  rintro rfl; simp at h

theorem ne_nan_of_le_right {a b : Fl} (h : le a b = true) : b ≠ nan := by
  rintro rfl; simp at h

end Fl
open Fl

/-- the first `num` breakpoints are non-decreasing numbers -/
def AxisSorted (a : Axis) : Prop :=
  ∀ i j (_ : i ≤ j) (_ : j < a.num) (hi : i < maxAxis) (hj : j < maxAxis),
    le (a.values ⟨i, hi⟩) (a.values ⟨j, hj⟩) = true

theorem findLoop_spec {a : Axis} {value : Fl} (hs : AxisSorted a) (hn : a.num ≤ maxAxis)
    {fuel x1 len : Nat} (hfuel : len ≤ fuel) (hlen : 1 ≤ len) (hx : x1 + len ≤ a.num)
    (hlo : le (a.values ⟨x1, by omega⟩) value = true)
    (hhi : ∀ h : x1 + len < a.num, lt value (a.values ⟨x1 + len, by omega⟩) = true) :
    ∃ i, ∃ hi : i < a.num, findLoop a value fuel x1 len = .ok i ∧
      le (a.values ⟨i, by omega⟩) value = true ∧
      ∀ h : i + 1 < a.num, lt value (a.values ⟨i + 1, by omega⟩) = true := by
  induction fuel generalizing x1 len with
  | zero => omega
  | succ fuel ih =>
    unfold findLoop
    split
    · rename_i hl
      rw [rd_ok a.values (x1 + len / 2) (by omega)]
      simp only [except_bind_ok]
      by_cases hm : le (a.values ⟨x1 + len / 2, by omega⟩) value = true
      · rw [if_pos hm]
        have e : x1 + len / 2 + (len + 1) / 2 = x1 + len := by omega
        refine ih (by omega) (by omega) (by omega) hm ?_
        intro h
        have := hhi (by omega)
        simpa [e] using this
      · rw [if_neg hm]
        refine ih (by omega) (by omega) (by omega) hlo ?_
        intro h
        have h1 : lt value (a.values ⟨x1 + len / 2, by omega⟩) = true := by
          apply lt_of_not_le
          · exact ne_nan_of_le_left (hs (x1 + len / 2) (x1 + len / 2) (by omega) (by omega) (by omega) (by omega))
          · exact ne_nan_of_le_right hlo
          · simpa using hm
        exact lt_of_lt_of_le h1 (hs _ _ (by omega) h (by omega) (by omega))
    · rename_i hl
      have : len = 1 := by omega
      subst this
      exact ⟨x1, by omega, rfl, hlo, hhi⟩

theorem findCell_spec {a : Axis} {value : Fl} (hs : AxisSorted a) (h0 : 0 < a.num)
    (hn : a.num ≤ maxAxis)
    (hlo : le (a.values ⟨0, by omega⟩) value = true)
    (hhi : le value (a.values ⟨a.num - 1, by omega⟩) = true) :
    ∃ i, ∃ hi : i < a.num, findCell a value = .ok i ∧
      le (a.values ⟨i, by omega⟩) value = true ∧
      ∀ h : i + 1 < a.num, lt value (a.values ⟨i + 1, by omega⟩) = true := by
  unfold findCell
  have e1 : rd a.values 0 = .ok (a.values ⟨0, by omega⟩) := by
    have := rd_ok a.values 0 (by omega); simpa using this
  have e2 : rd a.values ((a.num : Int) - 1) = .ok (a.values ⟨a.num - 1, by omega⟩) := by
    have := rd_ok a.values (a.num - 1) (by omega)
    rwa [show ((a.num - 1 : ℕ) : Int) = (a.num : Int) - 1 by omega] at this
  rw [e1, e2]
  simp only [except_bind_ok, hlo, hhi, cassert_true, decide_eq_true h0]
  exact findLoop_spec hs hn (by omega) h0 (by omega) hlo (by intro h; omega)

/-! ### Tables given by rational breakpoints and data -/

/-- The axis has the `n` finite breakpoints `x 0 … x (n-1)`; the other array entries are
arbitrary. -/
def AxisIs (a : Axis) (n : Nat) (x : Nat → ℚ) : Prop :=
  a.num = n ∧ ∀ i (hi : i < maxAxis), i < n → a.values ⟨i, hi⟩ = fin (x i)

theorem strict_lt {n : Nat} {x : Nat → ℚ} (h : StrictlyIncreasing n x) {i j : Nat} (hij : i < j)
    (hj : j < n) : x i < x j := by
  induction j with
  | zero => omega
  | succ j ih =>
    rcases Nat.lt_or_ge i j with h1 | h1
    · exact (ih h1 (by omega)).trans (h j hj)
    · have : i = j := by omega
      subst this
      exact h i hj

theorem strict_le {n : Nat} {x : Nat → ℚ} (h : StrictlyIncreasing n x) {i j : Nat} (hij : i ≤ j)
    (hj : j < n) : x i ≤ x j := by
  rcases Nat.lt_or_ge i j with h1 | h1
  · exact (strict_lt h h1 hj).le
  · have : i = j := by omega
    subst this; exact le_refl _

theorem axisIs_sorted {a : Axis} {n : Nat} {x : Nat → ℚ} (ha : AxisIs a n x)
    (h : StrictlyIncreasing n x) : AxisSorted a := by
  intro i j hij hj hi hj'
  rw [ha.1] at hj
  rw [ha.2 i hi (by omega), ha.2 j hj' hj]
  simpa using strict_le h hij hj

theorem clampTo_mem {n : Nat} {x : Nat → ℚ} (h : StrictlyIncreasing n x) (h1 : 1 ≤ n) (v : ℚ) :
    x 0 ≤ clampTo n x v ∧ clampTo n x v ≤ x (n - 1) := by
  have : x 0 ≤ x (n - 1) := strict_le h (by omega) (by omega)
  unfold clampTo
  exact ⟨le_max_left _ _, max_le this (min_le_right _ _)⟩

theorem clampAxis_eq {a : Axis} {n : Nat} {x : Nat → ℚ} (ha : AxisIs a n x)
    (h : StrictlyIncreasing n x) (h1 : 1 ≤ n) (h24 : n ≤ maxAxis) (v : ℚ) :
    clampAxis a (fin v) = .ok (fin (clampTo n x v)) := by
  obtain ⟨hnum, hv⟩ := ha
  have e1 : rd a.values 0 = .ok (fin (x 0)) := by
    have := rd_ok a.values 0 (by omega)
    rw [hv 0 _ (by omega)] at this
    simpa using this
  have e2 : rd a.values ((a.num : Int) - 1) = .ok (fin (x (n - 1))) := by
    have := rd_ok a.values (n - 1) (by omega)
    rw [hv (n - 1) _ (by omega)] at this
    rwa [show ((n - 1 : ℕ) : Int) = (a.num : Int) - 1 by omega] at this
  have hle : x 0 ≤ x (n - 1) := strict_le h (by omega) (by omega)
  unfold clampAxis clampTo
  rw [e1, e2]
  simp only [except_bind_ok, lt_fin, decide_eq_true_eq, except_pure]
  congr 1
  split_ifs with c1 c2 c2
  · rw [lt_fin, decide_eq_true_eq] at c2; linarith
  · rw [min_eq_left (by linarith), max_eq_left (by linarith)]
  · rw [lt_fin, decide_eq_true_eq] at c2
    rw [min_eq_right c2.le, max_eq_right hle]
  · rw [lt_fin, decide_eq_true_eq] at c2
    rw [min_eq_left (by linarith), max_eq_right (by linarith)]

/-- the cell found for a clamped value: index `i`, with `x i ≤ v < x (i+1)`, or the last one -/
theorem findCell_eq {a : Axis} {n : Nat} {x : Nat → ℚ} (ha : AxisIs a n x)
    (h : StrictlyIncreasing n x) (h1 : 1 ≤ n) (h24 : n ≤ maxAxis) {v : ℚ}
    (hlo : x 0 ≤ v) (hhi : v ≤ x (n - 1)) :
    ∃ i, i < n ∧ findCell a (fin v) = .ok i ∧ x i ≤ v ∧ (i + 1 < n → v < x (i + 1)) := by
  have hs := axisIs_sorted ha h
  obtain ⟨hnum, hv⟩ := ha
  subst hnum
  obtain ⟨i, hi, hf, hl, hu⟩ := findCell_spec (value := fin v) hs h1 h24
    (by rw [hv 0 _ (by omega)]; simpa using hlo)
    (by rw [hv _ _ (by omega)]; simpa using hhi)
  refine ⟨i, hi, hf, ?_, ?_⟩
  · rw [hv i _ hi] at hl; simpa using hl
  · intro hh
    have := hu hh
    rw [hv _ _ hh] at this; simpa using this

end Verif
