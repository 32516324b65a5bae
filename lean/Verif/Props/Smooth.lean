/-
C108: table lookups do not jump.
-/
import Verif.Props.Accuracy

namespace Verif
open Fl FloatFmt

/-- `r` is on the line of every segment of the polyline that holds `c`. -/
def OnSegments (n : ℕ) (x h : ℕ → ℚ) (c r : ℚ) : Prop :=
  ∀ i, i + 1 < n → x i ≤ c → c ≤ x (i + 1) → (r - h i) * (x (i + 1) - x i) = (h (i + 1) - h i) * (c - x i)

theorem segment_of {n : ℕ} {x : ℕ → ℚ} (hn : 2 ≤ n) {c : ℚ} (h0 : x 0 ≤ c) (h1 : c ≤ x (n - 1)) :
    ∃ i, i + 1 < n ∧ x i ≤ c ∧ c ≤ x (i + 1) := by
  by_contra hno
  push Not at hno
  have : ∀ i, i < n → i ≠ 0 → x i < c := by
    intro i hi hi0
    induction i with
    | zero => omega
    | succ i ih =>
      rcases Nat.eq_zero_or_pos i with h | h
      · subst h; exact hno 0 hi h0
      · exact hno i hi (ih (by omega) (by omega)).le
  exact absurd (this (n - 1) (by omega) (by omega)) (by linarith)

theorem incr_le {n : ℕ} {x : ℕ → ℚ} (hs : StrictlyIncreasing n x) {i k : ℕ} (hik : i ≤ k) (hk : k < n) : x i ≤ x k := by
  induction k with
  | zero => obtain rfl : i = 0 := by omega
            exact le_rfl
  | succ k ih =>
    rcases Nat.lt_or_ge k i with h | h
    · obtain rfl : i = k + 1 := by omega
      exact le_rfl
    · exact (ih h (by omega)).trans (hs k hk).le

theorem slope_sum {n : ℕ} {x h : ℕ → ℚ} {L : ℚ} (hL : ∀ i, i + 1 < n → h (i + 1) - h i ≤ L * (x (i + 1) - x i)) {i k : ℕ}
    (hik : i ≤ k) (hk : k < n) : h k - h i ≤ L * (x k - x i) := by
  induction k with
  | zero => obtain rfl : i = 0 := by omega
            simp
  | succ k ih =>
    rcases Nat.lt_or_ge k i with h' | h'
    · obtain rfl : i = k + 1 := by omega
      simp
    · have := ih h' (by omega)
      have := hL k hk
      linarith

/-- A polyline rises no faster than its steepest segment. -/
theorem segments_rise {n : ℕ} {x h : ℕ → ℚ} {L c c' r r' : ℚ} (hn : 2 ≤ n) (hs : StrictlyIncreasing n x)
    (hL : ∀ i, i + 1 < n → h (i + 1) - h i ≤ L * (x (i + 1) - x i)) (h0 : x 0 ≤ c) (hc : c ≤ c') (h1 : c' ≤ x (n - 1))
    (hr : OnSegments n x h c r) (hr' : OnSegments n x h c' r') : r' - r ≤ L * (c' - c) := by
  obtain ⟨i, hi, i1, i2⟩ := segment_of hn h0 (hc.trans h1)
  have ei := hr i hi i1 i2
  have di : 0 < x (i + 1) - x i := by linarith [hs i hi]
  have si := hL i hi
  by_cases hsame : c' ≤ x (i + 1)
  · have ej := hr' i hi (i1.trans hc) hsame
    have e : (r' - r) * (x (i + 1) - x i) = (h (i + 1) - h i) * (c' - c) := by linarith
    have := mul_le_mul_of_nonneg_right si (show 0 ≤ c' - c by linarith)
    refine le_of_mul_le_mul_right ?_ di
    rw [e]
    linarith
  · push Not at hsame
    obtain ⟨j, hj, j1, j2⟩ := segment_of hn (h0.trans hc) h1
    have hij : i + 1 ≤ j := by
      by_contra hlt
      have := incr_le hs (show j + 1 ≤ i + 1 by omega) hi
      linarith
    have ej := hr' j hj j1 j2
    have dj : 0 < x (j + 1) - x j := by linarith [hs j hj]
    have sj := hL j hj
    have a : h (i + 1) - r ≤ L * (x (i + 1) - c) := by
      have e : (h (i + 1) - r) * (x (i + 1) - x i) = (h (i + 1) - h i) * (x (i + 1) - c) := by linarith
      have := mul_le_mul_of_nonneg_right si (show 0 ≤ x (i + 1) - c by linarith)
      refine le_of_mul_le_mul_right ?_ di
      rw [e]
      linarith
    have b : r' - h j ≤ L * (c' - x j) := by
      have := mul_le_mul_of_nonneg_right sj (show 0 ≤ c' - x j by linarith)
      refine le_of_mul_le_mul_right ?_ dj
      rw [ej]
      linarith
    have m := slope_sum hL hij (by omega)
    linarith

theorem OnSegments.neg {n : ℕ} {x h : ℕ → ℚ} {c r : ℚ} (H : OnSegments n x h c r) : OnSegments n x (fun i => -h i) c (-r) := by
  intro i hi h1 h2
  have := H i hi h1 h2
  linarith

/-- And so changes no faster than its steepest segment, in either direction. -/
theorem segments_lip {n : ℕ} {x h : ℕ → ℚ} {L c c' r r' : ℚ} (hn : 2 ≤ n) (hs : StrictlyIncreasing n x)
    (hL : ∀ i, i + 1 < n → |h (i + 1) - h i| ≤ L * (x (i + 1) - x i)) (h0 : x 0 ≤ c) (h1 : c ≤ x (n - 1)) (h0' : x 0 ≤ c')
    (h1' : c' ≤ x (n - 1)) (hr : OnSegments n x h c r) (hr' : OnSegments n x h c' r') : |r' - r| ≤ L * |c' - c| := by
  have up : ∀ i, i + 1 < n → h (i + 1) - h i ≤ L * (x (i + 1) - x i) := fun i hi => (abs_le.mp (hL i hi)).2
  have dn : ∀ i, i + 1 < n → -h (i + 1) - -h i ≤ L * (x (i + 1) - x i) := fun i hi => by
    have := (abs_le.mp (hL i hi)).1
    linarith
  rcases le_total c c' with hc | hc
  · have a := segments_rise hn hs up h0 hc h1' hr hr'
    have b := segments_rise hn hs dn h0 hc h1' hr.neg hr'.neg
    rw [abs_of_nonneg (show 0 ≤ c' - c by linarith), abs_le]
    constructor <;> linarith
  · have a := segments_rise hn hs up h0' hc h1 hr' hr
    have b := segments_rise hn hs dn h0' hc h1 hr'.neg hr.neg
    rw [abs_of_nonpos (show c' - c ≤ 0 by linarith), abs_le]
    constructor <;> linarith

theorem clampTo_between {n : ℕ} {x : ℕ → ℚ} (hs : StrictlyIncreasing n x) (hn : 2 ≤ n) (v : ℚ) : x 0 ≤ clampTo n x v ∧ clampTo n x v ≤ x (n - 1) := by
  have := incr_le hs (Nat.zero_le (n - 1)) (by omega)
  unfold clampTo
  exact ⟨le_max_left _ _, max_le this (min_le_right _ _)⟩

theorem clampTo_abs (n : ℕ) (x : ℕ → ℚ) (v w : ℚ) : |clampTo n x v - clampTo n x w| ≤ |v - w| := by
  have key : ∀ {p q : ℚ}, p ≤ q → clampTo n x p ≤ clampTo n x q ∧ clampTo n x q - clampTo n x p ≤ q - p := by
    intro p q h
    unfold clampTo
    refine ⟨max_le_max le_rfl (min_le_min h le_rfl), ?_⟩
    rcases max_cases (x 0) (min q (x (n - 1))) with ⟨e1, -⟩ | ⟨e1, -⟩ <;> rcases max_cases (x 0) (min p (x (n - 1))) with ⟨e2, h2⟩ | ⟨e2, h2⟩ <;>
      rcases min_cases q (x (n - 1)) with ⟨e3, h3⟩ | ⟨e3, h3⟩ <;> rcases min_cases p (x (n - 1)) with ⟨e4, h4⟩ | ⟨e4, h4⟩ <;>
      rw [e1, e2] <;> linarith
  rcases le_total v w with h | h
  · obtain ⟨a, b⟩ := key h
    rw [abs_of_nonpos (by linarith), abs_of_nonpos (by linarith)]
    linarith
  · obtain ⟨a, b⟩ := key h
    rw [abs_of_nonneg (by linarith), abs_of_nonneg (by linarith)]
    exact b

theorem clampTo_le (n : ℕ) (x : ℕ → ℚ) {v w : ℚ} (h : v ≤ w) : clampTo n x v ≤ clampTo n x w :=
  max_le_max le_rfl (min_le_min h le_rfl)

theorem OnPolyline.segments {n : ℕ} {x y : ℕ → ℚ} {v r : ℚ} (hn : 2 ≤ n) (hs : StrictlyIncreasing n x) (h : OnPolyline n x y v r) :
    OnSegments n x y (clampTo n x v) r := by
  obtain ⟨hbot, htop, hmid⟩ := h
  have h01 := incr_le hs (Nat.zero_le (n - 1)) (by omega)
  intro i hi h1 h2
  have hlt := hs i hi
  by_cases hb : v ≤ x 0
  · have e : clampTo n x v = x 0 := by
      unfold clampTo
      exact max_eq_left ((min_le_left _ _).trans hb)
    rw [e] at h1 ⊢
    have hi0 : i = 0 := by
      by_contra hne
      have a := hs 0 (by omega)
      have b := incr_le hs (show 0 + 1 ≤ i by omega) (by omega)
      linarith
    subst hi0
    rw [hbot hb]
    ring
  · by_cases ht : x (n - 1) ≤ v
    · have e : clampTo n x v = x (n - 1) := by
        unfold clampTo
        rw [min_eq_right ht]
        exact max_eq_right h01
      rw [e] at h2 ⊢
      have hin : n - 1 = i + 1 := by
        by_contra hne
        have a := hs (i + 1) (by omega)
        have b := incr_le hs (show i + 1 + 1 ≤ n - 1 by omega) (by omega)
        linarith
      rw [htop ht, hin]
    · have e : clampTo n x v = v := by
        unfold clampTo
        rw [min_eq_left (by linarith)]
        exact max_eq_right (by linarith)
      rw [e] at h1 h2 ⊢
      exact hmid i hi h1 h2

/-- A polyline over one axis changes no faster than its steepest segment. -/
theorem polyline_lip {n : ℕ} {x y : ℕ → ℚ} {L v w r s : ℚ} (hn : 2 ≤ n) (hs : StrictlyIncreasing n x)
    (hL : ∀ i, i + 1 < n → |y (i + 1) - y i| ≤ L * (x (i + 1) - x i)) (hr : OnPolyline n x y v r) (hr' : OnPolyline n x y w s) :
    |r - s| ≤ L * |v - w| := by
  obtain ⟨a1, a2⟩ := clampTo_between hs hn v
  obtain ⟨b1, b2⟩ := clampTo_between hs hn w
  have L0 : 0 ≤ L := by
    have d := hs 0 (by omega)
    have := (abs_nonneg _).trans (hL 0 (by omega))
    exact nonneg_of_mul_nonneg_left this (by linarith)
  refine (segments_lip hn hs hL b1 b2 a1 a2 (hr'.segments hn hs) (hr.segments hn hs)).trans ?_
  exact mul_le_mul_of_nonneg_left (clampTo_abs n x v w) L0

/-- The height of a surface over a row between two rows. -/
theorem OnSurface.along_row {n m : ℕ} {x y : ℕ → ℚ} {z : ℕ → ℕ → ℚ} {v w r : ℚ} (h : OnSurface n m x y z v w r)
    (hs : StrictlyIncreasing m y) {j : ℕ} (hj : j + 1 < m) (h1 : y j ≤ clampTo m y w) (h2 : clampTo m y w ≤ y (j + 1)) :
    OnSegments n x (fun i => (z j i * (y (j + 1) - clampTo m y w) + z (j + 1) i * (clampTo m y w - y j)) / (y (j + 1) - y j)) (clampTo n x v) r := by
  intro i hi h3 h4
  have e := h i j hi hj h3 h4 h1 h2
  have d : y (j + 1) - y j ≠ 0 := by linarith [hs j hj] |> fun (h : 0 < y (j + 1) - y j) => h.ne'
  dsimp only
  field_simp
  linarith

theorem OnSurface.along_col {n m : ℕ} {x y : ℕ → ℚ} {z : ℕ → ℕ → ℚ} {v w r : ℚ} (h : OnSurface n m x y z v w r)
    (hs : StrictlyIncreasing n x) {i : ℕ} (hi : i + 1 < n) (h1 : x i ≤ clampTo n x v) (h2 : clampTo n x v ≤ x (i + 1)) :
    OnSegments m y (fun j => (z j i * (x (i + 1) - clampTo n x v) + z j (i + 1) * (clampTo n x v - x i)) / (x (i + 1) - x i)) (clampTo m y w) r := by
  intro j hj h3 h4
  have e := h i j hi hj h1 h2 h3 h4
  have d : x (i + 1) - x i ≠ 0 := by linarith [hs i hi] |> fun (h : 0 < x (i + 1) - x i) => h.ne'
  dsimp only
  field_simp
  linarith

/-- A mix of two slopes is no steeper than both. -/
theorem mix_slope {a b a' b' u v D s : ℚ} (hu : 0 ≤ u) (hv : 0 ≤ v) (hD : 0 < D) (huv : u + v = D) (h1 : |a' - a| ≤ s) (h2 : |b' - b| ≤ s) :
    |(a' * u + b' * v) / D - (a * u + b * v) / D| ≤ s := by
  rw [← sub_div, abs_div, abs_of_pos hD, div_le_iff₀ hD, ← huv]
  have e : a' * u + b' * v - (a * u + b * v) = (a' - a) * u + (b' - b) * v := by ring
  rw [e]
  refine (abs_add_le _ _).trans ?_
  rw [abs_mul, abs_mul, abs_of_nonneg hu, abs_of_nonneg hv]
  have := mul_le_mul_of_nonneg_right h1 hu
  have := mul_le_mul_of_nonneg_right h2 hv
  linarith

/-- A surface changes no faster than the steepest slopes along its two axes. -/
theorem surface_lip {n m : ℕ} {x y : ℕ → ℚ} {z : ℕ → ℕ → ℚ} {K L v v' w w' r r' q : ℚ} (hn : 2 ≤ n) (hm : 2 ≤ m)
    (hsx : StrictlyIncreasing n x) (hsy : StrictlyIncreasing m y)
    (hK : ∀ j i, j < m → i + 1 < n → |z j (i + 1) - z j i| ≤ K * (x (i + 1) - x i))
    (hL : ∀ j i, j + 1 < m → i < n → |z (j + 1) i - z j i| ≤ L * (y (j + 1) - y j))
    (hr : OnSurface n m x y z v w r) (hr' : OnSurface n m x y z v' w' r') (hq : OnSurface n m x y z v' w q) :
    |r - r'| ≤ K * |v - v'| + L * |w - w'| := by
  obtain ⟨a1, a2⟩ := clampTo_between hsx hn v
  obtain ⟨b1, b2⟩ := clampTo_between hsx hn v'
  obtain ⟨c1, c2⟩ := clampTo_between hsy hm w
  obtain ⟨d1, d2⟩ := clampTo_between hsy hm w'
  have K0 : 0 ≤ K := nonneg_of_mul_nonneg_left ((abs_nonneg _).trans (hK 0 0 (by omega) (by omega))) (by linarith [hsx 0 (by omega)])
  have L0 : 0 ≤ L := nonneg_of_mul_nonneg_left ((abs_nonneg _).trans (hL 0 0 (by omega) (by omega))) (by linarith [hsy 0 (by omega)])
  obtain ⟨j, hj, j1, j2⟩ := segment_of hm c1 c2
  obtain ⟨i, hi, i1, i2⟩ := segment_of hn b1 b2
  have dj : 0 < y (j + 1) - y j := by linarith [hsy j hj]
  have di : 0 < x (i + 1) - x i := by linarith [hsx i hi]
  have A : |r - q| ≤ K * |clampTo n x v - clampTo n x v'| := by
    have R := hr.along_row hsy hj j1 j2
    have Q := hq.along_row hsy hj j1 j2
    refine segments_lip hn hsx ?_ b1 b2 a1 a2 Q R
    intro i hi
    have k1 := hK j i (by omega) hi
    have k2 := hK (j + 1) i hj hi
    have u0 : 0 ≤ y (j + 1) - clampTo m y w := by linarith
    have v0 : 0 ≤ clampTo m y w - y j := by linarith
    exact mix_slope u0 v0 dj (by ring) k1 k2
  have B : |q - r'| ≤ L * |clampTo m y w - clampTo m y w'| := by
    have R := hr'.along_col hsx hi i1 i2
    have Q := hq.along_col hsx hi i1 i2
    refine segments_lip hm hsy ?_ d1 d2 c1 c2 R Q
    intro j hj
    have k1 := hL j i hj (by omega)
    have k2 := hL j (i + 1) hj hi
    have u0 : 0 ≤ x (i + 1) - clampTo n x v' := by linarith
    have v0 : 0 ≤ clampTo n x v' - x i := by linarith
    exact mix_slope u0 v0 di (by ring) k1 k2
  have e : r - r' = (r - q) + (q - r') := by ring
  rw [e]
  refine (abs_add_le _ _).trans (add_le_add (A.trans ?_) (B.trans ?_))
  · exact mul_le_mul_of_nonneg_left (clampTo_abs n x v v') K0
  · exact mul_le_mul_of_nonneg_left (clampTo_abs m y w w') L0

/-- C108: if no segment of a table is steeper than `L`, two lookups differ by at most `L` times the difference of the values looked up, up to
the rounding, in every float format and across breakpoints and both ends of the axis. -/
theorem C108_line [FloatFmt] {t : Table1d} {n : ℕ} {x y : ℕ → ℚ} {M L : ℚ} (h : Usable1 t n x y M)
    (hL : ∀ i, i + 1 < n → |y (i + 1) - y i| ≤ L * (x (i + 1) - x i)) (v w : ℚ) :
    ∃ r s, interp1 t (fin v) = .ok (fin r) ∧ interp1 t (fin w) = .ok (fin s) ∧ |r - s| ≤ L * |v - w| + 2 * (M / 2 ^ 20 + 1 / 2 ^ 90) := by
  obtain ⟨r, ρ, h1, h2, h3⟩ := C105_line h v
  obtain ⟨s, σ, h4, h5, h6⟩ := C105_line h w
  refine ⟨r, s, h1, h4, ?_⟩
  have k := polyline_lip h.two h.axis.strict hL h2 h5
  have e : r - s = (r - ρ) + (ρ - σ) - (s - σ) := by ring
  rw [e]
  have := abs_sub ((r - ρ) + (ρ - σ)) (s - σ)
  have := abs_add_le (r - ρ) (ρ - σ)
  linarith

/-- C108: a table whose values rise along the axis is looked up to a rising value, up to the rounding. -/
theorem C108_rising [FloatFmt] {t : Table1d} {n : ℕ} {x y : ℕ → ℚ} {M : ℚ} (h : Usable1 t n x y M)
    (hy : ∀ i, i + 1 < n → y i ≤ y (i + 1)) {v w : ℚ} (hvw : v ≤ w) :
    ∃ r s, interp1 t (fin v) = .ok (fin r) ∧ interp1 t (fin w) = .ok (fin s) ∧ r ≤ s + 2 * (M / 2 ^ 20 + 1 / 2 ^ 90) := by
  obtain ⟨r, ρ, h1, h2, h3⟩ := C105_line h v
  obtain ⟨s, σ, h4, h5, h6⟩ := C105_line h w
  refine ⟨r, s, h1, h4, ?_⟩
  have k := segments_rise (L := 0) h.two h.axis.strict (h := fun i => -y i) (fun i hi => by have := hy i hi; linarith)
    (clampTo_between h.axis.strict h.two v).1 (clampTo_le n x hvw) (clampTo_between h.axis.strict h.two w).2
    (h2.segments h.two h.axis.strict).neg (h5.segments h.two h.axis.strict).neg
  have := (abs_le.mp h3).2
  have := (abs_le.mp h6).1
  linarith

/-- C108: the same for two axes, with a steepest slope for each. -/
theorem C108_surface [FloatFmt] {t : Table2d} {n m : ℕ} {x y : ℕ → ℚ} {z : ℕ → ℕ → ℚ} {M K L : ℚ} (h : Usable2 t n m x y z M)
    (hK : ∀ j i, j < m → i + 1 < n → |z j (i + 1) - z j i| ≤ K * (x (i + 1) - x i))
    (hL : ∀ j i, j + 1 < m → i < n → |z (j + 1) i - z j i| ≤ L * (y (j + 1) - y j)) (v w v' w' : ℚ) :
    ∃ r s, interp2 t (fin v) (fin w) = .ok (fin r) ∧ interp2 t (fin v') (fin w') = .ok (fin s) ∧
      |r - s| ≤ K * |v - v'| + L * |w - w'| + 2 * (M / 2 ^ 18 + 1 / 2 ^ 90) := by
  obtain ⟨r, ρ, h1, h2, h3⟩ := C105_surface h v w
  obtain ⟨s, σ, h4, h5, h6⟩ := C105_surface h v' w'
  obtain ⟨-, q, -, h7, -⟩ := C105_surface h v' w
  refine ⟨r, s, h1, h4, ?_⟩
  have k := surface_lip h.two.1 h.two.2 h.cols.strict h.rows.strict hK hL h2 h5 h7
  have e : r - s = (r - ρ) + (ρ - σ) - (s - σ) := by ring
  rw [e]
  have := abs_sub ((r - ρ) + (ρ - σ)) (s - σ)
  have := abs_add_le (r - ρ) (ρ - σ)
  linarith

/-- C108: so the spark advance moves with the speed and the manifold pressure and does not jump. -/
theorem C108_advance [FloatFmt] {c c' : Config} {t : Table2d} {n m : ℕ} {x y : ℕ → ℚ} {z : ℕ → ℕ → ℚ} {M K L p p' : ℚ} (h : Usable2 t n m x y z M)
    (hK : ∀ j i, j < m → i + 1 < n → |z j (i + 1) - z j i| ≤ K * (x (i + 1) - x i))
    (hL : ∀ j i, j + 1 < m → i < n → |z (j + 1) i - z j i| ≤ L * (y (j + 1) - y j))
    (hc : c.timing = some t) (hr : c.decoder.rpm.toNat ≤ 2 ^ 24) (hp : (c.sensors sensorMap).value = fin p) {u v : CalcValues}
    (hv : calculateIgnition c u = .ok v)
    (hc' : c'.timing = some t) (hr' : c'.decoder.rpm.toNat ≤ 2 ^ 24) (hp' : (c'.sensors sensorMap).value = fin p') {u' v' : CalcValues}
    (hv' : calculateIgnition c' u' = .ok v') :
    ∃ a a', v.timingAdvance = fin a ∧ v'.timingAdvance = fin a' ∧
      |a - a'| ≤ K * |(c.decoder.rpm.toNat : ℚ) - c'.decoder.rpm.toNat| + L * |p - p'| + 2 * (M / 2 ^ 18 + 1 / 2 ^ 90) := by
  obtain ⟨a, ρ, h1, h2, h3⟩ := C105_advance h hc hr hp hv
  obtain ⟨a', σ, h4, h5, h6⟩ := C105_advance h hc' hr' hp' hv'
  obtain ⟨-, q, -, h7, -⟩ := C105_surface h (c'.decoder.rpm.toNat : ℚ) p
  refine ⟨a, a', h1, h4, ?_⟩
  have k := surface_lip h.two.1 h.two.2 h.cols.strict h.rows.strict hK hL h2 h5 h7
  have e : a - a' = (a - ρ) + (ρ - σ) - (a' - σ) := by ring
  rw [e]
  have := abs_sub ((a - ρ) + (ρ - σ)) (a' - σ)
  have := abs_add_le (a - ρ) (ρ - σ)
  linarith

section
attribute [local instance] binary32

/-- The steepest slopes of the default timing table: 1/30 degree per revolution per minute, 1 degree per kPa. -/
theorem dfltTiming_slopes :
    (∀ j i, j < 16 → i + 1 < 16 →
      |(fun j i => if hj : j < maxAxis then nums (dfltTiming.data ⟨j, hj⟩) i else 0) j (i + 1) -
        (fun j i => if hj : j < maxAxis then nums (dfltTiming.data ⟨j, hj⟩) i else 0) j i| ≤
      1 / 30 * (nums dfltTiming.cols.values (i + 1) - nums dfltTiming.cols.values i)) ∧
    (∀ j i, j + 1 < 16 → i < 16 →
      |(fun j i => if hj : j < maxAxis then nums (dfltTiming.data ⟨j, hj⟩) i else 0) (j + 1) i -
        (fun j i => if hj : j < maxAxis then nums (dfltTiming.data ⟨j, hj⟩) i else 0) j i| ≤
      1 * (nums dfltTiming.rows.values (j + 1) - nums dfltTiming.rows.values j)) := by
  have a : ∀ j : Fin 16, ∀ i : Fin 15,
      |(fun j i => if hj : j < maxAxis then nums (dfltTiming.data ⟨j, hj⟩) i else 0) j.1 (i.1 + 1) -
        (fun j i => if hj : j < maxAxis then nums (dfltTiming.data ⟨j, hj⟩) i else 0) j.1 i.1| ≤
      1 / 30 * (nums dfltTiming.cols.values (i.1 + 1) - nums dfltTiming.cols.values i.1) := by decide +kernel
  have b : ∀ j : Fin 15, ∀ i : Fin 16,
      |(fun j i => if hj : j < maxAxis then nums (dfltTiming.data ⟨j, hj⟩) i else 0) (j.1 + 1) i.1 -
        (fun j i => if hj : j < maxAxis then nums (dfltTiming.data ⟨j, hj⟩) i else 0) j.1 i.1| ≤
      1 * (nums dfltTiming.rows.values (j.1 + 1) - nums dfltTiming.rows.values j.1) := by decide +kernel
  exact ⟨fun j i hj hi => a ⟨j, hj⟩ ⟨i, by omega⟩, fun j i hj hi => b ⟨j, by omega⟩ ⟨i, hi⟩⟩

/-- In single precision: the default advance moves by at most 1/30 degree per revolution per minute and 1 degree per kPa, and 1/2048 degree. -/
example (v w v' w' : ℚ) : ∃ r s, interp2 dfltTiming (fin v) (fin w) = .ok (fin r) ∧ interp2 dfltTiming (fin v') (fin w') = .ok (fin s) ∧
    |r - s| ≤ 1 / 30 * |v - v'| + 1 * |w - w'| + 2 * (64 / 2 ^ 18 + 1 / 2 ^ 90) :=
  C108_surface dfltTiming_usable dfltTiming_slopes.1 dfltTiming_slopes.2 v w v' w'

/-- The default dwell table falls by at most 4 ms per volt. -/
example (v w : ℚ) : ∃ r s, interp1 dfltDwell (fin v) = .ok (fin r) ∧ interp1 dfltDwell (fin w) = .ok (fin s) ∧
    |r - s| ≤ 4 * |v - w| + 2 * (8 / 2 ^ 20 + 1 / 2 ^ 90) := by
  refine C108_line dfltDwell_usable ?_ v w
  have a : ∀ i : Fin 3, |nums dfltDwell.data (i.1 + 1) - nums dfltDwell.data i.1| ≤
      4 * (nums dfltDwell.cols.values (i.1 + 1) - nums dfltDwell.cols.values i.1) := by decide +kernel
  exact fun i hi => a ⟨i, by omega⟩

/-- A table that rises in steps: the values of `sampleTable` with an entry after the last. -/
def risingTable : Table1d :=
  { cols := { num := 4, values := fun i => fin (([5, 10, 12, 15] : List ℚ).getD i 0) },
    data := fun i => fin (([50, 110, 120, 150] : List ℚ).getD i 0) }

theorem risingTable_usable : Usable1 risingTable 4 (nums risingTable.cols.values) (nums risingTable.data) 150 := by
  have g : AxisCheck risingTable.cols ∧ ∀ i : Fin maxAxis, risingTable.data i = fin (risingTable.data i).toQ ∧ |(risingTable.data i).toQ| ≤ 150 := by
    decide +kernel
  obtain ⟨a, d⟩ := g
  refine ⟨a.axisFl, by decide, ?_, ?_, by norm_num⟩
  · intro i hi _
    simp only [nums, hi, dif_pos]
    exact (d _).1
  · intro i hi
    have h1 : i < maxAxis := by unfold maxAxis; omega
    simp only [nums, h1, dif_pos]
    exact (d _).2

example {v w : ℚ} (h : v ≤ w) : ∃ r s, interp1 risingTable (fin v) = .ok (fin r) ∧ interp1 risingTable (fin w) = .ok (fin s) ∧
    r ≤ s + 2 * (150 / 2 ^ 20 + 1 / 2 ^ 90) := by
  refine C108_rising risingTable_usable ?_ h
  have a : ∀ i : Fin 3, nums risingTable.data i.1 ≤ nums risingTable.data (i.1 + 1) := by decide +kernel
  exact fun i hi => a ⟨i, by omega⟩

/-- The settings of `accDemo` at another speed and pressure. -/
def accDemo2 : Config :=
  { dfltConfig with
    decoder := { dfltConfig.decoder with rpm := 3000 }
    sensors := fun i => { dfltConfig.sensors i with value := fin 25 } }

/-- The hypotheses on the advance are met by the two: 42 degrees and 39 degrees. -/
example : accDemo.timing = some dfltTiming ∧ accDemo2.timing = some dfltTiming ∧ accDemo.decoder.rpm.toNat ≤ 2 ^ 24 ∧
    accDemo2.decoder.rpm.toNat ≤ 2 ^ 24 ∧ (accDemo.sensors sensorMap).value = fin 12 ∧ (accDemo2.sensors sensorMap).value = fin 25 ∧
    (calculateIgnition accDemo zeroCalc).toOption.map (·.timingAdvance) = some (fin 42) ∧
    (calculateIgnition accDemo2 zeroCalc).toOption.map (·.timingAdvance) = some (fin 39) :=
  ⟨rfl, rfl, by decide +kernel, by decide +kernel, rfl, rfl, by decide +kernel, by decide +kernel⟩

end

end Verif
