/-
C105: what rounding does to a table lookup.
-/
import Verif.Proofs.TableAcc
import Verif.Props.Table
import Verif.Props.Config
import Verif.Spec.Demo

namespace Verif
open Fl FloatFmt

/-- A table of one axis: the used breakpoints `x 0 < … < x (n-1)` and the unused entry after them are numbers of at most 2^60, neighbours differ by
at least 2^-64, the values over them are the numbers `y i`, and no value is larger than `M`. -/
structure Usable1 (t : Table1d) (n : ℕ) (x y : ℕ → ℚ) (M : ℚ) : Prop where
  axis : AxisFl t.cols n x
  two : 2 ≤ n
  data : ∀ i (h : i < maxAxis), i ≤ n → t.data ⟨i, h⟩ = fin (y i)
  size : ∀ i, i ≤ n → |y i| ≤ M
  fits : M ≤ 2 ^ 60

/-- The same for two axes, with all stored values numbers. -/
structure Usable2 (t : Table2d) (n m : ℕ) (x y : ℕ → ℚ) (z : ℕ → ℕ → ℚ) (M : ℚ) : Prop where
  cols : AxisFl t.cols n x
  rows : AxisFl t.rows m y
  two : 2 ≤ n ∧ 2 ≤ m
  data : ∀ j i (hj : j < maxAxis) (hi : i < maxAxis), j ≤ m → i ≤ n → t.data ⟨j, hj⟩ ⟨i, hi⟩ = fin (z j i)
  finite : ∀ j i, ∃ q, t.data j i = fin q
  size : ∀ j i, j ≤ m → i ≤ n → |z j i| ≤ M
  fits : M ≤ 2 ^ 60

theorem AxisFl.is {a : Axis} {n : ℕ} {x : ℕ → ℚ} (h : AxisFl a n x) : AxisIs a n x := ⟨h.num, fun i hi hin => h.vals i hi hin.le⟩

theorem AxisFl.strict {a : Axis} {n : ℕ} {x : ℕ → ℚ} (h : AxisFl a n x) : StrictlyIncreasing n x := fun i hi => by
  have := h.gap i hi
  have : (0 : ℚ) < (2 : ℚ) ^ (-64 : ℤ) := by positivity
  linarith

theorem AxisFl.top_ne {a : Axis} {n : ℕ} {x : ℕ → ℚ} (h : AxisFl a n x) : x n ≠ x (n - 1) := by
  intro e
  have := h.top
  rw [e, sub_self, abs_zero] at this
  exact absurd this (not_le.mpr (by positivity))

/-- C105: a one-dimensional lookup, with every operation rounded, is within 2^-20 of the largest value of the polyline through the table's points. -/
theorem C105_line [FloatFmt] {t : Table1d} {n : ℕ} {x y : ℕ → ℚ} {M : ℚ} (h : Usable1 t n x y M) (v : ℚ) :
    ∃ r ρ, interp1 t (fin v) = .ok (fin r) ∧ OnPolyline n x y v ρ ∧ |r - ρ| ≤ M / 2 ^ 20 + 1 / 2 ^ 90 := by
  have h2 := h.two
  have hf := h.axis.fits
  obtain ⟨r, ρ, h1, h3, h4⟩ := interp1_near h.axis h.data h.fits h.size (v := fin v) (by simp)
  have hy : ∀ i (hi : i < maxAxis), i < n → t.data ⟨i, hi⟩ = fin (y i) := fun i hi hin => h.data i hi hin.le
  refine ⟨r, ρ, h1, ?_, h4⟩
  rcases lt_or_ge v (x (n - 1)) with hv | hv
  · obtain ⟨r', e, hp⟩ := C05_below_top_partial t n x y v h2 (by omega) h.axis.is hy h.axis.strict hv
    rw [h3] at e
    cases e
    exact hp
  · obtain ⟨r', e, hp⟩ := C05_at_top_partial t n x y v (by omega) hf h.axis.is hy h.axis.strict hv (x n) (y n)
      (h.axis.vals n hf le_rfl) (h.data n hf le_rfl) h.axis.top_ne
    rw [h3] at e
    cases e
    exact hp

/-- C105: a two-dimensional lookup, with every operation rounded, is within 2^-18 of the largest value of the bilinear surface through the table's
points. -/
theorem C105_surface [FloatFmt] {t : Table2d} {n m : ℕ} {x y : ℕ → ℚ} {z : ℕ → ℕ → ℚ} {M : ℚ} (h : Usable2 t n m x y z M) (v w : ℚ) :
    ∃ r ρ, interp2 t (fin v) (fin w) = .ok (fin r) ∧ OnSurface n m x y z v w ρ ∧ |r - ρ| ≤ M / 2 ^ 18 + 1 / 2 ^ 90 := by
  obtain ⟨h2, h2'⟩ := h.two
  have hf := h.cols.fits
  have hf' := h.rows.fits
  obtain ⟨r, ρ, h1, h3, h4⟩ := interp2_near h.cols h.rows h.data h.fits h.size (v := fin v) (w := fin w) (by simp) (by simp)
  refine ⟨r, ρ, h1, ?_, h4⟩
  obtain ⟨r', e, hp⟩ := C06_lookup_partial t n m x y z v w (by omega) (by omega) (by omega) (by omega) h.cols.is h.rows.is
    (fun j i hj hi hjm hin => h.data j i hj hi hjm.le hin.le) h.finite h.cols.strict h.rows.strict
    (Or.inr ⟨hf, x n, h.cols.vals n hf le_rfl, h.cols.top_ne⟩) (Or.inr ⟨hf', y m, h.rows.vals m hf' le_rfl, h.rows.top_ne⟩)
  rw [h3] at e
  cases e
  exact hp

/-- C105: a one-dimensional lookup is between the smallest and the largest value of the table, up to the rounding. -/
theorem C105_line_range [FloatFmt] {t : Table1d} {n : ℕ} {x y : ℕ → ℚ} {M lo hi : ℚ} (h : Usable1 t n x y M)
    (hy : ∀ i, i < n → lo ≤ y i ∧ y i ≤ hi) (v : ℚ) :
    ∃ r, interp1 t (fin v) = .ok (fin r) ∧ lo - (M / 2 ^ 20 + 1 / 2 ^ 90) ≤ r ∧ r ≤ hi + (M / 2 ^ 20 + 1 / 2 ^ 90) := by
  have h2 := h.two
  obtain ⟨r, ρ, h1, hp, h3⟩ := C105_line h v
  obtain ⟨a, b⟩ := C05_within_data n x y v ρ lo hi (by omega) h.axis.strict hp hy
  obtain ⟨c, d⟩ := abs_le.mp h3
  exact ⟨r, h1, by linarith, by linarith⟩

/-- C105: a two-dimensional lookup is between the smallest and the largest value of the table, up to the rounding. -/
theorem C105_surface_range [FloatFmt] {t : Table2d} {n m : ℕ} {x y : ℕ → ℚ} {z : ℕ → ℕ → ℚ} {M lo hi : ℚ} (h : Usable2 t n m x y z M)
    (hz : ∀ j i, j < m → i < n → lo ≤ z j i ∧ z j i ≤ hi) (v w : ℚ) :
    ∃ r, interp2 t (fin v) (fin w) = .ok (fin r) ∧ lo - (M / 2 ^ 18 + 1 / 2 ^ 90) ≤ r ∧ r ≤ hi + (M / 2 ^ 18 + 1 / 2 ^ 90) := by
  obtain ⟨h2, h2'⟩ := h.two
  obtain ⟨r, ρ, h1, hp, h3⟩ := C105_surface h v w
  obtain ⟨a, b⟩ := C06_within_data n m x y z v w ρ lo hi h2 h2' h.cols.strict h.rows.strict hp hz
  obtain ⟨c, d⟩ := abs_le.mp h3
  exact ⟨r, h1, by linarith, by linarith⟩

/-- C105: the spark advance is that of the timing table at the speed and the manifold pressure, up to the rounding. -/
theorem C105_advance [FloatFmt] {c : Config} {t : Table2d} {n m : ℕ} {x y : ℕ → ℚ} {z : ℕ → ℕ → ℚ} {M p : ℚ} (h : Usable2 t n m x y z M)
    (hc : c.timing = some t) (hr : c.decoder.rpm.toNat ≤ 2 ^ 24) (hp : (c.sensors sensorMap).value = fin p) {v v' : CalcValues}
    (hv : calculateIgnition c v = .ok v') :
    ∃ a ρ, v'.timingAdvance = fin a ∧ OnSurface n m x y z c.decoder.rpm.toNat p ρ ∧ |a - ρ| ≤ M / 2 ^ 18 + 1 / 2 ^ 90 := by
  obtain ⟨a, ρ, h1, h2, h3⟩ := C105_surface h (c.decoder.rpm.toNat : ℚ) p
  refine ⟨a, ρ, ?_, h2, h3⟩
  have e : Fl.ofU32 c.decoder.rpm = fin (c.decoder.rpm.toNat : ℚ) := by
    unfold Fl.ofU32
    have := rnd_dyadic (c.decoder.rpm.toNat : ℤ) 0 (by rw [abs_of_nonneg (by positivity)]; exact_mod_cast hr) (by norm_num)
    simpa using this
  unfold calculateIgnition at hv
  rw [hc, e, hp] at hv
  simp only [deref, except_bind_ok, h1] at hv
  obtain ⟨dw, -, hv⟩ := bind_eq_ok.mp hv
  cases hv
  rfl

/-- C105: a dwell time from the table by battery voltage is the milliseconds of the table in whole microseconds, up to the rounding. -/
theorem C105_dwell [FloatFmt] {c : Config} {t : Table1d} {n : ℕ} {x y : ℕ → ℚ} {M b : ℚ} (h : Usable1 t n x y M) (hc : c.dwell = some t)
    (hm : c.ignition.dwell = .brv) (hb : (c.sensors sensorBrv).value = fin b) {v v' : CalcValues} (hv : calculateIgnition c v = .ok v') :
    ∃ ρ, OnPolyline n x y b ρ ∧ 1000 * ρ - 1 - (M / 2 ^ 9 + 1 / 2 ^ 60) < (v'.dwellUs.toNat : ℚ) ∧
      (0 ≤ ρ → (v'.dwellUs.toNat : ℚ) ≤ 1000 * ρ + (M / 2 ^ 9 + 1 / 2 ^ 60)) := by
  obtain ⟨r, ρ, h1, h2, h3⟩ := C105_line h b
  refine ⟨ρ, h2, ?_⟩
  have M0 : 0 ≤ M := (abs_nonneg _).trans (h.size 0 (by omega))
  have hM := h.fits
  unfold calculateIgnition at hv
  obtain ⟨t', -, hv⟩ := bind_eq_ok.mp hv
  obtain ⟨adv, -, hv⟩ := bind_eq_ok.mp hv
  obtain ⟨dw, hd, hv⟩ := bind_eq_ok.mp hv
  cases hv
  unfold dwellTime at hd
  rw [hm, hc, hb] at hd
  simp only [deref, except_bind_ok, h1] at hd
  obtain ⟨q, hq, q1, q2, q3⟩ := toU32_ok hd
  -- the lookup is at most twice the largest value
  have hρ : |ρ| ≤ M := by
    have h2' := h.two
    obtain ⟨a, b⟩ := C05_within_data n x y b ρ (-M) M (by omega) h.axis.strict h2 fun i hi => abs_le.mp (h.size i hi.le)
    exact abs_le.mpr ⟨a, b⟩
  have hr : |1000 * r| ≤ 1000 * (M * (101 / 100) + 1 / 2 ^ 90) := by
    rw [abs_mul, abs_of_pos (by norm_num : (0 : ℚ) < 1000)]
    refine mul_le_mul_of_nonneg_left ?_ (by norm_num)
    have := abs_add_le (r - ρ) ρ
    rw [sub_add_cancel] at this
    norm_num at *
    linarith
  rw [fin_mul] at hq
  obtain ⟨y', hq', h4⟩ := rnd_near (q := 1000 * r) (hr.trans (by norm_num at *; linarith))
  rw [hq'] at hq
  cases hq
  have h5 : |1000 * r| / 2 ^ 24 ≤ 1000 * (M * (101 / 100) + 1 / 2 ^ 90) / 2 ^ 24 := by gcongr
  obtain ⟨a1, a2⟩ := abs_le.mp (h4.trans (add_le_add h5 le_rfl))
  obtain ⟨b1, b2⟩ := abs_le.mp h3
  have near : 1000 * ρ - (M / 2 ^ 9 + 1 / 2 ^ 60) ≤ q ∧ q ≤ 1000 * ρ + (M / 2 ^ 9 + 1 / 2 ^ 60) := by
    constructor <;> (norm_num at *; linarith)
  have fl := Int.lt_floor_add_one q
  have fl' := Int.floor_le q
  dsimp only
  rw [q3]
  have hz : ((⌊q⌋.toNat : ℕ) : ℚ) = ((⌊q⌋.toNat : ℤ) : ℚ) := by push_cast; rfl
  rw [hz, Int.toNat_eq_max]
  constructor
  · have : ((⌊q⌋ : ℤ) : ℚ) ≤ ((max ⌊q⌋ 0 : ℤ) : ℚ) := by exact_mod_cast le_max_left _ _
    linarith [near.1]
  · intro hρ0
    rw [Int.cast_max, max_le_iff]
    refine ⟨by linarith [near.2], ?_⟩
    have : 0 ≤ M / 2 ^ 9 := by positivity
    norm_num
    norm_num at *
    linarith

section
attribute [local instance] binary32

/-- The hypotheses are met, in single precision, by the default timing table, whose advances are at most 42 degrees. -/
theorem dfltTiming_usable : Usable2 dfltTiming 16 16 (nums dfltTiming.cols.values) (nums dfltTiming.rows.values)
    (fun j i => if hj : j < maxAxis then nums (dfltTiming.data ⟨j, hj⟩) i else 0) 64 := by
  have g : Good2 dfltTiming ∧ ∀ j i : Fin maxAxis, |(dfltTiming.data j i).toQ| ≤ 64 := by decide +kernel
  obtain ⟨⟨a, b, c⟩, d⟩ := g
  refine ⟨a.axisFl, b.axisFl, by decide, ?_, fun j i => ⟨_, (c j i).1⟩, ?_, by norm_num⟩
  · intro j i hj hi _ _
    simp only [nums, hi, hj, dif_pos]
    exact (c _ _).1
  · intro j i hj hi
    have h1 : i < maxAxis := by unfold maxAxis; omega
    have h2 : j < maxAxis := by unfold maxAxis; omega
    simp only [nums, h1, h2, dif_pos]
    exact d _ _

/-- And by the default dwell table, of at most 6 ms. -/
theorem dfltDwell_usable : Usable1 dfltDwell 4 (nums dfltDwell.cols.values) (nums dfltDwell.data) 8 := by
  have g : AxisCheck dfltDwell.cols ∧ ∀ i : Fin maxAxis, dfltDwell.data i = fin (dfltDwell.data i).toQ ∧ |(dfltDwell.data i).toQ| ≤ 8 := by decide +kernel
  obtain ⟨a, d⟩ := g
  refine ⟨a.axisFl, by decide, ?_, ?_, by norm_num⟩
  · intro i hi _
    simp only [nums, hi, dif_pos]
    exact (d _).1
  · intro i hi
    have h1 : i < maxAxis := by unfold maxAxis; omega
    simp only [nums, h1, dif_pos]
    exact (d _).2

/-- In single precision: at every speed of at most 2^24 and every pressure, the default advance is within 1/4096 degree of the table. -/
example (r : BitVec 32) (p : ℚ) (hr : r.toNat ≤ 2 ^ 24) :
    ∃ a ρ, interp2 dfltTiming (Fl.ofU32 r) (fin p) = .ok (fin a) ∧
      OnSurface 16 16 (nums dfltTiming.cols.values) (nums dfltTiming.rows.values)
        (fun j i => if hj : j < maxAxis then nums (dfltTiming.data ⟨j, hj⟩) i else 0) r.toNat p ρ ∧ |a - ρ| ≤ 1 / 2 ^ 12 + 1 / 2 ^ 90 := by
  obtain ⟨a, ρ, h1, h2, h3⟩ := C105_surface dfltTiming_usable (r.toNat : ℚ) p
  refine ⟨a, ρ, ?_, h2, h3.trans (by norm_num)⟩
  have e : Fl.ofU32 r = fin (r.toNat : ℚ) := by
    unfold Fl.ofU32
    have := rnd_dyadic (r.toNat : ℤ) 0 (by rw [abs_of_nonneg (by positivity)]; exact_mod_cast hr) (by norm_num)
    simpa using this
  rw [e, h1]

/-- The default settings at 3300 revolutions per minute, with every sensor at 12. -/
def accDemo : Config :=
  { dfltConfig with
    decoder := { dfltConfig.decoder with rpm := 3300 }
    sensors := fun i => { dfltConfig.sensors i with value := fin 12 } }

/-- The hypotheses of the theorems on the advance and the dwell are met by it in single precision; 12 V is half way between two
breakpoints. -/
example : accDemo.timing = some dfltTiming ∧ accDemo.dwell = some dfltDwell ∧
    accDemo.ignition.dwell = .brv ∧ accDemo.decoder.rpm.toNat ≤ 2 ^ 24 ∧
    ∃ v', calculateIgnition accDemo zeroCalc = .ok v' ∧ v'.timingAdvance = fin 42 ∧ v'.dwellUs = 3250 := by
  have h : (match calculateIgnition accDemo zeroCalc with
    | .ok v' => decide (v'.timingAdvance = fin 42 ∧ v'.dwellUs = 3250)
    | .error _ => false) = true := by decide +kernel
  refine ⟨rfl, rfl, rfl, by decide +kernel, ?_⟩
  cases e : calculateIgnition accDemo zeroCalc with
  | error f => rw [e] at h; simp at h
  | ok v' => rw [e] at h; exact ⟨v', rfl, by simpa using h⟩

end

end Verif
