/-
C109: a filtered sensor settles at a steady reading.
-/
import Verif.Props.SensorAccuracy

namespace Verif
open Fl FloatFmt

/-- The full claim, kept in view: in single precision a steady good reading is reached after some number of readings.  It is false, see
`C109_full_false`. -/
def C109_full : Prop :=
  ∀ (lib : LibM) (s : Sensor) (a lo b hi lag fv M v q : ℚ) (x : Reading), Calibrated s a lo b hi lag fv M → s.value = fin v → |v| ≤ M →
    ¬ Faulty s x → x.raw = fin q → a ≤ q → q ≤ b →
    ∃ n s', @Converted binary32 lib 5000 s (List.replicate n x) s' ∧ s'.value = @convertLinear binary32 { s with rawValue := x.raw }

/-- In real numbers a steady reading is approached geometrically. -/
theorem ideal_steady {s : Sensor} {a lo b hi lag fv V ρ q X : ℚ} {x : Reading} {n : ℕ} (h : Ideal s a lo b hi lag fv V (List.replicate n x) ρ)
    (hx : ¬ Faulty s x) (hq : x.raw = fin q) (hab : a < b) (hX : OnLine a lo b hi q X) : ρ - X = (lag / 100) ^ n * (V - X) := by
  induction n generalizing V with
  | zero => cases h; ring
  | succ n ih =>
    rw [List.replicate_succ] at h
    cases h with
    | fault hf _ => exact absurd hf hx
    | @read V Y v W x xs h2 h3 h4 h5 =>
      have : v = q := by rw [h3] at hq; exact Fl.fin.inj hq
      subst this
      have e : Y = X := by
        unfold OnLine at hX h4
        have d : b - a ≠ 0 := by intro h; linarith
        have := mul_right_cancel₀ d (h4.trans hX.symm)
        linarith
      subst e
      rw [ih h5]
      ring

/-- C109: after `n` equal good readings the value is within `(lag/100)^n` of the first distance and the rounding of C107 of the reading, in
every float format.  (Missing for C109: that it comes to equal the reading.) -/
theorem C109_settles_partial [FloatFmt] [LibM] {rate : BitVec 32} {s s' : Sensor} {a lo b hi lag fv v q M : ℚ} {x : Reading} {n : ℕ}
    (hc : Calibrated s a lo b hi lag fv M) (hv : s.value = fin v) (hV : |v| ≤ M) (hx : ¬ Faulty s x) (hq : x.raw = fin q) (q1 : a ≤ q)
    (q2 : q ≤ b) (h : Converted rate s (List.replicate n x) s') :
    ∃ r X, s'.value = fin r ∧ OnLine a lo b hi q X ∧ |r - X| ≤ (lag / 100) ^ n * |v - X| + (M / 2 ^ 14 + 1 / 2 ^ 80) := by
  have hab : a < b := by
    have : (0 : ℚ) < b - a := lt_of_lt_of_le (by positivity) hc.gap
    linarith
  obtain ⟨r, ρ, h1, h2, h3⟩ := C107_history hc hv hV h (fun y hy => Or.inr (by
    rw [List.eq_of_mem_replicate hy]
    exact ⟨q, hq, q1, q2⟩))
  have hX : OnLine a lo b hi q ((q - a) / (b - a) * (hi - lo) + lo) := by
    unfold OnLine
    have : b - a ≠ 0 := by intro h; linarith
    field_simp
    ring
  refine ⟨r, _, h1, hX, ?_⟩
  obtain ⟨X, hXe⟩ : ∃ X, X = (q - a) / (b - a) * (hi - lo) + lo := ⟨_, rfl⟩
  rw [← hXe] at hX ⊢
  have e := ideal_steady h2 hx hq hab hX
  have l0 := hc.lag0
  have p : 0 ≤ (lag / 100) ^ n := by positivity
  have e2 : |ρ - X| = (lag / 100) ^ n * |v - X| := by rw [e, abs_mul, abs_of_nonneg p]
  have e3 : r - X = (r - ρ) + (ρ - X) := by ring
  rw [e3, ← e2]
  have := abs_add_le (r - ρ) (ρ - X)
  linarith

section
attribute [local instance] binary32 accLib

/-- A sensor of 0 to 400 over 0 V to 4 V with a lag of 99 per cent, a little below 100. -/
def stuckSensor : Sensor :=
  { accSensor with
    rangeMin := fin 0, rangeMax := fin 400, rawMin := fin 0, rawMax := fin 4, lag := fin 99, faultMin := fin 0
    faultMax := fin 5, rawValue := fin 1, value := fin (3276773 / 32768) }

/-- A reading of 100. -/
def stuckReading : Reading := ⟨.none, dfltDecoder, 0, fin 1, 0⟩

/-- The reading leaves the sensor as it is. -/
theorem stuck_step : sensorConvert 5000 stuckReading.d stuckReading.now { stuckSensor with fault := stuckReading.fault } stuckReading.raw
    stuckReading.t = .ok stuckSensor := by decide +kernel

theorem stuck_calibrated : Calibrated stuckSensor 0 0 4 400 99 100 400 := by
  constructor <;> first | rfl | decide +kernel

/-- Violation of C109: in single precision, however often the reading of 100 is repeated, the value stays below it, at 99.99918. -/
theorem C109_full_false : ¬ C109_full := by
  intro hf
  obtain ⟨n, s', h1, h2⟩ := hf accLib stuckSensor 0 0 4 400 99 100 400 (3276773 / 32768) 1 stuckReading stuck_calibrated rfl (by decide +kernel)
    (by unfold Faulty; decide +kernel) rfl (by norm_num) (by norm_num)
  have h3 : s' = stuckSensor := by
    clear h2
    induction n with
    | zero => cases h1; rfl
    | succ n ih =>
      rw [List.replicate_succ] at h1
      cases h1 with
      | cons a b =>
        rw [stuck_step] at a
        rw [← Except.ok.inj a] at b
        exact ih b
  subst h3
  exact absurd h2 (by decide +kernel)

/-- The hypotheses of the partial theorem are met by it, for every number of readings. -/
example (n : ℕ) : Calibrated stuckSensor 0 0 4 400 99 100 400 ∧ ¬ Faulty stuckSensor stuckReading ∧
    Converted 5000 stuckSensor (List.replicate n stuckReading) stuckSensor := by
  refine ⟨stuck_calibrated, by unfold Faulty; decide +kernel, ?_⟩
  induction n with
  | zero => exact .nil _
  | succ n ih => exact .cons stuck_step ih

end

end Verif
