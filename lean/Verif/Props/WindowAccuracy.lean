/-
C110: rounding of the mean of a windowed sensor.
-/
import Verif.Props.SensorAccuracy

namespace Verif
open Fl FloatFmt

/-- The firmware converts raw readings of a windowed sensor with the engine turning, at any angles, no window holding more than 4096 readings;
`w` is the window's state. -/
inductive WinRun [FloatFmt] (s : Sensor) : Window → List ℚ → Window → Prop
  | nil (w) : WinRun s w [] w
  | snoc {w w1 w2 : Window} {qs : List ℚ} {q : ℚ} {rpm : BitVec 32} {angle old v : Fl} : WinRun s w qs w1 → rpm ≠ 0 →
    (w1.collecting = true → w1.samples.toNat ≤ 4095) →
    convertWindowed rpm { s with rawValue := fin q, value := old, window := w1 } angle = .ok (w2, v) → WinRun s w (qs ++ [q]) w2

/-- One more sample in the sum. -/
theorem acc_step [FloatFmt] {k acc S x X M ε : ℚ} (hM : M ≤ 2 ^ 60) (k1 : k ≤ 4095) (hε : ε = M / 2 ^ 11 + 1 / 2 ^ 80)
    (hS : |S| ≤ k * M) (hX : |X| ≤ M) (ha : |acc - S| ≤ k * ε) (hx : |x - X| ≤ M / 2 ^ 20 + 1 / 2 ^ 90) :
    ∃ acc', (fin acc + fin x : Fl) = fin acc' ∧ |acc' - (S + X)| ≤ (k + 1) * ε ∧ |S + X| ≤ (k + 1) * M := by
  have M0 : 0 ≤ M := (abs_nonneg _).trans hX
  have hM' : M ≤ 1152921504606846976 := hM.trans (by norm_num)
  have ε0 : 0 ≤ ε := by rw [hε]; positivity
  have kM : k * M ≤ 4095 * M := mul_le_mul_of_nonneg_right k1 M0
  have kε : k * ε ≤ 4095 * ε := mul_le_mul_of_nonneg_right k1 ε0
  have hSX : |S + X| ≤ (k + 1) * M := by
    have := abs_add_le S X
    linarith
  have h1 : |acc + x - (S + X)| ≤ k * ε + (M / 2 ^ 20 + 1 / 2 ^ 90) := by
    have e : acc + x - (S + X) = (acc - S) + (x - X) := by ring
    rw [e]
    exact (abs_add_le _ _).trans (add_le_add ha hx)
  have h2 : |acc + x| ≤ 4096 * M + 4095 * ε + (M / 2 ^ 20 + 1 / 2 ^ 90) := by
    have := abs_add_le (acc + x - (S + X)) (S + X)
    rw [sub_add_cancel] at this
    linarith
  obtain ⟨y, hy, y1⟩ := rnd_near (q := acc + x) (h2.trans (by rw [hε]; norm_num; linarith))
  refine ⟨y, by rw [fin_add, hy], ?_, hSX⟩
  have h3 : |acc + x| / 2 ^ 24 ≤ (4096 * M + 4095 * ε + (M / 2 ^ 20 + 1 / 2 ^ 90)) / 2 ^ 24 := by gcongr
  have e : y - (S + X) = (y - (acc + x)) + (acc + x - (S + X)) := by ring
  rw [e]
  refine (abs_add_le _ _).trans ?_
  have hb : |acc + x| / 2 ^ 24 + 1 / 2 ^ 98 + (M / 2 ^ 20 + 1 / 2 ^ 90) ≤ ε := by
    refine le_trans (add_le_add (add_le_add h3 le_rfl) le_rfl) ?_
    rw [hε]
    norm_num
    linarith
  linarith

/-- What an open window holds: the sum of the last `k` readings. -/
def Holds110 (w : Window) (a lo b hi M : ℚ) (qs : List ℚ) : Prop :=
  w.collecting = true → ∃ k, 0 < k ∧ k ≤ qs.length ∧ k ≤ 4096 ∧ w.samples = BitVec.ofNat 32 k ∧
    ∃ Xs : List ℚ, List.Forall₂ (OnLine a lo b hi) (qs.drop (qs.length - k)) Xs ∧ |Xs.sum| ≤ k * M ∧
      ∃ acc, w.accumulator = fin acc ∧ |acc - Xs.sum| ≤ k * (M / 2 ^ 11 + 1 / 2 ^ 80)

/-- A linear conversion with the numbers of a sensor. -/
structure Spanned (s : Sensor) (a lo b hi M : ℚ) : Prop where
  rawMin : s.rawMin = fin a
  rawMax : s.rawMax = fin b
  rangeMin : s.rangeMin = fin lo
  rangeMax : s.rangeMax = fin hi
  aSize : |a| ≤ 2 ^ 60
  bSize : |b| ≤ 2 ^ 60
  gap : (2 : ℚ) ^ (-64 : ℤ) ≤ b - a
  size : M ≤ 2 ^ 60
  loSize : |lo| ≤ M
  hiSize : |hi| ≤ M

/-- Accumulating into an open window, or opening one. -/
theorem accumulate_holds [FloatFmt] {s : Sensor} {a lo b hi M : ℚ} (hs : Spanned s a lo b hi M) {qs : List ℚ} {q : ℚ} {w : Window} {old angle : Fl}
    {w0 : Window} (hw : Holds110 w a lo b hi M qs) (hk : w.collecting = true → w.samples.toNat ≤ 4095) (q1 : a ≤ q) (q2 : q ≤ b) :
    Holds110 (windowAccumulate { s with rawValue := fin q, value := old, window := w0 } w angle) a lo b hi M (qs ++ [q]) := by
  obtain ⟨x, X, hx, hX, X1, hxX⟩ := C107_linear { s with rawValue := fin q, value := old, window := w0 } a b lo hi q M hs.rawMin hs.rawMax
    hs.rangeMin hs.rangeMax rfl hs.aSize hs.bSize hs.gap q1 q2 hs.size hs.loSize hs.hiSize
  intro _
  unfold windowAccumulate
  by_cases hc : w.collecting = true
  · obtain ⟨k, k0, k1, kb, k2, Xs, h1, h2, acc, h3, h4⟩ := hw hc
    have kn := hk hc
    rw [k2, BitVec.toNat_ofNat, Nat.mod_eq_of_lt (by omega)] at kn
    have kq : (k : ℚ) ≤ 4095 := by exact_mod_cast kn
    obtain ⟨acc', e, h5, h6⟩ := acc_step hs.size kq rfl h2 X1 h4 hxX
    refine ⟨k + 1, by omega, by simp; omega, by omega, ?_, Xs ++ [X], ?_, ?_, acc', ?_, ?_⟩
    · simp only [hc, if_true, k2]
      rw [BitVec.ofNat_add]; rfl
    · have e : (qs ++ [q]).length - (k + 1) = qs.length - k := by simp
      rw [e, List.drop_append_of_le_length (by omega)]
      exact List.rel_append h1 (.cons hX .nil)
    · rw [List.sum_append]; push_cast; simpa using h6
    · simp only [hc, if_true, h3, hx, e]
    · rw [List.sum_append]; push_cast; simpa using h5
  · obtain ⟨acc', e, h5, h6⟩ := acc_step (k := 0) (S := 0) (acc := 0) hs.size (by norm_num) rfl (by simp) X1 (by simp) hxX
    refine ⟨1, by omega, by simp, by omega, ?_, [X], ?_, ?_, acc', ?_, ?_⟩
    · simp only [hc]; rfl
    · have e : (qs ++ [q]).length - 1 = qs.length := by simp
      rw [e, List.drop_append_of_le_length le_rfl, List.drop_length]
      exact .cons hX .nil
    · simpa using h6
    · simp only [hc, hx]
      exact e
    · simpa using h5

/-- One conversion: what it returns and what the window holds after it. -/
theorem windowed_step [FloatFmt] {s : Sensor} {a lo b hi M : ℚ} (hs : Spanned s a lo b hi M) {qs : List ℚ} {q : ℚ} {w w' : Window}
    {rpm : BitVec 32} {old angle v : Fl} (hw : Holds110 w a lo b hi M qs) (hk : w.collecting = true → w.samples.toNat ≤ 4095) (q1 : a ≤ q) (q2 : q ≤ b)
    (hrpm : rpm ≠ 0) (h : convertWindowed rpm { s with rawValue := fin q, value := old, window := w } angle = .ok (w', v)) :
    Holds110 w' a lo b hi M (qs ++ [q]) ∧ (v = old ∨ w.collecting = true ∧ v = w.accumulator / Fl.ofU32 w.samples) := by
  unfold convertWindowed at h
  rw [if_neg hrpm] at h
  obtain ⟨inside, h1, h⟩ := bind_eq_ok.mp h
  obtain ⟨over, h2, h⟩ := bind_eq_ok.mp h
  unfold windowClose at h
  simp only at h h2
  by_cases hc : (over && w.collecting && decide (w.samples ≠ 0)) = true
  · rw [if_pos hc] at h
    have hcol : w.collecting = true := by
      simp only [Bool.and_eq_true] at hc
      exact hc.1.2
    cases inside with
    | true =>
      simp only [if_true] at h
      cases h
      exact ⟨accumulate_holds hs (fun h => by simp at h) (fun h => by simp at h) q1 q2, Or.inr ⟨hcol, rfl⟩⟩
    | false =>
      simp only at h
      cases h
      exact ⟨fun h => by simp at h, Or.inr ⟨hcol, rfl⟩⟩
  · rw [if_neg hc] at h
    cases inside with
    | true =>
      simp only [if_true] at h
      cases h
      exact ⟨accumulate_holds hs hw hk q1 q2, Or.inl rfl⟩
    | false =>
      simp only at h
      cases h
      unfold windowOver at h2
      simp only [Bool.false_eq_true, if_false] at h2
      cases h2
      refine ⟨fun hcol => ?_, Or.inl rfl⟩
      obtain ⟨k, k0, k1, kb, k2, -⟩ := hw hcol
      refine absurd ?_ hc
      simp only [hcol, Bool.true_and, decide_eq_true_iff, k2]
      intro h0
      have := congrArg BitVec.toNat h0
      rw [BitVec.toNat_ofNat, Nat.mod_eq_of_lt (by omega)] at this
      simp at this
      omega

theorem winRun_holds [FloatFmt] {s : Sensor} {a lo b hi M : ℚ} (hs : Spanned s a lo b hi M) {qs : List ℚ} {w0 w : Window} (h : WinRun s w0 qs w)
    (h0 : w0.collecting = false) (hq : ∀ q ∈ qs, a ≤ q ∧ q ≤ b) : Holds110 w a lo b hi M qs := by
  induction h with
  | nil => intro hc; rw [h0] at hc; cases hc
  | @snoc w1 w2 qs q rpm angle old v h1 h2 h3 h4 ih =>
    obtain ⟨p1, p2⟩ := hq q (by simp)
    exact (windowed_step hs (ih (fun y hy => hq y (by simp [hy]))) h3 p1 p2 h2 h4).1

/-- C110: with the engine turning, each reading of a windowed sensor either leaves the value as it was or makes it the mean of the last `k`
readings before it, up to 2^-10 of the range, in every float format. -/
theorem C110_mean [FloatFmt] {s : Sensor} {a lo b hi M : ℚ} (hs : Spanned s a lo b hi M) {qs : List ℚ} {q : ℚ} {w0 w w' : Window} {rpm : BitVec 32}
    {old angle v : Fl} (h : WinRun s w0 qs w) (h0 : w0.collecting = false) (hk : w.collecting = true → w.samples.toNat ≤ 4095)
    (hq : ∀ y ∈ qs, a ≤ y ∧ y ≤ b)
    (q1 : a ≤ q) (q2 : q ≤ b) (hrpm : rpm ≠ 0)
    (hv : convertWindowed rpm { s with rawValue := fin q, value := old, window := w } angle = .ok (w', v)) :
    v = old ∨ ∃ k Xs r, 0 < k ∧ k ≤ qs.length ∧ List.Forall₂ (OnLine a lo b hi) (qs.drop (qs.length - k)) Xs ∧ v = fin r ∧
      |r - Xs.sum / k| ≤ M / 2 ^ 10 + 1 / 2 ^ 79 := by
  have hw := winRun_holds hs h h0 hq
  rcases (windowed_step hs hw hk q1 q2 hrpm hv).2 with e | ⟨hc, e⟩
  · exact Or.inl e
  right
  obtain ⟨k, k0, k1, kb, k2, Xs, h1, h2, acc, h3, h4⟩ := hw hc
  have M0 : 0 ≤ M := (abs_nonneg _).trans hs.loSize
  have hM' : M ≤ 1152921504606846976 := hs.size.trans (by norm_num)
  have kq : (0 : ℚ) < k := by exact_mod_cast k0
  have ek : Fl.ofU32 w.samples = fin (k : ℚ) := by
    unfold Fl.ofU32
    rw [k2, BitVec.toNat_ofNat, Nat.mod_eq_of_lt (by omega)]
    exact rnd_nat k (by omega)
  have d1 : |acc / k - Xs.sum / k| ≤ M / 2 ^ 11 + 1 / 2 ^ 80 := by
    rw [← sub_div, abs_div, abs_of_pos kq, div_le_iff₀ kq]
    linarith
  have d2 : |Xs.sum / k| ≤ M := by
    rw [abs_div, abs_of_pos kq, div_le_iff₀ kq]
    linarith
  have d3 : |acc / k| ≤ M + (M / 2 ^ 11 + 1 / 2 ^ 80) := by
    have := abs_add_le (acc / k - Xs.sum / k) (Xs.sum / k)
    rw [sub_add_cancel] at this
    linarith
  obtain ⟨r, hr, r1⟩ := rnd_near (q := acc / k) (d3.trans (by norm_num; linarith))
  refine ⟨k, Xs, r, k0, k1, h1, ?_, ?_⟩
  · rw [e, h3, ek, fin_div _ _ kq.ne', hr]
  · have e : r - Xs.sum / k = (r - acc / k) + (acc / k - Xs.sum / k) := by ring
    rw [e]
    refine (abs_add_le _ _).trans ?_
    have : |acc / k| / 2 ^ 24 ≤ (M + (M / 2 ^ 11 + 1 / 2 ^ 80)) / 2 ^ 24 := by gcongr
    norm_num at this r1 d1 ⊢
    linarith

section
attribute [local instance] binary32

/-- A pressure sensor read over the first 90 of every 180 degrees. -/
def winAccSensor : Sensor :=
  { accSensor with
    method := .linearWindowed
    window := { captureWidth := 90, totalWidth := 180, offset := 0, accumulator := fin 0, samples := 0, collecting := false, startAngle := fin 0 } }

/-- The window after one and after two readings inside it. -/
def winAcc1 : Window := { winAccSensor.window with collecting := true, accumulator := fin 90, samples := 1, startAngle := fin 190 }
def winAcc2 : Window := { winAcc1 with accumulator := fin (755 / 4), samples := 2 }

/-- The hypotheses are met: the readings at 190 and 230 degrees are averaged at 275 degrees. -/
example : Spanned winAccSensor (1 / 2) 20 (9 / 2) 300 300 ∧ WinRun winAccSensor winAccSensor.window [3 / 2, 13 / 8] winAcc2 ∧
    winAccSensor.window.collecting = false ∧
    convertWindowed 3000 { winAccSensor with rawValue := fin 2, value := fin 100, window := winAcc2 } (fin 275) =
      .ok ({ winAcc2 with collecting := false }, fin (755 / 8)) := by
  refine ⟨?_, ?_, rfl, by decide +kernel⟩
  · constructor <;> first | rfl | decide +kernel
  · have h1 : convertWindowed 3000 { winAccSensor with rawValue := fin (3 / 2), value := fin 100, window := winAccSensor.window } (fin 190) =
        .ok (winAcc1, fin 100) := by decide +kernel
    have h2 : convertWindowed 3000 { winAccSensor with rawValue := fin (13 / 8), value := fin 100, window := winAcc1 } (fin 230) =
        .ok (winAcc2, fin 100) := by decide +kernel
    exact .snoc (qs := [3 / 2]) (.snoc (qs := []) (.nil _) (by decide) (by decide) h1) (by decide) (by decide) h2

end

end Verif
