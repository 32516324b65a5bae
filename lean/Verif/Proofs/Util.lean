import Verif.Proofs.Fl
import Verif.Model.Util
import Mathlib.Tactic.IntervalCases

namespace Verif
section
variable [FloatFmt]
open FloatFmt Fl

/-- The ticks-per-degree-at-1-rpm constant is a finite number close to 4000000/6. -/
theorem ratio_fin : ∃ ρ, tickDegreeRpmRatio = fin ρ ∧ 1 ≤ ρ ∧ ρ ≤ 2 ^ 20 ∧
    |ρ - 4000000 / 6| ≤ (4000000 / 6) / 2 ^ 24 := by
  have h1 : (Fl.ofNat tickrate : Fl) = fin 4000000 := by
    unfold Fl.ofNat tickrate
    have := rnd_nat 4000000 (by norm_num)
    simpa using this
  unfold tickDegreeRpmRatio
  rw [h1, fin_div _ _ (by norm_num)]
  obtain ⟨y, hy, he⟩ := rnd_rel (4000000 / 6) (by rw [abs_of_pos (by norm_num)]; norm_num)
    (by rw [abs_of_pos (by norm_num)]; norm_num)
  rw [abs_of_pos (by norm_num : (0 : ℚ) < 4000000 / 6)] at he
  refine ⟨y, hy, ?_, ?_, he⟩ <;> rw [abs_le] at he <;> norm_num at he ⊢ <;> linarith [he.1, he.2]

theorem clampDown_range {n : ℕ} {a r : Fl} {m : ℚ} (hm : 0 < m)
    (ha : a ≠ nan) (h0 : le (fin 0) a = true)
    (h : clampDown n a (fin m) = .ok r) : le (fin 0) r = true ∧ lt r (fin m) = true := by
  induction n generalizing a with
  | zero => simp [clampDown] at h
  | succ n ih =>
    simp only [clampDown] at h
    split at h
    · rename_i hle
      -- a ≥ m; if a is infinite the loop stays there
      rcases a with _ | s | q
      · exact absurd rfl ha
      · have : (inf s - fin m : Fl) = inf s := rfl
        rw [this] at h
        exact ih ha h0 h
      · rw [fin_sub] at h
        have hq : m ≤ q := by simpa using hle
        refine ih (rnd_ne_nan _) ?_ h
        exact le_rnd_of_le (by linarith) rnd_zero
    · rename_i hle
      injection h with h
      subst h
      exact ⟨h0, lt_of_not_le (by simp) ha (by simpa using hle)⟩

theorem clampUp_nonneg {n : ℕ} {a r : Fl} {m : ℚ}
    (ha : a ≠ nan)
    (h : clampUp n a (fin m) = .ok r) : le (fin 0) r = true ∧ r ≠ nan := by
  induction n generalizing a with
  | zero => simp [clampUp] at h
  | succ n ih =>
    simp only [clampUp] at h
    split at h
    · rcases a with _ | s | q
      · exact absurd rfl ha
      · exact ih (by simp [add_def, add]) h
      · rw [fin_add] at h
        exact ih (rnd_ne_nan _) h
    · rename_i hlt
      injection h with h
      subst h
      exact ⟨le_of_not_lt ha (by simp) (by simpa using hlt), ha⟩

theorem clampUp_id {n : ℕ} {a m : Fl} (h : lt a (fin 0) = false) :
    clampUp (n + 1) a m = .ok a := by
  simp [clampUp, h]

theorem clampDown_id {n : ℕ} {a m : Fl} (h : le m a = false) :
    clampDown (n + 1) a m = .ok a := by
  simp [clampDown, h]

omit [FloatFmt] in
theorem clampFuel_pos (a m : Fl) : ∃ k, clampFuel a m = k + 1 ∧ 2 ^ 24 + 10 ≤ k := by
  have : 2 ^ 33 ≤ clampFuel a m := by
    unfold clampFuel; split <;> omega
  exact ⟨clampFuel a m - 1, by omega, by omega⟩

theorem clampAngle_of_up {a r m : Fl} (h : clampUp (clampFuel a m) a m = .ok r) :
    clampAngle a m = clampDown (clampFuel r m) r m := by
  unfold clampAngle; rw [h]; rfl

theorem clampAngle_up_error {a m : Fl} {e : Fault} (h : clampUp (clampFuel a m) a m = .error e) :
    clampAngle a m = .error e := by
  unfold clampAngle; rw [h]; rfl

/-- an angle already in range is returned unchanged -/
theorem clampAngle_id {a m : Fl} (h0 : lt a (fin 0) = false) (h1 : le m a = false) :
    clampAngle a m = .ok a := by
  unfold clampAngle
  obtain ⟨k, hk, _⟩ := clampFuel_pos a m
  rw [hk, clampUp_id h0]
  show clampDown (clampFuel a m) a m = _
  rw [hk, clampDown_id h1]

/-- the first loop terminates when the angle is at least `-k`, `k` an integer up to 2^24 -/
theorem clampUp_terminates {q m : ℚ} (hm : 1 ≤ m) (hmr : rnd m = fin m) {k n : ℕ}
    (hk : k ≤ 2 ^ 24) (hq : -(k : ℚ) ≤ q) (hn : k < n) :
    ∃ r, clampUp n (fin q) (fin m) = .ok (fin r) ∧ 0 ≤ r ∧ (r = q ∨ r ≤ m) := by
  induction n generalizing q k with
  | zero => omega
  | succ n ih =>
    simp only [clampUp]
    split
    · rename_i hlt
      have hq0 : q < 0 := by simpa using hlt
      have hk1 : 1 ≤ k := by
        by_contra hk0
        have : k = 0 := by omega
        subst this
        simp at hq; linarith
      have hrep : rnd (((-(k : ℤ) + 1 : ℤ)) : ℚ) = fin ((-(k : ℤ) + 1 : ℤ) : ℚ) := by
        apply rnd_int
        rw [abs_le]; constructor <;> omega
      obtain ⟨y, hy, hy1, hy2⟩ := rnd_between (a := ((-(k : ℤ) + 1 : ℤ) : ℚ)) (x := q + m) (b := m)
        (by push_cast; linarith) (by linarith) hrep hmr
      rw [fin_add, hy]
      obtain ⟨r, hr, hr0, hr1⟩ := ih (q := y) (k := k - 1) (by omega)
        (by rw [Nat.cast_sub hk1]; push_cast at hy1 ⊢; linarith) (by omega)
      refine ⟨r, hr, hr0, Or.inr ?_⟩
      rcases hr1 with h | h
      · rw [h]; exact hy2
      · exact h
    · rename_i hlt
      exact ⟨q, rfl, by simpa using hlt, Or.inl rfl⟩

/-- the second loop terminates when the angle is at most `k`, `k` an integer up to 2^24 -/
theorem clampDown_terminates {q m : ℚ} (hm : 1 ≤ m) {k n : ℕ}
    (hk : k ≤ 2 ^ 24) (h0 : 0 ≤ q) (hq : q ≤ k) (hn : k < n) :
    ∃ r, clampDown n (fin q) (fin m) = .ok (fin r) := by
  induction n generalizing q k with
  | zero => omega
  | succ n ih =>
    simp only [clampDown]
    split
    · rename_i hle
      have hqm : m ≤ q := by simpa using hle
      have hk1 : 1 ≤ k := by
        by_contra hk0
        have : k = 0 := by omega
        subst this
        simp at hq; linarith
      have hrep : rnd (((k - 1 : ℕ)) : ℚ) = fin ((k - 1 : ℕ) : ℚ) := rnd_nat _ (by omega)
      obtain ⟨y, hy, hy1, hy2⟩ := rnd_between (a := 0) (x := q - m) (b := ((k - 1 : ℕ) : ℚ))
        (by linarith) (by rw [Nat.cast_sub hk1]; push_cast; linarith) rnd_zero hrep
      rw [fin_sub, hy]
      exact ih (by omega) hy1 hy2 (by omega)
    · exact ⟨q, rfl⟩

theorem clampAngle_terminates {q m : ℚ} (hm : 1 ≤ m) (hmr : rnd m = fin m)
    (hq : |q| ≤ 2 ^ 24) : ∃ r, clampAngle (fin q) (fin m) = .ok (fin r) := by
  rw [abs_le] at hq
  obtain ⟨k1, hk1, hk1'⟩ := clampFuel_pos (fin q) (fin m)
  obtain ⟨r, hr, hr0, hr1⟩ := clampUp_terminates hm hmr (k := 2 ^ 24) (n := clampFuel (fin q) (fin m))
    (le_refl _) (by push_cast; linarith [hq.1]) (by omega)
  unfold clampAngle
  rw [hr]
  show ∃ r', clampDown (clampFuel (fin r) (fin m)) (fin r) (fin m) = .ok (fin r')
  obtain ⟨k2, hk2, hk2'⟩ := clampFuel_pos (fin r) (fin m)
  rcases hr1 with h | h
  · subst h
    exact clampDown_terminates hm (k := 2 ^ 24) (le_refl _) hr0 (by push_cast; linarith [hq.2]) (by omega)
  · rcases lt_or_eq_of_le h with h | h
    · rw [hk2, clampDown_id (by simpa using h)]
      exact ⟨r, rfl⟩
    · subst h
      have : (fin r - fin r : Fl) = fin 0 := by simp
      rw [hk2, clampDown, if_pos (by simp), this]
      obtain ⟨k3, rfl⟩ : ∃ k3, k2 = k3 + 1 := ⟨k2 - 1, by omega⟩
      rw [clampDown_id (by simp; linarith)]
      exact ⟨0, rfl⟩

end

/-! ### Exact arithmetic -/

theorem exact_add (a b : ℚ) : @HAdd.hAdd Fl Fl Fl (@instHAdd Fl (@Fl.instAdd exactFmt)) (Fl.fin a) (Fl.fin b) = Fl.fin (a + b) := rfl
theorem exact_sub (a b : ℚ) : @HSub.hSub Fl Fl Fl (@instHSub Fl (@Fl.instSub exactFmt)) (Fl.fin a) (Fl.fin b) = Fl.fin (a - b) :=
  @Fl.fin_sub exactFmt a b

theorem exact_clampUp {q m : ℚ} (hm : 0 < m) {k n : ℕ} (hq : -(k : ℚ) * m ≤ q) (hn : k < n) :
    ∃ j : ℕ, @clampUp exactFmt n (Fl.fin q) (Fl.fin m) = .ok (Fl.fin (q + j * m)) ∧ 0 ≤ q + j * m := by
  induction n generalizing q k with
  | zero => omega
  | succ n ih =>
    simp only [clampUp]
    split
    · rename_i hlt
      have hq0 : q < 0 := by simpa using hlt
      have hk1 : 1 ≤ k := by
        by_contra hk0
        have : k = 0 := by omega
        subst this
        simp at hq; linarith
      rw [exact_add]
      obtain ⟨j, hj, hj0⟩ := ih (q := q + m) (k := k - 1)
        (by rw [Nat.cast_sub hk1]; push_cast; linarith) (by omega)
      refine ⟨j + 1, ?_, ?_⟩
      · rw [hj]; congr 2; push_cast; ring
      · push_cast; linarith
    · rename_i hlt
      exact ⟨0, by simp, by simpa using hlt⟩

theorem exact_clampDown {q m : ℚ} (hm : 0 < m) {k n : ℕ} (h0 : 0 ≤ q) (hq : q ≤ k * m) (hn : k < n) :
    ∃ j : ℕ, @clampDown exactFmt n (Fl.fin q) (Fl.fin m) = .ok (Fl.fin (q - j * m)) := by
  induction n generalizing q k with
  | zero => omega
  | succ n ih =>
    simp only [clampDown]
    split
    · rename_i hle
      have hqm : m ≤ q := by simpa using hle
      have hk1 : 1 ≤ k := by
        by_contra hk0
        have : k = 0 := by omega
        subst this
        simp at hq; linarith
      rw [exact_sub]
      obtain ⟨j, hj⟩ := ih (q := q - m) (k := k - 1) (by linarith)
        (by rw [Nat.cast_sub hk1]; push_cast; linarith) (by omega)
      exact ⟨j + 1, by rw [hj]; congr 2; push_cast; ring⟩
    · exact ⟨0, by simp⟩

theorem ceil_turns (q m : ℚ) (hm : 0 < m) : |q| ≤ (⌈|q| / |m|⌉.toNat : ℚ) * m := by
  rw [abs_of_pos hm]
  have h1 : |q| / m ≤ (⌈|q| / m⌉ : ℚ) := Int.le_ceil _
  have h2 : (⌈|q| / m⌉ : ℚ) ≤ ((⌈|q| / m⌉.toNat : ℤ) : ℚ) := by exact_mod_cast Int.self_le_toNat _
  rw [div_le_iff₀ hm] at h1
  have := mul_le_mul_of_nonneg_right h2 hm.le
  push_cast at this
  linarith

theorem exact_clampAngle {q m : ℚ} (hm : 0 < m) :
    ∃ r : ℚ, ∃ k : ℤ, @clampAngle exactFmt (Fl.fin q) (Fl.fin m) = .ok (Fl.fin r) ∧
      r = q + k * m ∧ 0 ≤ r ∧ r < m := by
  have hc := ceil_turns q m hm
  obtain ⟨j, hj, hj0⟩ := exact_clampUp hm (q := q) (k := ⌈|q| / |m|⌉.toNat)
    (n := clampFuel (Fl.fin q) (Fl.fin m))
    (by have := neg_abs_le q; linarith) (by simp [clampFuel])
  set a := q + j * m with ha
  have hc2 := ceil_turns a m hm
  obtain ⟨i, hi⟩ := exact_clampDown hm hj0 (k := ⌈|a| / |m|⌉.toNat)
    (n := clampFuel (Fl.fin a) (Fl.fin m))
    (by have := le_abs_self a; linarith) (by simp [clampFuel])
  have hres : @clampAngle exactFmt (Fl.fin q) (Fl.fin m) = .ok (Fl.fin (a - i * m)) := by
    unfold clampAngle
    rw [hj]
    exact hi
  have hrange := @clampDown_range exactFmt _ (Fl.fin a) _ m hm (by simp) (by simpa using hj0) hi
  refine ⟨a - i * m, (j : ℤ) - i, hres, by rw [ha]; push_cast; ring, ?_, ?_⟩
  · simpa using hrange.1
  · simpa using hrange.2

end Verif
