/-
IEEE-754 binary32 rounding (round to nearest, ties to even, gradual underflow, overflow to
infinity) as an instance of `FloatFmt`.  Everything here computes in the kernel.
-/
import Verif.Base.Fl
import Mathlib.Algebra.Order.Floor.Ring
import Mathlib.Algebra.Order.Field.Power
import Mathlib.Tactic.FieldSimp
import Mathlib.Tactic.Positivity

namespace Verif

/-- Round to the nearest integer, ties to even. -/
def rhe (q : ℚ) : ℤ :=
  let f := ⌊q⌋
  if q - f < 1 / 2 then f else if 1 / 2 < q - f then f + 1 else if f % 2 = 0 then f else f + 1

theorem rhe_ge_floor (q : ℚ) : ⌊q⌋ ≤ rhe q := by
  unfold rhe; dsimp only; split_ifs <;> omega

theorem rhe_le_floor_succ (q : ℚ) : rhe q ≤ ⌊q⌋ + 1 := by
  unfold rhe; dsimp only; split_ifs <;> omega

theorem rhe_int (n : ℤ) : rhe (n : ℚ) = n := by
  unfold rhe; simp

theorem rhe_mono {a b : ℚ} (h : a ≤ b) : rhe a ≤ rhe b := by
  have hf : ⌊a⌋ ≤ ⌊b⌋ := Int.floor_le_floor h
  rcases lt_or_eq_of_le hf with h1 | h1
  · exact (rhe_le_floor_succ a).trans ((by omega : ⌊a⌋ + 1 ≤ ⌊b⌋).trans (rhe_ge_floor b))
  · unfold rhe
    dsimp only
    rw [← h1]
    split_ifs <;> first | omega | linarith

theorem rhe_close (q : ℚ) : |(rhe q : ℚ) - q| ≤ 1 / 2 := by
  have h1 := Int.floor_le q
  have h2 := Int.lt_floor_add_one q
  unfold rhe; dsimp only
  rw [abs_le]
  split_ifs <;> push_cast <;> constructor <;> linarith

theorem rhe_neg (q : ℚ) : rhe (-q) = - rhe q := by
  by_cases hq : (⌊q⌋ : ℚ) = q
  · rw [← hq, ← Int.cast_neg, rhe_int, rhe_int]
  · have hlt : (⌊q⌋ : ℚ) < q := lt_of_le_of_ne (Int.floor_le q) hq
    have hfl : ⌊-q⌋ = -⌊q⌋ - 1 := by
      rw [Int.floor_eq_iff]
      have h2 := Int.lt_floor_add_one q
      push_cast
      constructor <;> linarith
    unfold rhe
    dsimp only
    rw [hfl]
    push_cast
    split_ifs <;> first | omega | linarith

/-- 2^e for an integer exponent. -/
def pow2 (e : ℤ) : ℚ := if 0 ≤ e then ((2 ^ e.toNat : ℕ) : ℚ) else 1 / ((2 ^ (-e).toNat : ℕ) : ℚ)

theorem pow2_eq (e : ℤ) : pow2 e = (2 : ℚ) ^ e := by
  unfold pow2
  split_ifs with h
  · obtain ⟨n, rfl⟩ := Int.eq_ofNat_of_zero_le h
    simp
  · obtain ⟨n, hn⟩ := Int.eq_ofNat_of_zero_le (by omega : (0 : ℤ) ≤ -e)
    have : e = -(n : ℤ) := by omega
    subst this
    simp

theorem pow2_pos (e : ℤ) : 0 < pow2 e := by rw [pow2_eq]; positivity

theorem pow2_add (a b : ℤ) : pow2 (a + b) = pow2 a * pow2 b := by
  simp only [pow2_eq]; exact zpow_add₀ (by norm_num) a b

theorem pow2_le {a b : ℤ} (h : a ≤ b) : pow2 a ≤ pow2 b := by
  simp only [pow2_eq]; exact zpow_le_zpow_right₀ (by norm_num) h

theorem pow2_lt {a b : ℤ} (h : a < b) : pow2 a < pow2 b := by
  simp only [pow2_eq]; exact zpow_lt_zpow_right₀ (by norm_num) h

theorem pow2_succ (a : ℤ) : pow2 (a + 1) = 2 * pow2 a := by
  rw [pow2_add, show pow2 1 = 2 by rw [pow2_eq]; norm_num]; ring

theorem pow2_nat (n : ℕ) : pow2 n = ((2 ^ n : ℕ) : ℚ) := by simp [pow2]

theorem pow2_23 : pow2 23 = ((2 ^ 23 : ℤ) : ℚ) := by rw [pow2_eq]; norm_num
theorem pow2_24 : pow2 24 = ((2 ^ 24 : ℤ) : ℚ) := by rw [pow2_eq]; norm_num
theorem pow2_128 : pow2 128 = ((2 ^ 128 : ℤ) : ℚ) := by rw [pow2_eq]; norm_num

/-- ⌊log2 |q|⌋ for `q ≠ 0`. -/
def ilog (q : ℚ) : ℤ :=
  let e : ℤ := (Nat.log2 q.num.natAbs : ℤ) - (Nat.log2 q.den : ℤ)
  if pow2 e ≤ |q| then e else e - 1

theorem nat_log2_le {n : ℕ} (h : n ≠ 0) : pow2 (Nat.log2 n) ≤ n := by
  rw [pow2_nat]; exact_mod_cast Nat.log2_self_le h

theorem nat_lt_log2 (n : ℕ) : (n : ℚ) < pow2 ((Nat.log2 n : ℤ) + 1) := by
  have := @Nat.lt_log2_self n
  rw [show ((Nat.log2 n : ℤ) + 1) = ((Nat.log2 n + 1 : ℕ) : ℤ) by push_cast; ring, pow2_nat]
  exact_mod_cast this

theorem abs_eq_natAbs_div (q : ℚ) : |q| = (q.num.natAbs : ℚ) / (q.den : ℚ) := by
  conv_lhs => rw [← Rat.num_div_den q]
  rw [abs_div, Nat.abs_cast, Nat.cast_natAbs, Int.cast_abs]

theorem ilog_spec {q : ℚ} (hq : q ≠ 0) : pow2 (ilog q) ≤ |q| ∧ |q| < pow2 (ilog q + 1) := by
  have hn : q.num.natAbs ≠ 0 := by simpa using hq
  have hd : q.den ≠ 0 := q.den_nz
  have hdpos : (0 : ℚ) < q.den := by exact_mod_cast Nat.pos_of_ne_zero hd
  have n1 := nat_log2_le hn
  have n2 := nat_lt_log2 q.num.natAbs
  have d1 := nat_log2_le hd
  have d2 := nat_lt_log2 q.den
  set a : ℤ := (Nat.log2 q.num.natAbs : ℤ)
  set b : ℤ := (Nat.log2 q.den : ℤ)
  have up : |q| < pow2 (a - b + 1) := by
    rw [abs_eq_natAbs_div, div_lt_iff₀ hdpos]
    calc (q.num.natAbs : ℚ) < pow2 (a + 1) := n2
      _ = pow2 (a - b + 1) * pow2 b := by rw [← pow2_add]; congr 1; ring
      _ ≤ pow2 (a - b + 1) * q.den := by
          exact mul_le_mul_of_nonneg_left d1 (pow2_pos _).le
  have lo : pow2 (a - b - 1) ≤ |q| := by
    rw [abs_eq_natAbs_div, le_div_iff₀ hdpos]
    calc pow2 (a - b - 1) * q.den ≤ pow2 (a - b - 1) * pow2 (b + 1) :=
          mul_le_mul_of_nonneg_left d2.le (pow2_pos _).le
      _ = pow2 a := by rw [← pow2_add]; congr 1; ring
      _ ≤ q.num.natAbs := n1
  unfold ilog
  dsimp only
  split_ifs with h
  · exact ⟨h, up⟩
  · refine ⟨lo, ?_⟩
    rw [show a - b - 1 + 1 = a - b by ring]
    exact not_le.mp h

theorem ilog_unique {q : ℚ} {e : ℤ} (h1 : pow2 e ≤ |q|) (h2 : |q| < pow2 (e + 1)) : ilog q = e := by
  have hq : q ≠ 0 := by
    rintro rfl
    have := pow2_pos e
    simp at h1
    linarith
  obtain ⟨s1, s2⟩ := ilog_spec hq
  rcases lt_trichotomy (ilog q) e with h | h | h
  · have := pow2_le (show ilog q + 1 ≤ e by omega)
    linarith
  · exact h
  · have := pow2_le (show e + 1 ≤ ilog q by omega)
    linarith

theorem ilog_neg (q : ℚ) : ilog (-q) = ilog q := by
  simp [ilog]

theorem ilog_mono {a b : ℚ} (ha : a ≠ 0) (h : |a| ≤ |b|) : ilog a ≤ ilog b := by
  have hb : b ≠ 0 := by
    rintro rfl; simp at h; exact ha h
  by_contra hlt
  obtain ⟨s1, _⟩ := ilog_spec ha
  obtain ⟨_, t2⟩ := ilog_spec hb
  have := pow2_le (show ilog b + 1 ≤ ilog a by omega)
  linarith

/-- Exponent of the unit in the last place used when rounding `q` to binary32. -/
def ulpExp (q : ℚ) : ℤ := max (ilog q) (-126) - 23

/-- Rounding to a 24-bit significand with minimum exponent -126, before the overflow check. -/
def rnd32Q (q : ℚ) : ℚ :=
  if q = 0 then 0 else (rhe (q / pow2 (ulpExp q)) : ℚ) * pow2 (ulpExp q)

/-- binary32 rounding: infinity when the rounded magnitude reaches 2^128. -/
def rnd32 (q : ℚ) : Fl :=
  if |rnd32Q q| < pow2 128 then Fl.fin (rnd32Q q) else Fl.inf (decide (q < 0))

theorem rnd32Q_neg (q : ℚ) : rnd32Q (-q) = - rnd32Q q := by
  unfold rnd32Q
  by_cases h : q = 0
  · simp [h]
  · simp only [neg_eq_zero, h, if_false]
    rw [show ulpExp (-q) = ulpExp q by simp [ulpExp, ilog_neg], neg_div, rhe_neg]
    push_cast; ring

theorem rnd32_neg (q : ℚ) : rnd32 (-q) = Fl.neg (rnd32 q) := by
  unfold rnd32
  rw [rnd32Q_neg, abs_neg]
  split_ifs with h
  · rfl
  · have hq : q ≠ 0 := by
      rintro rfl
      exact h (by simp [rnd32Q, pow2_pos])
    simp only [Fl.neg, Fl.inf.injEq]
    rcases lt_or_gt_of_ne hq with h1 | h1
    · simp [h1, h1.le]
    · simp [h1, h1.le]

/-- A value on the grid of some exponent with at most 24 significant bits is a fixed point. -/
theorem rnd32Q_fix {m : ℤ} {e : ℤ} (he : -149 ≤ e) (hm : |m| ≤ 2 ^ 24) :
    rnd32Q ((m : ℚ) * pow2 e) = m * pow2 e := by
  unfold rnd32Q
  split_ifs with h0
  · exact h0.symm
  · -- the ulp exponent of q is at most e, unless |m| = 2^24
    set q : ℚ := (m : ℚ) * pow2 e with hq
    have habs : |q| = |(m : ℚ)| * pow2 e := by rw [hq, abs_mul, abs_of_pos (pow2_pos e)]
    have hm' : |(m : ℚ)| ≤ pow2 24 := by
      have : pow2 24 = ((2 ^ 24 : ℤ) : ℚ) := pow2_24
      rw [this, ← Int.cast_abs]; exact_mod_cast hm
    obtain ⟨s1, s2⟩ := ilog_spec h0
    -- q is an integer multiple of the ulp
    suffices hmul : ∃ k : ℤ, q = k * pow2 (ulpExp q) by
      obtain ⟨k, hk⟩ := hmul
      have hp := pow2_pos (ulpExp q)
      have : q / pow2 (ulpExp q) = k := by
        rw [div_eq_iff (ne_of_gt hp)]; exact hk
      rw [this, rhe_int]
      exact hk.symm
    by_cases hcase : ulpExp q ≤ e
    · obtain ⟨d, hd⟩ := Int.eq_ofNat_of_zero_le (by omega : (0 : ℤ) ≤ e - ulpExp q)
      refine ⟨m * 2 ^ d, ?_⟩
      have : pow2 e = pow2 d * pow2 (ulpExp q) := by rw [← pow2_add]; congr 1; omega
      refine hq.trans ?_
      rw [this, pow2_nat]
      push_cast; ring
    · -- then ilog q ≥ e + 24, so |m| = 2^24
      have hge : e + 24 ≤ ilog q := by unfold ulpExp at hcase; omega
      have h1 := pow2_le hge
      rw [add_comm, pow2_add] at h1
      have hpe := pow2_pos e
      have hM : |(m : ℚ)| = pow2 24 := by
        apply le_antisymm hm'
        by_contra hlt
        have := mul_lt_mul_of_pos_right (not_le.mp hlt) hpe
        linarith
      have hil : ilog q = e + 24 := by
        apply ilog_unique
        · rw [add_comm, pow2_add, habs, hM]
        · rw [habs, hM, ← pow2_add]
          exact pow2_lt (by omega)
      have hu : ulpExp q = e + 1 := by unfold ulpExp; omega
      have hm24 : |m| = 2 ^ 24 := by
        have h24 := pow2_24
        rw [h24, ← Int.cast_abs] at hM
        exact_mod_cast hM
      rcases abs_cases m with ⟨h, _⟩ | ⟨h, _⟩
      · refine ⟨2 ^ 23, ?_⟩
        rw [hu, pow2_succ, hq, show m = 2 ^ 24 by omega]; push_cast; ring
      · refine ⟨-2 ^ 23, ?_⟩
        rw [hu, pow2_succ, hq, show m = -2 ^ 24 by omega]; push_cast; ring

/-- The result of rounding is on the grid: `m · 2^e` with `|m| ≤ 2^24`. -/
theorem rnd32Q_grid (q : ℚ) : ∃ m e : ℤ, -149 ≤ e ∧ |m| ≤ 2 ^ 24 ∧ rnd32Q q = m * pow2 e ∧
    (q ≠ 0 → e = ulpExp q) := by
  unfold rnd32Q
  split_ifs with h0
  · exact ⟨0, 0, by norm_num, by norm_num, by simp, fun h => absurd h0 h⟩
  · refine ⟨rhe (q / pow2 (ulpExp q)), ulpExp q, ?_, ?_, rfl, fun _ => rfl⟩
    · unfold ulpExp; omega
    · obtain ⟨_, s2⟩ := ilog_spec h0
      have hu : pow2 (ilog q + 1) ≤ pow2 24 * pow2 (ulpExp q) := by
        rw [← pow2_add]; apply pow2_le; unfold ulpExp; omega
      have hb : |q| ≤ pow2 24 * pow2 (ulpExp q) := by linarith
      have h24 := pow2_24
      have hp := pow2_pos (ulpExp q)
      rw [h24] at hb
      rw [abs_le] at hb ⊢
      constructor
      · rw [← rhe_int (-2 ^ 24)]
        apply rhe_mono
        rw [le_div_iff₀ hp]; push_cast at hb ⊢; linarith [hb.1]
      · rw [← rhe_int (2 ^ 24)]
        apply rhe_mono
        rw [div_le_iff₀ hp]; push_cast at hb ⊢; linarith [hb.2]

theorem rnd32Q_idem (q : ℚ) : rnd32Q (rnd32Q q) = rnd32Q q := by
  obtain ⟨m, e, he, hm, hq, _⟩ := rnd32Q_grid q
  rw [hq]; exact rnd32Q_fix he hm

theorem rnd32Q_nonneg {q : ℚ} (h : 0 ≤ q) : 0 ≤ rnd32Q q := by
  unfold rnd32Q
  split_ifs with h0
  · exact le_refl _
  · have hp := pow2_pos (ulpExp q)
    have h1 : rhe ((0 : ℤ) : ℚ) ≤ rhe (q / pow2 (ulpExp q)) := by
      apply rhe_mono; push_cast; positivity
    rw [rhe_int] at h1
    have : (0 : ℚ) ≤ (rhe (q / pow2 (ulpExp q)) : ℚ) := by exact_mod_cast h1
    positivity

theorem rnd32Q_mono_pos {a b : ℚ} (ha : 0 < a) (h : a ≤ b) : rnd32Q a ≤ rnd32Q b := by
  have hb : 0 < b := lt_of_lt_of_le ha h
  have ha0 : a ≠ 0 := ne_of_gt ha
  have hb0 : b ≠ 0 := ne_of_gt hb
  have habs : |a| ≤ |b| := by rwa [abs_of_pos ha, abs_of_pos hb]
  have hil := ilog_mono ha0 habs
  have hule : ulpExp a ≤ ulpExp b := by unfold ulpExp; omega
  rcases lt_or_eq_of_le hule with hlt | heq
  · -- separated by the power of two 2^(ilog b)
    have hbig : -126 < ilog b := by unfold ulpExp at hlt; omega
    have hub : ulpExp b = ilog b - 23 := by unfold ulpExp; omega
    obtain ⟨_, a2⟩ := ilog_spec ha0
    obtain ⟨b1, _⟩ := ilog_spec hb0
    rw [abs_of_pos ha] at a2
    rw [abs_of_pos hb] at b1
    have hA : rnd32Q a ≤ pow2 24 * pow2 (ulpExp a) := by
      obtain ⟨m, e, _, hm, hq, he⟩ := rnd32Q_grid a
      rw [hq, he ha0]
      have : (m : ℚ) ≤ pow2 24 := by
        have h24 := pow2_24
        rw [h24]; exact_mod_cast (le_abs_self m).trans hm
      exact mul_le_mul_of_nonneg_right this (pow2_pos _).le
    have hB : pow2 23 * pow2 (ulpExp b) ≤ rnd32Q b := by
      unfold rnd32Q
      rw [if_neg hb0]
      apply mul_le_mul_of_nonneg_right _ (pow2_pos _).le
      have h23 := pow2_23
      rw [h23]
      have : rhe ((2 ^ 23 : ℤ) : ℚ) ≤ rhe (b / pow2 (ulpExp b)) := by
        apply rhe_mono
        rw [le_div_iff₀ (pow2_pos _), ← h23, ← pow2_add, hub]
        rw [show (23 : ℤ) + (ilog b - 23) = ilog b by ring]; exact b1
      rw [rhe_int] at this
      exact_mod_cast this
    have hmid : pow2 24 * pow2 (ulpExp a) ≤ pow2 23 * pow2 (ulpExp b) := by
      rw [← pow2_add, ← pow2_add]; apply pow2_le; omega
    linarith
  · unfold rnd32Q
    rw [if_neg ha0, if_neg hb0, heq]
    apply mul_le_mul_of_nonneg_right _ (pow2_pos _).le
    have : rhe (a / pow2 (ulpExp b)) ≤ rhe (b / pow2 (ulpExp b)) := by
      apply rhe_mono
      exact div_le_div_of_nonneg_right h (pow2_pos _).le
    exact_mod_cast this

theorem rnd32Q_mono {a b : ℚ} (h : a ≤ b) : rnd32Q a ≤ rnd32Q b := by
  rcases lt_trichotomy a 0 with ha | ha | ha
  · rcases lt_or_ge b 0 with hb | hb
    · have := rnd32Q_mono_pos (a := -b) (b := -a) (by linarith) (by linarith)
      rw [rnd32Q_neg, rnd32Q_neg] at this
      linarith
    · have h1 := rnd32Q_nonneg hb
      have h2 := rnd32Q_nonneg (q := -a) (by linarith)
      rw [rnd32Q_neg] at h2
      linarith
  · subst ha
    simpa [rnd32Q] using rnd32Q_nonneg h
  · exact rnd32Q_mono_pos ha h

theorem rnd32_mono {a b : ℚ} (h : a ≤ b) : Fl.le (rnd32 a) (rnd32 b) = true := by
  have hm := rnd32Q_mono h
  unfold rnd32
  split_ifs with h1 h2 h2
  · simpa using hm
  · by_cases hb : b < 0
    · exfalso
      have : rnd32Q b ≤ 0 := by
        have := rnd32Q_mono hb.le
        simpa [rnd32Q] using this
      rw [abs_lt] at h1 h2
      exact h2 ⟨by linarith [h1.1], by linarith [pow2_pos 128]⟩
    · simp [Fl.le, hb]
  · by_cases ha : a < 0
    · simp [Fl.le, ha]
    · exfalso
      have : 0 ≤ rnd32Q a := rnd32Q_nonneg (by linarith)
      rw [abs_lt] at h1 h2
      exact h1 ⟨by linarith [pow2_pos 128], by linarith [h2.2]⟩
  · by_cases ha : a < 0
    · simp [Fl.le, ha]
    · have : ¬ b < 0 := by intro hb; exact ha (by linarith)
      simp [Fl.le, ha, this]

theorem rnd32_idem {a b : ℚ} (h : rnd32 a = Fl.fin b) : rnd32 b = Fl.fin b := by
  unfold rnd32 at h
  split_ifs at h with h1
  cases h
  unfold rnd32
  rw [rnd32Q_idem, if_pos h1]

theorem rnd32_of_grid {m e : ℤ} (he : -149 ≤ e) (hm : |m| ≤ 2 ^ 24)
    (hb : |(m : ℚ) * pow2 e| < pow2 128) : rnd32 ((m : ℚ) * pow2 e) = Fl.fin (m * pow2 e) := by
  unfold rnd32
  rw [rnd32Q_fix he hm, if_pos hb]

/-- Absolute rounding error is at most half a unit in the last place. -/
theorem rnd32Q_error {q : ℚ} (hq : q ≠ 0) : |rnd32Q q - q| ≤ pow2 (ulpExp q) / 2 := by
  unfold rnd32Q
  rw [if_neg hq]
  have hp := pow2_pos (ulpExp q)
  have h := rhe_close (q / pow2 (ulpExp q))
  have e : (rhe (q / pow2 (ulpExp q)) : ℚ) * pow2 (ulpExp q) - q
      = ((rhe (q / pow2 (ulpExp q)) : ℚ) - q / pow2 (ulpExp q)) * pow2 (ulpExp q) := by
    field_simp
  rw [e, abs_mul, abs_of_pos hp]
  nlinarith

/-- Relative error 2^-24 for normal results. -/
theorem rnd32Q_relerror {q : ℚ} (hq : pow2 (-126) ≤ |q|) : |rnd32Q q - q| ≤ |q| * pow2 (-24) := by
  have h0 : q ≠ 0 := by
    rintro rfl
    have := pow2_pos (-126)
    simp at hq; linarith
  obtain ⟨s1, s2⟩ := ilog_spec h0
  have hi : -126 ≤ ilog q := by
    by_contra hlt
    have := pow2_le (show ilog q + 1 ≤ -126 by omega)
    linarith
  have hu : ulpExp q = ilog q - 23 := by unfold ulpExp; omega
  have he := rnd32Q_error h0
  rw [hu] at he
  have : pow2 (ilog q - 23) / 2 = pow2 (ilog q) * pow2 (-24) := by
    rw [← pow2_add]
    have := pow2_succ (ilog q + -24)
    rw [show ilog q + -24 + 1 = ilog q - 23 by ring] at this
    linarith
  rw [this] at he
  exact he.trans (mul_le_mul_of_nonneg_right s1 (pow2_pos _).le)


theorem rnd32_dyadic (n k : ℤ) (h : |n| ≤ 2 ^ 24) (hk : |k| ≤ 64) :
    rnd32 ((n : ℚ) * 2 ^ k) = Fl.fin (n * 2 ^ k) := by
  rw [abs_le] at hk
  rw [← pow2_eq]
  apply rnd32_of_grid (by omega) h
  rw [abs_mul, abs_of_pos (pow2_pos k), ← Int.cast_abs]
  have h1 : ((|n| : ℤ) : ℚ) ≤ pow2 24 := by rw [pow2_24]; exact_mod_cast h
  calc ((|n| : ℤ) : ℚ) * pow2 k ≤ pow2 24 * pow2 k :=
        mul_le_mul_of_nonneg_right h1 (pow2_pos _).le
    _ = pow2 (24 + k) := (pow2_add _ _).symm
    _ < pow2 128 := pow2_lt (by omega)

theorem rnd32_rel (q : ℚ) (h1 : (2 : ℚ) ^ (-100 : ℤ) ≤ |q|) (h2 : |q| ≤ 2 ^ 100) :
    ∃ y, rnd32 q = Fl.fin y ∧ |y - q| ≤ |q| / 2 ^ 24 := by
  rw [← pow2_eq] at h1
  have hn : pow2 (-126) ≤ |q| := (pow2_le (by norm_num)).trans h1
  have he := rnd32Q_relerror hn
  have h24 : |q| * pow2 (-24) = |q| / 2 ^ 24 := by rw [pow2_eq]; norm_num; ring
  rw [h24] at he
  refine ⟨rnd32Q q, ?_, he⟩
  unfold rnd32
  rw [if_pos]
  have : |rnd32Q q| ≤ |q| + |q| / 2 ^ 24 := by
    have := abs_sub_abs_le_abs_sub (rnd32Q q) q
    linarith
  rw [pow2_128]
  norm_num at *
  linarith

/-- IEEE-754 binary32, the C `float` of every viaems target. -/
@[reducible] def binary32 : FloatFmt where
  rnd := rnd32
  rnd_mono := rnd32_mono
  rnd_idem := rnd32_idem
  rnd_neg := rnd32_neg
  rnd_dyadic := rnd32_dyadic
  rnd_rel := rnd32_rel

end Verif
