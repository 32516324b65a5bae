/-
Relative error of a chain of rounded operations.
-/
import Verif.Proofs.TableAcc
import Mathlib.Tactic.FieldSimp

namespace Verif
open Fl FloatFmt

/-- What one rounding leaves of a number, at least. -/
def dn : ℚ := 1 - 1 / 2 ^ 24

theorem dn_pos : 0 < dn := by unfold dn; norm_num
theorem dn_le : dn ≤ 1 := by unfold dn; norm_num
theorem dn_pow_pos (k : ℕ) : 0 < dn ^ k := pow_pos dn_pos k
theorem dn_pow_le {k : ℕ} (l : ℕ) (h : k ≤ l) : dn ^ l ≤ dn ^ k := pow_le_pow_of_le_one dn_pos.le dn_le h
theorem dn_half {k : ℕ} (h : k ≤ 64) : 1 / 2 ≤ dn ^ k := le_trans (by unfold dn; norm_num) (dn_pow_le 64 h)

/-- `x` is a number that is the positive `X` up to `k` roundings; `X` is between `2^a` and `2^b`. -/
def Ap (k : ℕ) (a b : ℤ) (x : Fl) (X : ℚ) : Prop :=
  ((2 : ℚ) ^ a ≤ X ∧ X ≤ (2 : ℚ) ^ b) ∧ ∃ q, x = fin q ∧ X * dn ^ k ≤ q ∧ q * dn ^ k ≤ X

theorem zpow2_pos (a : ℤ) : (0 : ℚ) < (2 : ℚ) ^ a := by positivity
theorem zpow2_le {a b : ℤ} (h : a ≤ b) : (2 : ℚ) ^ a ≤ (2 : ℚ) ^ b := zpow_le_zpow_right₀ (by norm_num) h

theorem Ap.exact {a b : ℤ} {X : ℚ} (h1 : (2 : ℚ) ^ a ≤ X) (h2 : X ≤ (2 : ℚ) ^ b) : Ap 0 a b (fin X) X :=
  ⟨⟨h1, h2⟩, X, rfl, by simp, by simp⟩

theorem Ap.pos {k : ℕ} {a b : ℤ} {x : Fl} {X : ℚ} (h : Ap k a b x X) : 0 < X := (zpow2_pos a).trans_le h.1.1

theorem Ap.weaken {k l : ℕ} {a b : ℤ} {x : Fl} {X : ℚ} (h : Ap k a b x X) (hl : k ≤ l) : Ap l a b x X := by
  have hX := h.pos
  obtain ⟨hr, q, rfl, q1, q2⟩ := h
  have hq : 0 < q := lt_of_lt_of_le (mul_pos hX (dn_pow_pos k)) q1
  exact ⟨hr, q, rfl, (mul_le_mul_of_nonneg_left (dn_pow_le l hl) hX.le).trans q1,
    (mul_le_mul_of_nonneg_left (dn_pow_le l hl) hq.le).trans q2⟩

section
variable [FloatFmt]

theorem Ap.round {k : ℕ} {a b : ℤ} {q X : ℚ} (h1 : (2 : ℚ) ^ a ≤ X) (h2 : X ≤ (2 : ℚ) ^ b) (q1 : X * dn ^ k ≤ q) (q2 : q * dn ^ k ≤ X)
    (ha : -99 ≤ a) (hb : b ≤ 99) (hk : k ≤ 63) : Ap (k + 1) a b (rnd q) X := by
  have hX : 0 < X := (zpow2_pos a).trans_le h1
  have hq : 0 < q := lt_of_lt_of_le (mul_pos hX (dn_pow_pos k)) q1
  have hh := dn_half (k := k) (by omega)
  have l1 : (2 : ℚ) ^ (-100 : ℤ) ≤ q := by
    have e : (2 : ℚ) ^ (-100 : ℤ) = (2 : ℚ) ^ (-99 : ℤ) * (1 / 2) := by
      rw [show (-100 : ℤ) = -99 - 1 by norm_num, zpow_sub_one₀ (by norm_num)]; norm_num
    rw [e]
    exact (mul_le_mul ((zpow2_le ha).trans h1) hh (by norm_num) hX.le).trans q1
  have l2 : q ≤ 2 ^ 100 := by
    have h3 : q * (1 / 2) ≤ X := (mul_le_mul_of_nonneg_left hh hq.le).trans q2
    have h4 : X ≤ 2 ^ 99 := h2.trans ((zpow2_le hb).trans (by norm_num))
    norm_num at *
    linarith
  obtain ⟨y, hy, h⟩ := rnd_rel q (by rwa [abs_of_pos hq]) (by rwa [abs_of_pos hq])
  rw [abs_of_pos hq] at h
  obtain ⟨y1, y2⟩ := abs_le.mp h
  have y3 : q * dn ≤ y := by unfold dn; linarith
  have y4 : y * dn ≤ q := by
    have : y ≤ q * (1 + 1 / 2 ^ 24) := by linarith
    refine (mul_le_mul_of_nonneg_right this dn_pos.le).trans ?_
    rw [mul_assoc]
    exact mul_le_of_le_one_right hq.le (by unfold dn; norm_num)
  refine ⟨⟨h1, h2⟩, y, hy, ?_, ?_⟩
  · rw [pow_succ, ← mul_assoc]
    exact (mul_le_mul_of_nonneg_right q1 dn_pos.le).trans y3
  · rw [pow_succ, mul_comm (dn ^ k), ← mul_assoc]
    exact (mul_le_mul_of_nonneg_right y4 (dn_pow_pos k).le).trans q2

theorem Ap.mul {k l : ℕ} {a b c d : ℤ} {x y : Fl} {X Y : ℚ} (hx : Ap k a b x X) (hy : Ap l c d y Y) (h1 : -99 ≤ a + c) (h2 : b + d ≤ 99)
    (h3 : k + l ≤ 63) : Ap (k + l + 1) (a + c) (b + d) (x * y) (X * Y) := by
  have hX := hx.pos
  have hY := hy.pos
  obtain ⟨⟨x1, x2⟩, q, rfl, q1, q2⟩ := hx
  obtain ⟨⟨y1, y2⟩, r, rfl, r1, r2⟩ := hy
  have hq : 0 < q := lt_of_lt_of_le (mul_pos hX (dn_pow_pos k)) q1
  have hr : 0 < r := lt_of_lt_of_le (mul_pos hY (dn_pow_pos l)) r1
  rw [fin_mul]
  refine Ap.round ?_ ?_ ?_ ?_ h1 h2 h3
  · rw [zpow_add₀ (by norm_num)]; exact mul_le_mul x1 y1 (zpow2_pos c).le hX.le
  · rw [zpow_add₀ (by norm_num)]; exact mul_le_mul x2 y2 hY.le (zpow2_pos b).le
  · rw [pow_add, show X * Y * (dn ^ k * dn ^ l) = X * dn ^ k * (Y * dn ^ l) by ring]
    exact mul_le_mul q1 r1 (mul_pos hY (dn_pow_pos l)).le hq.le
  · rw [pow_add, show q * r * (dn ^ k * dn ^ l) = q * dn ^ k * (r * dn ^ l) by ring]
    exact mul_le_mul q2 r2 (mul_pos hr (dn_pow_pos l)).le hX.le

theorem Ap.div {k l : ℕ} {a b c d : ℤ} {x y : Fl} {X Y : ℚ} (hx : Ap k a b x X) (hy : Ap l c d y Y) (h1 : -99 ≤ a - d) (h2 : b - c ≤ 99)
    (h3 : k + l ≤ 63) : Ap (k + l + 1) (a - d) (b - c) (x / y) (X / Y) := by
  have hX := hx.pos
  have hY := hy.pos
  obtain ⟨⟨x1, x2⟩, q, rfl, q1, q2⟩ := hx
  obtain ⟨⟨y1, y2⟩, r, rfl, r1, r2⟩ := hy
  have hq : 0 < q := lt_of_lt_of_le (mul_pos hX (dn_pow_pos k)) q1
  have hr : 0 < r := lt_of_lt_of_le (mul_pos hY (dn_pow_pos l)) r1
  rw [fin_div _ _ hr.ne']
  refine Ap.round ?_ ?_ ?_ ?_ h1 h2 h3
  · rw [zpow_sub₀ (by norm_num), div_le_div_iff₀ (zpow2_pos d) hY]
    exact mul_le_mul x1 y2 hY.le hX.le
  · rw [zpow_sub₀ (by norm_num), div_le_div_iff₀ hY (zpow2_pos c)]
    exact mul_le_mul x2 y1 (zpow2_pos c).le (zpow2_pos b).le
  · rw [pow_add, le_div_iff₀ hr, show X / Y * (dn ^ k * dn ^ l) * r = X * dn ^ k * (r * dn ^ l) / Y by ring, div_le_iff₀ hY]
    exact mul_le_mul q1 r2 (mul_pos hr (dn_pow_pos l)).le hq.le
  · rw [pow_add, le_div_iff₀ hY, show q / r * (dn ^ k * dn ^ l) * Y = q * dn ^ k * (Y * dn ^ l) / r by ring, div_le_iff₀ hr]
    exact mul_le_mul q2 r1 (mul_pos hY (dn_pow_pos l)).le hX.le

theorem Ap.add {k : ℕ} {a b c d : ℤ} {x y : Fl} {X Y : ℚ} (hx : Ap k a b x X) (hy : Ap k c d y Y) (ha : -99 ≤ a) (hd : d ≤ b) (hb : b ≤ 98)
    (h3 : k ≤ 63) : Ap (k + 1) a (b + 1) (x + y) (X + Y) := by
  have hY := hy.pos
  obtain ⟨⟨x1, x2⟩, q, rfl, q1, q2⟩ := hx
  obtain ⟨⟨y1, y2⟩, r, rfl, r1, r2⟩ := hy
  rw [fin_add]
  refine Ap.round (by linarith) ?_ (by rw [add_mul]; linarith) (by rw [add_mul]; linarith) ha (by omega) h3
  have := y2.trans (zpow2_le hd)
  rw [zpow_add_one₀ (by norm_num)]
  linarith

/-- A sum with zero. -/
theorem Ap.add_zero {k : ℕ} {a b : ℤ} {x : Fl} {X : ℚ} (hx : Ap k a b x X) (ha : -99 ≤ a) (hb : b ≤ 98) (h3 : k ≤ 63) :
    Ap (k + 1) a (b + 1) (x + fin 0) (X + 0) := by
  obtain ⟨⟨x1, x2⟩, q, rfl, q1, q2⟩ := hx
  rw [fin_add]
  refine Ap.round (by linarith) ?_ (by linarith) (by linarith) ha (by omega) h3
  rw [zpow_add_one₀ (by norm_num)]
  have := zpow2_pos b
  linarith

/-- Absolute temperature. -/
theorem kelvin_near {t : ℚ} (h1 : 128 ≤ t + 27315 / 100) (h2 : t + 27315 / 100 ≤ 2048) :
    Ap 5 7 11 (fin t + (rnd (27315 / 100) : Fl)) (t + 27315 / 100) := by
  obtain ⟨k, hk, h⟩ := rnd_rel (27315 / 100) (by norm_num [abs_of_pos, zpow_neg]) (by norm_num [abs_of_pos])
  rw [abs_of_pos (by norm_num : (0 : ℚ) < 27315 / 100)] at h
  obtain ⟨k1, k2⟩ := abs_le.mp h
  rw [hk, fin_add]
  refine Ap.round (by norm_num at *; linarith) (by norm_num at *; linarith) ?_ ?_ (by norm_num) (by norm_num) (by norm_num)
  · have e : dn ^ 4 ≤ 1 - 3 / 2 ^ 24 := by unfold dn; norm_num
    refine (mul_le_mul_of_nonneg_left e (by linarith)).trans ?_
    norm_num at *
    linarith
  · have e : (1 + 3 / 2 ^ 24) * dn ^ 4 ≤ 1 := by unfold dn; norm_num
    have h3 : t + k ≤ (t + 27315 / 100) * (1 + 3 / 2 ^ 24) := by norm_num at *; linarith
    refine (mul_le_mul_of_nonneg_right h3 (dn_pow_pos 4).le).trans ?_
    rw [mul_assoc]
    exact mul_le_of_le_one_right (by linarith) e

/-- Fuel density. -/
theorem density_near {ρ t : ℚ} (ht : |t - 15| ≤ 200) (h1 : 1 / 4 ≤ ρ - (t - 15) * 950 / 1000000) (h2 : ρ - (t - 15) * 950 / 1000000 ≤ 8) :
    Ap 5 (-2) 3 (fin ρ - (fin t - fin 15) * fin 950 / fin 1000000 : Fl) (ρ - (t - 15) * 950 / 1000000) := by
  obtain ⟨s1, hs1, e1⟩ := rnd_near (q := t - 15) (ht.trans (by norm_num))
  obtain ⟨t1, t2⟩ := abs_le.mp ht
  have e1' : |s1 - (t - 15)| ≤ 201 / 2 ^ 24 := by norm_num at *; linarith
  obtain ⟨a1, a2⟩ := abs_le.mp e1'
  have b1 : |s1 * 950| ≤ 190100 := by rw [abs_le]; constructor <;> (norm_num at *; linarith)
  obtain ⟨s2, hs2, e2⟩ := rnd_near (q := s1 * 950) (b1.trans (by norm_num))
  obtain ⟨c1, c2⟩ := abs_le.mp (e2.trans (show _ ≤ (190101 : ℚ) / 2 ^ 24 by norm_num at *; linarith))
  have b2 : |s2 / 1000000| ≤ 191 / 1000 := by
    obtain ⟨d1, d2⟩ := abs_le.mp b1
    rw [abs_le]; constructor <;> (norm_num at *; linarith)
  obtain ⟨s3, hs3, e3⟩ := rnd_near (q := s2 / 1000000) (b2.trans (by norm_num))
  obtain ⟨f1, f2⟩ := abs_le.mp (e3.trans (show _ ≤ (192 / 1000 : ℚ) / 2 ^ 24 by norm_num at *; linarith))
  rw [fin_sub t, hs1, fin_mul, hs2, fin_div _ _ (by norm_num), hs3, fin_sub]
  obtain ⟨D, hD⟩ : ∃ D, D = ρ - (t - 15) * 950 / 1000000 := ⟨_, rfl⟩
  rw [← hD] at h1 h2 ⊢
  have g1 : D - 3 / 4 / 2 ^ 24 ≤ ρ - s3 := by rw [hD]; norm_num at *; linarith
  have g2 : ρ - s3 ≤ D + 3 / 4 / 2 ^ 24 := by rw [hD]; norm_num at *; linarith
  refine Ap.round (by norm_num [zpow_neg] at *; linarith) (by norm_num at *; linarith) ?_ ?_ (by norm_num) (by norm_num) (by norm_num)
  · have e : dn ^ 4 ≤ 1 - 3 / 2 ^ 24 := by unfold dn; norm_num
    refine (mul_le_mul_of_nonneg_left e (by linarith)).trans ?_
    norm_num at *
    linarith
  · have e : (1 + 3 / 2 ^ 24) * dn ^ 4 ≤ 1 := by unfold dn; norm_num
    have h3 : ρ - s3 ≤ D * (1 + 3 / 2 ^ 24) := by norm_num at *; linarith
    refine (mul_le_mul_of_nonneg_right h3 (dn_pow_pos 4).le).trans ?_
    rw [mul_assoc]
    exact mul_le_of_le_one_right (by linarith) e

end

theorem Ap.abs {k : ℕ} {a b : ℤ} {q X : ℚ} (h : Ap k a b (fin q) X) (hk : k ≤ 26) : |q - X| ≤ 27 * X / 2 ^ 24 := by
  have hX := h.pos
  obtain ⟨-, q', e, q1, q2⟩ := h.weaken hk
  cases e
  have e1 : 1 - 27 / 2 ^ 24 ≤ dn ^ 26 := by unfold dn; norm_num
  have e2 : 1 ≤ (1 + 27 / 2 ^ 24) * dn ^ 26 := by unfold dn; norm_num
  have h1 := mul_le_mul_of_nonneg_left e1 hX.le
  have h2 : q ≤ X * (1 + 27 / 2 ^ 24) := by
    refine le_of_mul_le_mul_right (q2.trans ?_) (dn_pow_pos 26)
    rw [mul_assoc]
    exact le_mul_of_one_le_right hX.le e2
  rw [abs_le]; constructor <;> linarith

end Verif
