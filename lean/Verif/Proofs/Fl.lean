/-
Lemmas about `Fl` arithmetic shared by the proofs.
-/
import Verif.Base.Binary32

namespace Verif
namespace Fl

section
variable [FloatFmt]
open FloatFmt

theorem add_def (a b : Fl) : a + b = Fl.add a b := rfl
theorem sub_def (a b : Fl) : a - b = Fl.sub a b := rfl
theorem mul_def (a b : Fl) : a * b = Fl.mul a b := rfl
theorem div_def (a b : Fl) : a / b = Fl.div a b := rfl

@[simp] theorem fin_add (a b : ℚ) : (fin a + fin b : Fl) = rnd (a + b) := rfl
@[simp] theorem fin_sub (a b : ℚ) : (fin a - fin b : Fl) = rnd (a - b) := by
  show rnd (a + -b) = _
  rw [sub_eq_add_neg]
@[simp] theorem fin_mul (a b : ℚ) : (fin a * fin b : Fl) = rnd (a * b) := rfl
theorem fin_div (a b : ℚ) (hb : b ≠ 0) : (fin a / fin b : Fl) = rnd (a / b) := by
  show (if b = 0 then _ else _) = _
  rw [if_neg hb]

omit [FloatFmt] in
/-- with exact arithmetic nothing is rounded -/
@[simp] theorem exact_rnd (q : ℚ) : @FloatFmt.rnd exactFmt q = fin q := rfl

theorem add_eq_fin {a b : Fl} {r : ℚ} (h : a + b = fin r) :
    ∃ x y, a = fin x ∧ b = fin y ∧ rnd (x + y) = fin r := by
  rw [add_def] at h
  rcases a with _ | a | a <;> rcases b with _ | b | b <;> simp only [add] at h <;> try contradiction
  · split_ifs at h
  · exact ⟨a, b, rfl, rfl, h⟩

omit [FloatFmt] in
theorem neg_eq_fin {b : Fl} {y : ℚ} (h : neg b = fin y) : b = fin (-y) := by
  rcases b with _ | b | b <;> simp_all [neg]
  linarith

theorem sub_eq_fin {a b : Fl} {r : ℚ} (h : a - b = fin r) :
    ∃ x y, a = fin x ∧ b = fin y ∧ rnd (x - y) = fin r := by
  have h' : a + neg b = fin r := h
  obtain ⟨x, y, h1, h2, h3⟩ := add_eq_fin h'
  refine ⟨x, -y, h1, neg_eq_fin h2, ?_⟩
  rw [sub_neg_eq_add]; exact h3

theorem mul_eq_fin {a b : Fl} {r : ℚ} (h : a * b = fin r) :
    ∃ x y, a = fin x ∧ b = fin y ∧ rnd (x * y) = fin r := by
  rw [mul_def] at h
  rcases a with _ | a | a <;> rcases b with _ | b | b <;> simp only [mul] at h <;> try contradiction
  · split_ifs at h
  · split_ifs at h
  · exact ⟨a, b, rfl, rfl, h⟩

theorem div_eq_fin {a b : Fl} {r : ℚ} (h : a / b = fin r) :
    (∃ x y, a = fin x ∧ b = fin y ∧ y ≠ 0 ∧ rnd (x / y) = fin r) ∨
    (∃ x s, a = fin x ∧ b = inf s ∧ r = 0) := by
  rw [div_def] at h
  rcases a with _ | a | a <;> rcases b with _ | b | b <;> simp only [div] at h <;> try contradiction
  · right
    injection h with h
    exact ⟨a, b, rfl, rfl, h.symm⟩
  · split_ifs at h with h1
    exact Or.inl ⟨a, b, rfl, rfl, h1, h⟩

end

theorem toU32_ok {x : Fl} {v : BitVec 32} (h : toU32 x = .ok v) :
    ∃ q, x = fin q ∧ -1 < q ∧ q < 4294967296 ∧ v.toNat = ⌊q⌋.toNat := by
  rcases x with _ | s | q
  · simp [toU32] at h
  · simp [toU32] at h
  · simp only [toU32] at h
    split_ifs at h with hq
    refine ⟨q, rfl, hq.1, hq.2, ?_⟩
    injection h with h
    subst h
    rw [BitVec.toNat_ofInt]
    unfold truncQ
    have hf2 : ⌊q⌋ < 4294967296 := Int.floor_lt.mpr (by exact_mod_cast hq.2)
    split_ifs with h0
    · have hf1 : 0 ≤ ⌊q⌋ := Int.floor_nonneg.mpr h0
      omega
    · have hc : ⌈q⌉ = 0 := by
        rw [Int.ceil_eq_iff]
        push_cast
        constructor <;> linarith [hq.1]
      have hf : ⌊q⌋ < 0 := Int.floor_lt.mpr (by push_cast; linarith)
      rw [hc]; omega

/-- A non-negative value in range converts to its integer part. -/
theorem toU32_fin {q : ℚ} (h0 : 0 ≤ q) (h1 : q < 4294967296) :
    ∃ v, toU32 (fin q) = .ok v ∧ (v.toNat : ℤ) = ⌊q⌋ := by
  have hok : toU32 (fin q) = .ok (BitVec.ofInt 32 (truncQ q)) := by
    simp only [toU32]; rw [if_pos ⟨by linarith, h1⟩]
  refine ⟨_, hok, ?_⟩
  obtain ⟨q', e, _, _, hv⟩ := toU32_ok hok
  cases e
  rw [hv]
  have : 0 ≤ ⌊q⌋ := Int.floor_nonneg.mpr h0
  omega

theorem toU32_nat (n : ℕ) (h : n < 2 ^ 32) : toU32 (fin (n : ℚ)) = .ok (BitVec.ofNat 32 n) := by
  obtain ⟨v, hv, hn⟩ := toU32_fin (q := (n : ℚ)) (by positivity) (by exact_mod_cast h)
  rw [hv]
  congr 1
  apply BitVec.eq_of_toNat_eq
  rw [BitVec.toNat_ofNat]
  simp at hn
  omega

theorem toU32_mono {x y : Fl} {v w : BitVec 32} (hx : toU32 x = .ok v) (hy : toU32 y = .ok w)
    (h : le x y = true) : v.toNat ≤ w.toNat := by
  obtain ⟨p, rfl, _, _, hv⟩ := toU32_ok hx
  obtain ⟨q, rfl, _, _, hw⟩ := toU32_ok hy
  rw [hv, hw]
  have : p ≤ q := by simpa using h
  have := Int.floor_le_floor this
  omega

end Fl

section
variable [FloatFmt]
open FloatFmt

theorem rnd_fin_mono {a b x y : ℚ} (h : a ≤ b) (ha : rnd a = Fl.fin x) (hb : rnd b = Fl.fin y) :
    x ≤ y := by
  have := rnd_mono h
  rw [ha, hb] at this
  simpa using this

theorem rnd_nonneg {a x : ℚ} (h : 0 ≤ a) (ha : rnd a = Fl.fin x) : 0 ≤ x :=
  rnd_fin_mono h rnd_zero ha

theorem rnd_nonpos {a x : ℚ} (h : a ≤ 0) (ha : rnd a = Fl.fin x) : x ≤ 0 :=
  rnd_fin_mono h ha rnd_zero

/-- every 32-bit integer converts to a finite float -/
theorem rnd_u32 (n : ℕ) (h : n < 2 ^ 32) : ∃ y, rnd (n : ℚ) = Fl.fin y ∧ 0 ≤ y ∧ y ≤ 2 ^ 32 := by
  have h32 : rnd ((2 : ℚ) ^ 32) = Fl.fin (2 ^ 32) := by
    have := rnd_dyadic 1 32 (by norm_num) (by norm_num)
    simpa using this
  obtain ⟨y, h1, h2, h3⟩ := rnd_between (a := 0) (x := n) (b := 2 ^ 32) (by positivity)
    (by exact_mod_cast h.le) rnd_zero h32
  exact ⟨y, h1, h2, h3⟩

/-- a positive 32-bit integer converts to a float of at least 1 -/
theorem rnd_u32_pos (n : ℕ) (h0 : 0 < n) (h : n < 2 ^ 32) :
    ∃ y, rnd (n : ℚ) = Fl.fin y ∧ 1 ≤ y ∧ y ≤ 2 ^ 32 := by
  have h32 : rnd ((2 : ℚ) ^ 32) = Fl.fin (2 ^ 32) := by
    have := rnd_dyadic 1 32 (by norm_num) (by norm_num)
    simpa using this
  have h1' : rnd (1 : ℚ) = Fl.fin 1 := by
    have := rnd_int 1 (by norm_num)
    simpa using this
  obtain ⟨y, h1, h2, h3⟩ := rnd_between (a := 1) (x := n) (b := 2 ^ 32) (by exact_mod_cast h0)
    (by exact_mod_cast h.le) h1' h32
  exact ⟨y, h1, h2, h3⟩

end

end Verif
