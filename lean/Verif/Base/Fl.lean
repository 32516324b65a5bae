/-
Floating-point numbers as used by the C code.

`Fl` is the set of values of a C `float`: not-a-number, an infinity, or a finite rational.
The sign of zero is not represented (zero is +0); NaN payloads are not represented.

Arithmetic is parameterised by a rounding function (`FloatFmt.rnd`).  A theorem proved for every
`[FloatFmt]` holds for IEEE binary32 (`Verif.Base.Binary32`) and for exact rational arithmetic
(`exactFmt`, below).
-/
import Mathlib.Tactic.Linarith
import Mathlib.Tactic.Ring
import Mathlib.Tactic.NormNum
import Mathlib.Data.Rat.Floor
import Mathlib.Algebra.Order.Field.Power
import Mathlib.Tactic.FieldSimp
import Mathlib.Tactic.Positivity

namespace Verif

/-- Ways in which running the C code can leave defined behaviour (or stop). -/
inductive Fault
  | oob          -- read or write outside an array
  | divZero      -- integer division by zero
  | floatToInt   -- float to integer conversion of a value that does not fit (C11 6.3.1.4)
  | assertFail   -- a failed `assert` (compiled out with -DNDEBUG on the stm32/gd32 targets)
  | diverge      -- a loop that does not terminate
  | nullDeref    -- use of a null pointer
  deriving DecidableEq, Repr

/-- A C `float`. -/
inductive Fl
  | nan
  | inf (neg : Bool)
  | fin (q : ℚ)
  deriving DecidableEq

namespace Fl

instance : Inhabited Fl := ⟨fin 0⟩

/-- C `a <= b`: false when either operand is NaN. -/
def le : Fl → Fl → Bool
  | nan, _ => false
  | _, nan => false
  | inf true, _ => true
  | inf false, inf false => true
  | inf false, _ => false
  | fin _, inf n => !n
  | fin a, fin b => decide (a ≤ b)

/-- C `a < b`: false when either operand is NaN. -/
def lt : Fl → Fl → Bool
  | nan, _ => false
  | _, nan => false
  | inf true, inf true => false
  | inf true, _ => true
  | inf false, _ => false
  | fin _, inf n => !n
  | fin a, fin b => decide (a < b)

/-- C `a == b`: false when either operand is NaN. -/
def feq : Fl → Fl → Bool
  | nan, _ => false
  | _, nan => false
  | inf a, inf b => a == b
  | fin a, fin b => decide (a = b)
  | _, _ => false

/-- C unary minus. -/
def neg : Fl → Fl
  | nan => nan
  | inf n => inf (!n)
  | fin q => fin (-q)

end Fl

/-- A rounding function for the finite results of float operations, with the laws of IEEE
round-to-nearest that the proofs use. -/
class FloatFmt where
  rnd : ℚ → Fl
  rnd_mono : ∀ {a b : ℚ}, a ≤ b → Fl.le (rnd a) (rnd b) = true
  rnd_idem : ∀ {a b : ℚ}, rnd a = Fl.fin b → rnd b = Fl.fin b
  rnd_neg : ∀ a : ℚ, rnd (-a) = Fl.neg (rnd a)
  /-- 24-bit integers times moderate powers of two are representable -/
  rnd_dyadic : ∀ n k : ℤ, |n| ≤ 2 ^ 24 → |k| ≤ 64 → rnd (n * 2 ^ k) = Fl.fin (n * 2 ^ k)
  /-- relative rounding error in the middle of the range -/
  rnd_rel : ∀ q : ℚ, (2 : ℚ) ^ (-100 : ℤ) ≤ |q| → |q| ≤ 2 ^ 100 →
    ∃ y, rnd q = Fl.fin y ∧ |y - q| ≤ |q| / 2 ^ 24

/-- Exact rational arithmetic: nothing is rounded. -/
@[reducible] def exactFmt : FloatFmt where
  rnd := Fl.fin
  rnd_mono := by intro a b h; simp [Fl.le, h]
  rnd_idem := by intro a b h; cases h; rfl
  rnd_neg := by intro a; rfl
  rnd_dyadic := by intro n k _ _; rfl
  rnd_rel := by intro q _ _; exact ⟨q, rfl, by simp; positivity⟩

namespace Fl
open FloatFmt

variable [FloatFmt]

/-- C `a + b` on floats. -/
def add : Fl → Fl → Fl
  | nan, _ => nan
  | _, nan => nan
  | inf a, inf b => if a = b then inf a else nan
  | inf a, fin _ => inf a
  | fin _, inf b => inf b
  | fin a, fin b => rnd (a + b)

/-- C `a - b` on floats. -/
def sub (a b : Fl) : Fl := add a (neg b)

/-- C `a * b` on floats. -/
def mul : Fl → Fl → Fl
  | nan, _ => nan
  | _, nan => nan
  | inf a, inf b => inf (a != b)
  | inf a, fin q => if q = 0 then nan else inf (a != decide (q < 0))
  | fin q, inf a => if q = 0 then nan else inf (a != decide (q < 0))
  | fin a, fin b => rnd (a * b)

/-- C `a / b` on floats (a zero divisor is taken as +0). -/
def div : Fl → Fl → Fl
  | nan, _ => nan
  | _, nan => nan
  | inf _, inf _ => nan
  | inf a, fin q => inf (a != decide (q < 0))
  | fin _, inf _ => fin 0
  | fin a, fin b =>
    if b = 0 then (if a = 0 then nan else inf (decide (a < 0))) else rnd (a / b)

instance : Add Fl := ⟨add⟩
instance : Sub Fl := ⟨sub⟩
instance : Mul Fl := ⟨mul⟩
instance : Div Fl := ⟨div⟩

/-- Conversion of a 32-bit unsigned integer to float (C11 6.3.1.4p2, rounded to nearest). -/
def ofU32 (x : BitVec 32) : Fl := rnd (x.toNat : ℚ)

/-- Conversion of a natural number (a value of some unsigned C type) to float. -/
def ofNat (n : Nat) : Fl := rnd (n : ℚ)

/-- Conversion of a (signed) integer to float. -/
def ofInt (n : Int) : Fl := rnd (n : ℚ)

end Fl

namespace Fl

/-- Truncation toward zero. -/
def truncQ (q : ℚ) : ℤ := if 0 ≤ q then ⌊q⌋ else ⌈q⌉

/-- C conversion float → `uint32_t` (C11 6.3.1.4p1): truncate; undefined unless the truncated
value fits. -/
def toU32 : Fl → Except Fault (BitVec 32)
  | fin q => if -1 < q ∧ q < 4294967296 then .ok (BitVec.ofInt 32 (truncQ q)) else .error .floatToInt
  | _ => .error .floatToInt

/-! ### Basic facts -/

@[simp] theorem le_fin (a b : ℚ) : le (fin a) (fin b) = decide (a ≤ b) := rfl
@[simp] theorem lt_fin (a b : ℚ) : lt (fin a) (fin b) = decide (a < b) := rfl
@[simp] theorem feq_fin (a b : ℚ) : feq (fin a) (fin b) = decide (a = b) := rfl
@[simp] theorem neg_fin (a : ℚ) : neg (fin a) = fin (-a) := rfl
@[simp] theorem le_nan_left (a : Fl) : le nan a = false := by cases a <;> rfl
@[simp] theorem le_nan_right (a : Fl) : le a nan = false := by
  cases a with
  | nan => rfl
  | inf n => cases n <;> rfl
  | fin q => rfl
@[simp] theorem lt_nan_left (a : Fl) : lt nan a = false := by cases a <;> rfl
@[simp] theorem lt_nan_right (a : Fl) : lt a nan = false := by
  cases a with
  | nan => rfl
  | inf n => cases n <;> rfl
  | fin q => rfl

theorem le_trans {a b c : Fl} (h1 : le a b = true) (h2 : le b c = true) : le a c = true := by
  rcases a with _ | a | a <;> rcases b with _ | b | b <;> rcases c with _ | c | c <;>
    (try cases a) <;> (try cases b) <;> (try cases c) <;> simp_all [le]
  linarith

theorem le_refl {a : Fl} (h : a ≠ nan) : le a a = true := by
  rcases a with _ | a | a
  · exact absurd rfl h
  · cases a <;> rfl
  · simp

theorem not_lt_of_le {a b : Fl} (h : le a b = true) : lt b a = false := by
  rcases a with _ | a | a <;> rcases b with _ | b | b <;>
    (try cases a) <;> (try cases b) <;> simp_all [le, lt]

theorem le_of_lt {a b : Fl} (h : lt a b = true) : le a b = true := by
  rcases a with _ | a | a <;> rcases b with _ | b | b <;>
    (try cases a) <;> (try cases b) <;> simp_all [le, lt]
  exact _root_.le_of_lt h

theorem le_of_not_lt {a b : Fl} (ha : a ≠ nan) (hb : b ≠ nan) (h : lt a b = false) :
    le b a = true := by
  rcases a with _ | a | a <;> rcases b with _ | b | b <;>
    (try cases a) <;> (try cases b) <;> simp_all [le, lt]

theorem lt_of_not_le {a b : Fl} (ha : a ≠ nan) (hb : b ≠ nan) (h : le a b = false) :
    lt b a = true := by
  rcases a with _ | a | a <;> rcases b with _ | b | b <;>
    (try cases a) <;> (try cases b) <;> simp_all [le, lt]

end Fl

namespace FloatFmt
variable [FloatFmt]

theorem rnd_ne_nan (a : ℚ) : rnd a ≠ Fl.nan := by
  intro h
  have := rnd_mono (le_refl a)
  rw [h] at this
  simp at this

theorem rnd_int (n : ℤ) (h : |n| ≤ 2 ^ 24) : rnd (n : ℚ) = Fl.fin n := by
  have := rnd_dyadic n 0 h (by norm_num)
  simpa using this

@[simp] theorem rnd_zero : rnd 0 = Fl.fin 0 := by
  have := rnd_int (0 : ℤ) (by norm_num)
  simpa using this

theorem rnd_nat (n : ℕ) (h : n ≤ 2 ^ 24) : rnd (n : ℚ) = Fl.fin n := by
  have := rnd_int (n : ℤ) (by rw [abs_of_nonneg (by positivity)]; exact_mod_cast h)
  simpa using this

/-- Rounding cannot pass over a representable number. -/
theorem rnd_le_of_le {a b : ℚ} (h : a ≤ b) (hb : rnd b = Fl.fin b) : Fl.le (rnd a) (Fl.fin b) = true := by
  rw [← hb]; exact rnd_mono h

theorem le_rnd_of_le {a b : ℚ} (h : a ≤ b) (ha : rnd a = Fl.fin a) : Fl.le (Fl.fin a) (rnd b) = true := by
  rw [← ha]; exact rnd_mono h

/-- Between two representable numbers, rounding is finite and stays between. -/
theorem rnd_between {a x b : ℚ} (h1 : a ≤ x) (h2 : x ≤ b) (ha : rnd a = Fl.fin a)
    (hb : rnd b = Fl.fin b) : ∃ y, rnd x = Fl.fin y ∧ a ≤ y ∧ y ≤ b := by
  have l := le_rnd_of_le h1 ha
  have u := rnd_le_of_le h2 hb
  rcases hx : rnd x with _ | s | y
  · exact absurd hx (rnd_ne_nan x)
  · rw [hx] at l u; cases s <;> simp [Fl.le] at l u
  · rw [hx] at l u
    exact ⟨y, rfl, by simpa using l, by simpa using u⟩

end FloatFmt

end Verif
