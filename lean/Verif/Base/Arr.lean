/-
Fixed-size C arrays as functions on `Fin n`, with bounds-checked access.
-/
import Verif.Base.Fl

namespace Verif

/-- Read `f[i]`; out of bounds is a fault. -/
def rd {α : Type} {n : Nat} (f : Fin n → α) (i : Int) : Except Fault α :=
  if h : 0 ≤ i ∧ i < n then .ok (f ⟨i.toNat, by omega⟩) else .error .oob

/-- Write `f[i] = v`; out of bounds is a fault. -/
def wr {α : Type} {n : Nat} (f : Fin n → α) (i : Int) (v : α) : Except Fault (Fin n → α) :=
  if h : 0 ≤ i ∧ i < n then .ok (fun j => if j = ⟨i.toNat, by omega⟩ then v else f j)
  else .error .oob

/-- `assert(b)`. -/
def cassert (b : Bool) : Except Fault Unit := if b then .ok () else .error .assertFail

theorem rd_ok {α : Type} {n : Nat} (f : Fin n → α) (i : Nat) (h : i < n) :
    rd f i = .ok (f ⟨i, h⟩) := by
  unfold rd; rw [dif_pos (by omega)]; simp

theorem rd_oob {α : Type} {n : Nat} (f : Fin n → α) (i : Int) (h : i < 0 ∨ (n : Int) ≤ i) :
    rd f i = .error .oob := by
  unfold rd; rw [dif_neg (by omega)]

@[simp] theorem except_bind_ok {ε α β : Type} (a : α) (f : α → Except ε β) :
    ((Except.ok a : Except ε α) >>= f) = f a := rfl
@[simp] theorem except_bind_error {ε α β : Type} (e : ε) (f : α → Except ε β) :
    ((Except.error e : Except ε α) >>= f) = Except.error e := rfl
@[simp] theorem except_pure {ε α : Type} (a : α) : (pure a : Except ε α) = Except.ok a := rfl
@[simp] theorem cassert_true : cassert true = .ok () := rfl
@[simp] theorem cassert_false : cassert false = .error .assertFail := rfl

deriving instance DecidableEq for Except

theorem bind_eq_ok {ε α β : Type} {x : Except ε α} {f : α → Except ε β} {b : β} :
    (x >>= f) = .ok b ↔ ∃ a, x = .ok a ∧ f a = .ok b := by
  cases x with
  | error e => simp
  | ok a => simp

end Verif
