/-
Specification of a timer queue, with unbounded true times (ticks since start).
-/
import Mathlib.Algebra.Order.Group.Unbundled.Abs
import Mathlib.Algebra.Order.Ring.Int

namespace Verif

/-- A pending request: its due time and its place in the order of requests. -/
structure Req where
  due : Int
  seq : Nat

/-- The abstract timer queue: at most one pending request per callback, and how many requests
there have been. -/
structure TimerSpec (α : Type) where
  pend : α → Option Req
  count : Nat

/-- Requests are served by due time, then first come first served. -/
def Req.before (a b : Req) : Prop := a.due < b.due ∨ (a.due = b.due ∧ a.seq < b.seq)

/-- Nothing pending. -/
def TimerSpec.empty (α : Type) : TimerSpec α := { pend := fun _ => none, count := 0 }

/-- (Re)request `c` at `due`: this replaces any pending request of `c`. -/
def TimerSpec.request {α : Type} [DecidableEq α] (s : TimerSpec α) (c : α) (due : Int) : TimerSpec α :=
  { pend := fun d => if d = c then some ⟨due, s.count⟩ else s.pend d, count := s.count + 1 }

/-- `c` has been served. -/
def TimerSpec.served {α : Type} [DecidableEq α] (s : TimerSpec α) (c : α) : TimerSpec α :=
  { s with pend := fun d => if d = c then none else s.pend d }

/-- `c` is the pending callback to be served next. -/
def TimerSpec.First {α : Type} (s : TimerSpec α) (c : α) : Prop :=
  ∃ r, s.pend c = some r ∧ ∀ d r', s.pend d = some r' → d ≠ c → r.before r'

/-- Every other pending request is due within half a wrap of `t`. -/
def TimerSpec.Near {α : Type} (s : TimerSpec α) (c : α) (t : Int) : Prop :=
  ∀ d r, d ≠ c → s.pend d = some r → |r.due - t| < 2 ^ 31

end Verif
