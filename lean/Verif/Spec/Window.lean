/-
Specification of windowed sensors: averaging over capture windows of crank angle.
-/
import Mathlib.Data.Rat.Floor
import Mathlib.Algebra.BigOperators.Group.List.Basic

namespace Verif

/-- An angle brought into [0, 720). -/
def turn720 (q : ℚ) : ℚ := q - 720 * ⌊q / 720⌋

/-- Windows of `total` degrees follow each other from `offset`; the first `capture` degrees of each are
the capture window.  The angle lies in one of those that start within the cycle. -/
def InCapture (capture total offset : ℕ) (angle : ℚ) : Prop :=
  ∃ k : ℕ, k * total < 720 ∧ (k * total : ℕ) ≤ turn720 (angle - offset) ∧
    turn720 (angle - offset) < (k * total + capture : ℕ)

/-- The window being collected: its samples (none: no window open) and the angle of the first. -/
structure WinSt where
  samples : List ℚ
  start : ℚ

def mean (l : List ℚ) : ℚ := l.sum / l.length

/-- The open window is complete: the angle has left the capture windows, or is a capture width past the
window's first sample. -/
def Complete (capture total offset : ℕ) (st : WinSt) (angle : ℚ) : Prop :=
  st.samples ≠ [] ∧ (¬ InCapture capture total offset angle ∨ (capture : ℚ) ≤ turn720 (angle - st.start))

open Classical in
/-- One sample `x` at `angle`: the value reported, if a window is completed, and the window afterwards. -/
noncomputable def WinSt.step (capture total offset : ℕ) (st : WinSt) (angle x : ℚ) : WinSt × Option ℚ :=
  let done := Complete capture total offset st angle
  let out := if done then some (mean st.samples) else none
  let st := if done then ⟨[], st.start⟩ else st
  if InCapture capture total offset angle then
    (⟨st.samples ++ [x], if st.samples = [] then angle else st.start⟩, out)
  else (st, out)

end Verif
