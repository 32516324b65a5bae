/-
Vocabulary for the masking of interrupts: how deep in critical sections a flow of control is.
-/
import Verif.Model.Interrupts

namespace Verif

/-- The number of critical sections open after these calls, if every section that is closed was open. -/
def sectionDepth : List MaskOp → Nat → Option Nat
  | [], n => some n
  | .disable :: os, n => sectionDepth os (n + 1)
  | .enable :: os, n + 1 => sectionDepth os n
  | .enable :: _, 0 => none

/-- Critical sections are opened only outside of others. -/
def Flat : List MaskOp → Bool → Prop
  | [], _ => True
  | .disable :: os, inside => inside = false ∧ Flat os true
  | .enable :: os, inside => inside = true ∧ Flat os false

/-- The calls thread `i` has made. -/
def callsOf (i : Nat) (os : List (Nat × MaskOp)) : List MaskOp := (os.filter fun o => o.1 = i).map Prod.snd

end Verif
