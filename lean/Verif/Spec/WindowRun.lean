/-
Specification of windowed sensors over a whole run: which window a sample belongs to, by the angle of the crank counted on from
cycle to cycle, and what the sensor has to report.
-/
import Verif.Base.Fl
import Verif.Spec.Window

namespace Verif

/-- The widths and the position of the capture windows, in degrees. -/
structure WinGeom where
  capture : ℕ
  total : ℕ
  offset : ℕ

/-- Capture window number `j`, counted over all cycles. -/
def WinGeom.In (g : WinGeom) (j : ℤ) (ψ : ℚ) : Prop := g.offset + j * g.total ≤ ψ ∧ ψ < g.offset + j * g.total + g.capture

/-- A whole number of windows makes a cycle, and each is at least as wide as its capture part. -/
structure WinGeom.Tiles (g : WinGeom) : Prop where
  pos : 0 < g.total
  div : g.total ∣ 720
  fits : g.capture ≤ g.total

open Classical in
/-- Of samples (angle, value): the values taken in window `j`. -/
noncomputable def WinGeom.samples (g : WinGeom) (j : ℤ) (l : List (ℚ × ℚ)) : List ℚ :=
  (l.filter fun x => decide (g.In j x.1)).map Prod.snd

/-- Window `j` is over: it has a sample, and the latest sample lies beyond it. -/
def WinGeom.Over (g : WinGeom) (l : List (ℚ × ℚ)) (j : ℤ) : Prop :=
  (∃ x ∈ l, g.In j x.1) ∧ ∃ x, l.getLast? = some x ∧ g.offset + j * g.total + g.capture ≤ x.1

/-- `v` is what has to be reported after the samples `l`: the mean of the samples of the last window that is over, or nothing if none is. -/
def WinGeom.Reports (g : WinGeom) (l : List (ℚ × ℚ)) (v : Option ℚ) : Prop :=
  (∀ j, g.Over l j → (∀ j', j < j' → ¬ g.Over l j') → v = some (mean (g.samples j l))) ∧ ((∀ j, ¬ g.Over l j) → v = none)

/-- The crank never turns back, and turns at most `step` degrees from one sample to the next. -/
def SampledEvery (step : ℚ) (l : List (ℚ × ℚ)) : Prop :=
  l.Pairwise (fun x y => x.1 ≤ y.1) ∧ ∀ p x y s, l = p ++ x :: y :: s → y.1 - x.1 ≤ step

/-- The samples with their angles within the cycle. -/
def turned (l : List (ℚ × ℚ)) : List (ℚ × ℚ) := l.map fun x => (turn720 x.1, x.2)

end Verif
