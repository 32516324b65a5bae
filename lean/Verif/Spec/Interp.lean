/-
Specification of table lookup, independent of the firmware's code.
-/
import Mathlib.Data.Rat.Defs
import Mathlib.Algebra.Order.Ring.Rat

namespace Verif

/-- `x 0 < x 1 < … < x (n-1)`. -/
def StrictlyIncreasing (n : Nat) (x : Nat → ℚ) : Prop := ∀ i, i + 1 < n → x i < x (i + 1)

/-- `r` is the height at `v` of the polyline through the points `(x i, y i)`, `i < n`, extended
horizontally at both ends. -/
def OnPolyline (n : Nat) (x y : Nat → ℚ) (v r : ℚ) : Prop :=
  (v ≤ x 0 → r = y 0) ∧ (x (n - 1) ≤ v → r = y (n - 1)) ∧
  ∀ i, i + 1 < n → x i ≤ v → v ≤ x (i + 1) →
    (r - y i) * (x (i + 1) - x i) = (y (i + 1) - y i) * (v - x i)

/-- Nearest point of `[x 0, x (n-1)]`. -/
def clampTo (n : Nat) (x : Nat → ℚ) (v : ℚ) : ℚ := max (x 0) (min v (x (n - 1)))

/-- `r` is the bilinear interpolation at `(v, w)`, clamped to the grid, of the heights `z j i` at
the grid points `(x i, y j)`. -/
def OnSurface (n m : Nat) (x y : Nat → ℚ) (z : Nat → Nat → ℚ) (v w r : ℚ) : Prop :=
  ∀ i j, i + 1 < n → j + 1 < m →
    x i ≤ clampTo n x v → clampTo n x v ≤ x (i + 1) →
    y j ≤ clampTo m y w → clampTo m y w ≤ y (j + 1) →
    r * ((x (i + 1) - x i) * (y (j + 1) - y j)) =
      (x (i + 1) - clampTo n x v) * (y (j + 1) - clampTo m y w) * z j i +
      (clampTo n x v - x i) * (y (j + 1) - clampTo m y w) * z j (i + 1) +
      (x (i + 1) - clampTo n x v) * (clampTo m y w - y j) * z (j + 1) i +
      (clampTo n x v - x i) * (clampTo m y w - y j) * z (j + 1) (i + 1)

end Verif
