/-
What a knock input listens for.
-/
import Verif.Model.Sensors
import Mathlib.Analysis.SpecialFunctions.Complex.Log

namespace Verif

/-- The width of a bin of the filter, of which there are 64 in the sample rate. -/
def binWidth (rate : BitVec 32) : ℚ := rate.toNat / 64

/-- The frequency a knock input listens for: that of its bin. -/
def centre (rate : BitVec 32) (k : Knock) : ℚ := k.freq.toNat * binWidth rate

/-- The filter's coefficients are those of its bin: `w` is its angle per sample and `cr` the cosine. -/
def FilterOf [FloatFmt] [LibM] (k : Knock) : Prop :=
  k.width = 64 ∧ k.w = Fl.fin 2 * FloatFmt.rnd (314159 / 100000) * Fl.ofU32 k.freq / Fl.ofU32 64 ∧
    k.cr = LibM.cosf k.w

/-- The squared magnitude of the Fourier sum of 64 samples at bin `n`. -/
noncomputable def power64 (n : ℕ) (x : ℕ → ℝ) : ℝ :=
  Complex.normSq (∑ j ∈ Finset.range 64,
    (x j : ℂ) * Complex.exp (-(2 * Real.pi * Complex.I * n * j / 64)))

/-- Samples, `rate` in a second, of a tone of the frequency `f` on a constant level. -/
noncomputable def tone (rate : BitVec 32) (f a φ level : ℝ) (j : ℕ) : ℝ :=
  level + a * Real.cos (2 * Real.pi * f * j / rate.toNat + φ)

end Verif
