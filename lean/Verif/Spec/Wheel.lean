/-
A wheel with evenly spaced tooth positions, one of them missing, turning past a sensor.
-/
import Verif.Spec.Decoder
import Verif.Spec.Time

namespace Verif

/-- Tooth position, in pitches, of the `n`-th tooth to pass: the wheel has `N` positions and `N - 1` teeth,
and tooth 0 is number `s` after the gap. -/
def wheelPos (N s n : ℕ) : ℕ := N * ((s + n) / (N - 1)) + (s + n) % (N - 1)

/-- The tooth follows the gap. -/
def afterGap (N s n : ℕ) : Prop := (s + n) % (N - 1) = 0

/-- Tooth `n` passes at time `T n` (in ticks).  Teeth are less than four seconds apart, and each comes
within a fraction `v` of a pitch of the time predicted by the average pitch over the `R - 1` tooth gaps
before it. -/
structure SteadyTeeth (N s R : ℕ) (v : ℚ) (T : ℕ → ℤ) : Prop where
  later : ∀ n, T n < T (n + 1)
  close : ∀ n, T (n + 1) - T n ≤ 2 ^ 24
  steady : ∀ n, R ≤ n →
    let pitch : ℤ := (T (n - 1) - T (n - R)) / ((wheelPos N s (n - 1) : ℤ) - wheelPos N s (n - R))
    let passed : ℚ := (wheelPos N s n : ℚ) - wheelPos N s (n - 1)
    (passed - v) * pitch ≤ T n - T (n - 1) ∧ (T n : ℚ) - T (n - 1) ≤ (passed + v) * pitch

variable [FloatFmt]

/-- The decoder after initialising `d0` and receiving the first `n` teeth. -/
def feedTeeth (d0 : Decoder) (T : ℕ → ℤ) : ℕ → Except Fault Decoder
  | 0 => .ok (decoderInit d0)
  | n + 1 => feedTeeth d0 T n >>= fun d => decode d 0 (stamp (T n)) >>= fun o => .ok o.d

end Verif
