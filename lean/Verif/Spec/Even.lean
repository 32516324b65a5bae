/-
An even wheel with a cam pulse once per engine cycle.
-/
import Verif.Spec.Decoder
import Verif.Spec.Time

namespace Verif

/-- The speed, in revolutions per minute, of a shaft that turns `deg` degrees in `ticks` ticks of 0.25 us. -/
def speed (deg : ℚ) (ticks : ℤ) : ℚ := deg * (4000000 * 60) / (360 * ticks)

/-- Tooth `n` passes at time `T n`, and a tooth passes every `g` degrees.  The speed over each tooth is above the
configured minimum and agrees with the average speed over the last `w` teeth to within the fraction `v`, for
every window `w` the decoder may use (from the number of teeth required for a speed up to its window size).
The 3 rpm are a margin for the rounding of speeds to whole rpm. -/
structure EvenSteady (W R : ℕ) (v g : ℚ) (low : ℕ) (T : ℕ → ℤ) : Prop where
  later : ∀ n, T n < T (n + 1)
  fast : ∀ n, 1 ≤ n → (low : ℚ) + 2 ≤ speed g (T n - T (n - 1)) ∧ speed g (T n - T (n - 1)) ≤ 100000
  steady : ∀ n w, 2 ≤ w → min R W ≤ w → w ≤ W → w ≤ n →
    |speed g (T n - T (n - 1)) - speed (g * w) (T n - T (n - w))| + 3 ≤ v * speed (g * w) (T n - T (n - w)) ∧
    speed (g * w) (T n - T (n - w)) ≤ 100000

variable [FloatFmt]

/-- The decoder after initialising `d0` and receiving teeth `0` to `n - 1`.  A wheel of `N` teeth per cycle has its
cam pulse after tooth `c`, after tooth `c + N`, and so on; the pulse after tooth `n` comes at time `P n`. -/
def camFeed (d0 : Decoder) (T : ℕ → ℤ) (P : ℕ → Time) (N c : ℕ) : ℕ → Except Fault Decoder
  | 0 => .ok (decoderInit d0)
  | n + 1 => camFeed d0 T P N c n >>= fun d => decode d 0 (stamp (T n)) >>= fun o =>
      if n % N = c then decode o.d 1 (P n) >>= fun o => .ok o.d else .ok o.d

end Verif
