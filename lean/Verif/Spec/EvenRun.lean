/-
An even wheel with a cam pulse once per engine cycle, for runs of the whole firmware.
-/
import Verif.Spec.CamRun
import Verif.Props.Even

namespace Verif

variable [FloatFmt]

/-- An even wheel in a run of the whole firmware, with or without a cam.  A tooth takes between `p` and `q` ticks, and half a tooth more than the
shortest leaves 64 microseconds to spare after the longest: the decoder gives up half a tooth after the next is due. -/
structure EvenPace (d0 : Decoder) (N R W low : ℕ) (v g : ℚ) (p q : ℤ) (T : ℕ → ℤ) : Prop where
  wheel : EvenTeeth d0 N R W low v g T
  size : 0 < N
  band : ∀ n, p ≤ T (n + 1) - T n ∧ T (n + 1) - T n ≤ q
  pitch : 9 ≤ g
  narrow : 16 * q ≤ 23 * p
  room : (q : ℚ) + 257 ≤ 3 / 2 * p * (1 - 1 / 2 ^ 22)
  slow : q ≤ 2 ^ 22

/-- An even wheel without a cam and a decoder for it, as it is before the firmware starts.  Every trigger is a tooth.  No more
teeth are required for a speed than the wheel has in a cycle, and more than are averaged. -/
structure FreeWheel (d0 : Decoder) (N R W low : ℕ) (v g : ℚ) (p q : ℤ) (T : ℕ → ℤ) : Prop where
  type : d0.type = .evenNosync
  pace : EvenPace d0 N R W low v g p q T
  window : W < R
  fits : R ≤ N
  required : R ≤ 37

/-- An even wheel with a cam and a decoder for it, as it is before the firmware starts.  The cam pulse comes between two
teeth, after tooth `c`, after tooth `c + N`, and so on; the one after tooth `m` comes when enough teeth have been seen.  A
tooth takes between `p` and `q` ticks, and half a tooth more than the shortest leaves 64 microseconds to spare after the longest:
the decoder gives up half a tooth after the next is due. -/
structure EvenWheel (d0 : Decoder) (N R W low c m : ℕ) (v g : ℚ) (p q : ℤ) (T P : ℕ → ℤ) : Prop where
  wheel : EvenSetup d0 N R W low v g T
  window : W < R
  required : R ≤ 37
  place : c < N
  between : ∀ n, T n < P n ∧ P n < T (n + 1)
  band : ∀ n, p ≤ T (n + 1) - T n ∧ T (n + 1) - T n ≤ q
  pitch : 9 ≤ g
  narrow : 16 * q ≤ 23 * p
  room : (q : ℚ) + 257 ≤ 3 / 2 * p * (1 - 1 / 2 ^ 22)
  slow : q ≤ 2 ^ 22
  pulse : m % N = c
  enough : R ≤ m + 1

end Verif
