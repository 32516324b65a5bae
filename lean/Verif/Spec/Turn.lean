/-
A wheel turning within a band of speeds, with the expiry callback.
-/
import Verif.Spec.Cam

namespace Verif

/-- Every pitch of the wheel takes between `p` and `q` ticks. -/
structure SpeedBand (N s : ℕ) (p q : ℤ) (T : ℕ → ℤ) : Prop where
  low : ∀ n, p * ((wheelPos N s (n + 1) : ℤ) - wheelPos N s n) ≤ T (n + 1) - T n
  high : ∀ n, T (n + 1) - T n ≤ q * ((wheelPos N s (n + 1) : ℤ) - wheelPos N s n)

/-- A decoder and the time of its expiry callback, if one is scheduled.  The callback runs as soon as its time has come:
before anything that happens at time `t`, if it is due by then. -/
def expireBy (x : Decoder × Option Time) (t : Time) : Decoder × Option Time :=
  match x.2 with
  | some e => if timeBeforeOrEqual e t then (handleDecoderExpire x.1, none) else x
  | none => x

variable [FloatFmt]

/-- A trigger at time `t`.  A request for the expiry callback replaces the one scheduled before. -/
def turnTrigger (x : Decoder × Option Time) (trigger : Int) (t : Time) : Except Fault (Decoder × Option Time) :=
  decode (expireBy x t).1 trigger t >>= fun o => .ok (o.d, o.expire.or (expireBy x t).2)

/-- The first `n` teeth of a wheel, at times `T`. -/
def teethTurn (d0 : Decoder) (T : ℕ → ℤ) : ℕ → Except Fault (Decoder × Option Time)
  | 0 => .ok (decoderInit d0, none)
  | n + 1 => teethTurn d0 T n >>= fun x => turnTrigger x 0 (stamp (T n))

/-- The first `n` teeth of a wheel, at times `T`, with the cam pulses after them at times `P`. -/
def camTurn (d0 : Decoder) (T P : ℕ → ℤ) (N s k : ℕ) : ℕ → Except Fault (Decoder × Option Time)
  | 0 => .ok (decoderInit d0, none)
  | n + 1 => camTurn d0 T P N s k n >>= fun x => turnTrigger x 0 (stamp (T n)) >>= fun x =>
      if pulseAfter N s k n then turnTrigger x 1 (stamp (P n)) else .ok x

end Verif
