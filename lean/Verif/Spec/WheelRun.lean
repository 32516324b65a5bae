/-
Runs of the firmware against the real clock and a real wheel.
-/
import Verif.Spec.Injection
import Verif.Spec.Turn

namespace Verif

/-- `r` is a speed, in revolutions per minute, that a decoder may compute from teeth whose pitch of `g` degrees takes `p` to `q` ticks. -/
def SpeedIn (g : ℚ) (p q : ℤ) (r : BitVec 32) : Prop :=
  4000000 / 6 * g / q * (1 - 1 / 2 ^ 21) - 1 ≤ (r.toNat : ℚ) ∧ (r.toNat : ℚ) ≤ 4000000 / 6 * g / p * (1 + 1 / 2 ^ 21)

/-- The environment at tick `n`: the timer interrupt reads the clock, and no capture overruns. -/
def Honest (n : ℤ) : EngAct → Prop
  | .timer now => now = stamp n
  | .desync _ => False
  | _ => True

variable [FloatFmt]

/-- Runs against the real clock, as in `EngClock`, in which every step is one of `A`. -/
inductive EngTimed (A : ℤ → EngAct → Prop) (G : ℤ → Engine → Prop) (e0 : Engine) : ℤ → ℤ → Engine → Prop
  | boot {n E : ℤ} : e0.dma.earliest = stamp E → E - 256 ≤ n → n < E → G n e0 → EngTimed A G e0 n E e0
  | step {n n' E : ℤ} {e e' : Engine} (a : EngAct) : EngTimed A G e0 n E e → n ≤ n' → n' < E → (∀ now, a ≠ .swap now) → A n' a →
      engStep e a = .ok e' → G n' e' → EngTimed A G e0 n' E e'
  | swap {n n' E : ℤ} {e : Engine} : EngTimed A G e0 n E e → n ≤ n' → E - 128 ≤ n' → n' < E → G n' (engSwap e (stamp n')) →
      EngTimed A G e0 n' (E + 128) (engSwap e (stamp n'))

/-- The run goes on from one state to another; the arguments are as for `EngTimed`. -/
inductive EngOn (A : ℤ → EngAct → Prop) (G : ℤ → Engine → Prop) (n0 E0 : ℤ) (e0 : Engine) : ℤ → ℤ → Engine → Prop
  | refl : EngOn A G n0 E0 e0 n0 E0 e0
  | step {n n' E : ℤ} {e e' : Engine} (a : EngAct) : EngOn A G n0 E0 e0 n E e → n ≤ n' → n' < E → (∀ now, a ≠ .swap now) → A n' a →
      engStep e a = .ok e' → G n' e' → EngOn A G n0 E0 e0 n' E e'
  | swap {n n' E : ℤ} {e : Engine} : EngOn A G n0 E0 e0 n E e → n ≤ n' → E - 128 ≤ n' → n' < E → G n' (engSwap e (stamp n')) →
      EngOn A G n0 E0 e0 n' (E + 128) (engSwap e (stamp n'))

/-- The triggers handled so far are those of a list without end, in order.  Trigger `j` comes on input `(ev j).1` at tick
`(ev j).2`; it is not handled before that tick, and at most 256 ticks (64 microseconds) after. -/
def EventsGiven (ev : ℕ → Int × ℤ) (n : ℤ) (e : Engine) : Prop :=
  ∃ k : ℕ, e.given = (List.range k).map (fun j => ((ev j).1, stamp (ev j).2)) ∧ (∀ j < k, (ev j).2 ≤ n) ∧ n < (ev k).2 + 256

/-- `k` triggers have been decoded: those given, less the one that the handler is still to decode. -/
def Decoded (k : ℕ) (e : Engine) : Prop :=
  (∀ i t, e.pc = .record i t → e.given.length = k + 1) ∧ ((∀ i t, e.pc ≠ .record i t) → e.given.length = k)

/-- The crank turns with the wheel, tooth `j` being `pos j` pitches of `g` degrees along the rim and tooth 0 of the cycle `n0`.  After each tooth `j` from `m0` on it keeps some speed `w` for
the next cycle, within `c.even`, and this is the speed at which tooth `j` has passed, within half of `c.speed`; the tooth is
where it should be, within `c.angle`.  The wheel is not so slow that whole revolutions per minute are too coarse a measure
of its speed. -/
structure CrankTurnsFrom (θ : ℤ → ℚ) (c : CrankTol) (pos : ℕ → ℕ) (n0 m0 : ℕ) (g : ℚ) (T : ℕ → ℤ) : Prop where
  place : ∀ j, m0 ≤ j → |θ (T j) - g * ((pos j : ℚ) - pos n0)| ≤ c.angle
  speed : ∀ j, m0 ≤ j → ∃ w, 0 ≤ w ∧ w ≤ c.tick ∧
    (∀ t, T j ≤ t → w * (t - T j) ≤ 810 → |θ t - θ (T j) - w * (t - T j)| ≤ c.even) ∧
    |w * (T j - T (j - 1)) - g * ((pos j : ℚ) - pos (j - 1))| ≤
      c.speed / 2 * (g * ((pos j : ℚ) - pos (j - 1)))
  fast : ∀ j, m0 ≤ j → 6 * ((T j : ℚ) - T (j - 1)) ≤ c.speed * (4000000 / 6 * (g * ((pos j : ℚ) - pos (j - 1))))
  slow : ∀ j, m0 ≤ j → 4000000 / 6 * (g * ((pos j : ℚ) - pos (j - 1))) ≤ 2 ^ 24 * ((T j : ℚ) - T (j - 1))

/-- The crank turns so from the tooth after tooth 0 of the cycle on. -/
abbrev CrankTurns (θ : ℤ → ℚ) (c : CrankTol) (pos : ℕ → ℕ) (n0 : ℕ) (g : ℚ) (T : ℕ → ℤ) : Prop := CrankTurnsFrom θ c pos n0 (n0 + 1) g T

end Verif
