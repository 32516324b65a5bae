/-
The crank, what the decoder knows of it, and runs of the firmware against the real clock.
-/
import Verif.Spec.Engine
import Verif.Spec.Time

namespace Verif

/-- `x` is within `ε` degrees of `target`, modulo the cycle of 720 degrees. -/
def Near (x target ε : ℚ) : Prop := ∃ k : ℤ, |x - target - 720 * k| ≤ ε

/-- How well the decoder knows the crank. -/
structure CrankTol where
  /-- relative error of the tooth speed -/
  speed : ℚ
  /-- error of the reported angle at the reported time, in degrees -/
  angle : ℚ
  /-- deviation from even rotation during the next cycle, in degrees -/
  even : ℚ
  /-- largest angle the crank turns in one tick, in degrees -/
  tick : ℚ

/-- The tolerances make sense: the speed is known to a tenth and the crank turns less than ten degrees in a tick. -/
structure CrankTol.Sane (c : CrankTol) : Prop where
  speed0 : 0 ≤ c.speed
  speed1 : c.speed ≤ 1 / 10
  angle0 : 0 ≤ c.angle
  even0 : 0 ≤ c.even
  tick1 : c.tick ≤ 10

/-- Decoder `d` knows the crank, whose angle at tick `t` is `θ t`: the reported time is the one of a tooth at tick `T`, the
reported angle was true at that tick, and the reported speed is the one at which the crank turns for the next cycle. -/
structure KnowsCrank (θ : ℤ → ℚ) (c : CrankTol) (T : ℤ) (d : Decoder) : Prop where
  time : d.lastTriggerTime = stamp T
  angle : ∃ a, d.lastTriggerAngle = .fin a ∧ 0 ≤ a ∧ a ≤ 720 ∧ Near (θ T) a c.angle
  speed : ∃ w, 0 ≤ w ∧ w ≤ c.tick ∧ |w * (4000000 / 6) - d.toothRpm.toNat| ≤ c.speed * d.toothRpm.toNat ∧
    ∀ t, T ≤ t → w * (t - T) ≤ 810 → |θ t - θ T - w * (t - T)| ≤ c.even

/-- The error in degrees that these tolerances allow for an edge up to one cycle after the tooth: the speed error over a
cycle, two ticks of rotation, the errors of angle and rotation, and a hundredth for rounding. -/
def CrankTol.error (c : CrankTol) : ℚ := 720 * c.speed + 2 * c.tick + c.angle + c.even + 1 / 100

variable [FloatFmt]

/-- Runs of the firmware against the real clock.  `n` is the time in ticks, counted without end.  `E` is the tick at which
the two buffers, the one playing and the next, are over; the playing one began at `E - 256`.  A buffer swap is made while
the other buffer plays.  Every state of the run satisfies `G`. -/
inductive EngClock (G : ℤ → Engine → Prop) (e0 : Engine) : ℤ → ℤ → Engine → Prop
  | boot {n E : ℤ} : e0.dma.earliest = stamp E → E - 256 ≤ n → n < E → G n e0 → EngClock G e0 n E e0
  | step {n n' E : ℤ} {e e' : Engine} (a : EngAct) : EngClock G e0 n E e → n ≤ n' → n' < E → (∀ now, a ≠ .swap now) →
      engStep e a = .ok e' → G n' e' → EngClock G e0 n' E e'
  | swap {n n' E : ℤ} {e : Engine} : EngClock G e0 n E e → n ≤ n' → E - 128 ≤ n' → n' < E → G n' (engSwap e (stamp n')) →
      EngClock G e0 n' (E + 128) (engSwap e (stamp n'))

/-- Whenever the decoder is valid it knows the crank, from a tooth less than four seconds ago, and the timing advance is one
of the advances `Adv`. -/
def Tracks (θ : ℤ → ℚ) (c : CrankTol) (offset : ℚ) (Adv : ℚ → Prop) (n : ℤ) (e : Engine) : Prop :=
  e.cfg.decoder.valid = true → e.cfg.decoder.offset = .fin offset ∧
    (∃ T, T ≤ n ∧ n - T ≤ 2 ^ 24 ∧ KnowsCrank θ c T e.cfg.decoder) ∧ ∃ adv, e.vals.timingAdvance = .fin adv ∧ Adv adv

/-- The triggers handled so far are the teeth of a wheel, in order.  Tooth `j` passes the sensor at tick `T j`; a tooth is not
handled before it passes, and at most 256 ticks (64 microseconds) after. -/
def TeethGiven (T : ℕ → ℤ) (n : ℤ) (e : Engine) : Prop :=
  ∃ k : ℕ, e.given = (List.range k).map (fun j => (0, stamp (T j))) ∧ (∀ j < k, T j ≤ n) ∧ n < T k + 256

/-- The triggers handled so far are the teeth of a wheel, in order, and the timing advance is one of `Adv`. -/
def OnWheel (T : ℕ → ℤ) (Adv : ℚ → Prop) (n : ℤ) (e : Engine) : Prop :=
  TeethGiven T n e ∧ ∃ adv, e.vals.timingAdvance = .fin adv ∧ Adv adv

end Verif
