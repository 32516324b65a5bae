/-
What a PWM output is meant to do.
-/
import Verif.Model.Pwm

namespace Verif

variable [FloatFmt]

/-- What can happen to the timer: a count, or a command to some output. -/
inductive PwmAct
  | tick
  | set (output : BitVec 32) (percent : Fl)

/-- The timer after some counts and commands. -/
def pwmRun (f : PwmTimer → BitVec 32 → Fl → Except Fault PwmTimer) : PwmTimer → List PwmAct → Except Fault PwmTimer
  | t, [] => .ok t
  | t, .tick :: as => pwmRun f t.tick as
  | t, .set o x :: as => do
      let t' ← f t o x
      pwmRun f t' as

/-- The counts among some acts. -/
def ticksIn : List PwmAct → Nat
  | [] => 0
  | .tick :: as => ticksIn as + 1
  | .set _ _ :: as => ticksIn as

/-- A duty in percent, limited to 0 to 100. -/
def limited (x : ℚ) : ℚ := max 0 (min 100 x)

/-- `k` of the 65536 counts of a period are the commanded share, up to three counts; none for nothing. -/
def Share (k : Nat) (percent : ℚ) : Prop := |(k : ℚ) / 65536 - limited percent / 100| ≤ 3 / 65536 ∧ (percent ≤ 0 → k = 0)

/-- C75 for a `set_pwm`: a command of any number to output `ch + 1` succeeds, changes nothing else and leaves the period in progress alone; and the
periods that start after it, with no other command to this output, have one pulse of the commanded share at their start. -/
def PwmObeys (f : PwmTimer → BitVec 32 → Fl → Except Fault PwmTimer) (percent : ℚ) : Prop :=
  ∀ (t : PwmTimer) (ch : Fin 4), ∃ t' : PwmTimer, f t (BitVec.ofNat 32 (ch + 1)) (.fin percent) = .ok t' ∧
    (∀ j, j ≠ ch → t'.cv j = t.cv j) ∧
    ∃ k : Nat, Share k percent ∧
      ∀ (as : List PwmAct) (u : PwmTimer), pwmRun f t' as = .ok u → (∀ o x, PwmAct.set o x ∈ as → o.toNat ≠ ch + 1) →
        (65536 ≤ t'.cnt.toNat + ticksIn as → (u.high ch = true ↔ u.cnt.toNat < k)) ∧
        (t'.cnt.toNat + ticksIn as < 65536 → (u.high ch = true ↔ u.cnt.toNat < (t.act ch).toNat)) ∧
        u.cnt.toNat = (t'.cnt.toNat + ticksIn as) % 65536

end Verif
