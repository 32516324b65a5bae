/-
Histories of the event timer's registers.
-/
import Verif.Model.TimerRegs
import Verif.Spec.Callback
import Verif.Spec.Time

namespace Verif

/-- Histories from power-on, next to the specification of a timer queue: true time `T` in ticks, requests for times less
than half a wrap (nine minutes) ahead and within half a wrap of one another, interrupts that find the flag set.
The Boolean says whether the history is inside the interrupt.  `ok` restricts the arming of the timer: the state
before, the time it is armed for, and when the clock ticks. -/
inductive RegReach {α : Type} [DecidableEq α] (ok : RegTimer α → Time → ArmTicks → Prop) :
    RegTimer α → TimerSpec α → Int → Bool → Prop
  | init (T : Int) :
      RegReach ok { q := CbQ.init α, now := stamp T, ccr := 0, ie := false, flag := false } (TimerSpec.empty α) T false
  | tick {s p T b} : RegReach ok s p T b → RegReach ok (regTick s) p (T + 1) b
  | request {s s' p T b} (c : α) (due : Int) (n : ArmTicks) : RegReach ok s p T b → p.Near c due → due < T + 2 ^ 31 →
      (∀ q h, scheduleCallback s.q c (stamp due) = .ok q → headTime q = .ok h → ok s h n) →
      regRequest n c (stamp due) s = .ok s' → RegReach ok s' (p.request c due) (T + n.total) b
  | take {s s' p T} (c : α) : RegReach ok s p T false → s.flag = true → regTake s = .ok (some c, s') →
      RegReach ok s' (p.served c) T true
  | rearm {s s' p T} (n : ArmTicks) : RegReach ok s p T true → (∀ h, headTime s.q = .ok h → ok s h n) →
      regRearm n s = .ok s' → RegReach ok s' p (if s.q.n > 0 then T + n.total else T) false

/-- The old compare time does not come between the clearing of the flag and the writing of the compare register, unless it
is the new one as well. -/
def NoRace {α : Type} (s : RegTimer α) (h : Time) (n : ArmTicks) : Prop :=
  ∀ k, 0 < k → k ≤ n.b → s.ccr = s.now + BitVec.ofNat 32 (n.a + k) → s.ccr = h

end Verif
