/-
Model of the event timer of the microcontrollers at the level of its registers: between any two accesses of
`schedule_event_timer` to them the clock may tick.
-/
import Verif.Model.EventTimer

namespace Verif

/-- The counter (`now`), the compare register, the bit that enables its interrupt, its flag, and the queue.
TIMER1 CNT, CH3CV, CH3IE, CH3IF on the gd32f4; TIM2 CNT, CCR4, CC4IE, CC4IF on the stm32f4. -/
structure RegTimer (α : Type) where
  q : CbQ α
  now : Time
  ccr : Time
  ie : Bool
  flag : Bool

/-- The counter counts.  The flag is set when the counter then equals the compare register, whether the interrupt is
enabled or not. -/
def regTick {α : Type} (s : RegTimer α) : RegTimer α :=
  { s with now := s.now + 1, flag := s.flag || (s.ccr == s.now + 1) }

def regTicks {α : Type} : Nat → RegTimer α → RegTimer α
  | 0, s => s
  | n + 1, s => regTicks n (regTick s)

/-- How often the counter counts between disabling the interrupt and clearing the flag (`a`), until the compare register is
written (`b`), until the interrupt is enabled (`c`), until the counter is read (`d`), and until the flag is set by
software (`e`). -/
structure ArmTicks where
  a : Nat
  b : Nat
  c : Nat
  d : Nat
  e : Nat

def ArmTicks.total (n : ArmTicks) : Nat := n.a + n.b + n.c + n.d + n.e

/-- src/platforms/gd32f4/gd32f4_sched.c:180-193 and src/platforms/stm32f4-discovery.c:860-875 `schedule_event_timer`, access
by access.  It runs with interrupts disabled or inside the interrupt. -/
def regArm {α : Type} (n : ArmTicks) (t : Time) (s : RegTimer α) : RegTimer α :=
  let s := regTicks n.a { s with ie := false }
  let s := regTicks n.b { s with flag := false }
  let s := regTicks n.c { s with ccr := t }
  let s := regTicks n.d { s with ie := true }
  let r := s.now
  let s := regTicks n.e s
  if timeBeforeOrEqual t r then { s with flag := true } else s

/-- `schedule_callback` (src/scheduler.c:306-320). -/
def regRequest {α : Type} [DecidableEq α] (n : ArmTicks) (c : α) (t : Time) (s : RegTimer α) : Except Fault (RegTimer α) :=
  match scheduleCallback s.q c t with
  | .error e => .error e
  | .ok q =>
    match headTime q with
    | .error e => .error e
    | .ok h => .ok (regArm n h { s with q := q })

/-- The compare part of the interrupt handler up to the call of the callback, when it finds the flag set
(gd32f4_sched.c:174-177, stm32f4-discovery.c:826-829, scheduler.c:322-330 without assertions).  The handler does not ask
whether the compare interrupt is enabled: it gets here after an edge on a trigger input, too. -/
def regTake {α : Type} [DecidableEq α] (s : RegTimer α) : Except Fault (Option α × RegTimer α) :=
  match executeTakeNdebug s.q with
  | .error e => .error e
  | .ok (c, q) => .ok (c, { s with q := q, flag := false })

/-- Its end (scheduler.c:332-334). -/
def regRearm {α : Type} (n : ArmTicks) (s : RegTimer α) : Except Fault (RegTimer α) :=
  if s.q.n > 0 then
    match headTime s.q with
    | .error e => .error e
    | .ok h => .ok (regArm n h { s with q := { s.q with timer := some h } })
  else .ok s

end Verif
