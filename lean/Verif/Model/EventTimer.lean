/-
Model of the event timer that drives the callback queue: `schedule_event_timer` and its interrupt
on the hosted platform and on the 32-bit compare timers.
-/
import Verif.Model.Callback

namespace Verif

/-- How a platform advances time and notices that the timer has expired. -/
structure TimerHw where
  /-- ticks per step of the clock -/
  step : Time
  /-- is the timer value `t` noticed when the clock goes from `before` to `after`? -/
  hit : Time → Time → Time → Bool

/-- stm32f4 and gd32f4: a free-running 32-bit counter and a compare register.  The compare flag is
set when the counter equals the register (src/platforms/gd32f4/gd32f4_sched.c:180-193,
src/platforms/stm32f4-discovery.c:860-875). -/
def compareTimer : TimerHw := { step := 1, hit := fun t _ after => t == after }

/-- Hosted: the clock moves in steps of 128 and the timer is noticed when
`time_in_range(event_timer_time, before, after)` (src/platforms/hosted.c:331-345). -/
def hostedTimer : TimerHw := { step := 128, hit := timeInRange }

/-- The clock, the timer registers and the queue.  `set` is the compare register (or
`event_timer_time`), `none` before it is first set (`event_timer_enabled` false; the compare
interrupt not yet enabled).  It is never unset: no code disables the timer again.  `flag` is the
pending interrupt (CH3IF / CC4IF / `event_timer_pending`). -/
structure EvTimer (α : Type) where
  q : CbQ α
  now : Time
  set : Option Time
  flag : Bool

/-- `schedule_event_timer(t)`: hosted.c:48-55, gd32f4_sched.c:180-193,
stm32f4-discovery.c:860-875.  Clear the pending flag, set the time, and raise the flag by software
if the time is not after now.  Simplification: one step, no clock tick in the middle. -/
def armTimer {α : Type} (s : EvTimer α) (t : Time) : EvTimer α :=
  { s with set := some t, flag := timeBeforeOrEqual t s.now }

/-- `schedule_callback` with the arming it ends with (src/scheduler.c:306-320). -/
def evRequest {α : Type} [DecidableEq α] (s : EvTimer α) (c : α) (t : Time) :
    Except Fault (EvTimer α) := do
  let q ← scheduleCallback s.q c t
  let h ← headTime q
  return armTimer { s with q := q } h

/-- The clock moves on one step. -/
def evTick {α : Type} (hw : TimerHw) (s : EvTimer α) : EvTimer α :=
  let after := s.now + hw.step
  { s with now := after,
           flag := s.flag || (match s.set with
             | none => false
             | some t => hw.hit t s.now after) }

/-- The interrupt is taken: the flag is cleared and `scheduler_callback_timer_execute` runs up to
the call of the callback (hosted.c:204-208, gd32f4_sched.c:174-177, stm32f4-discovery.c:826-829). -/
def evTake {α : Type} [DecidableEq α] (s : EvTimer α) : Except Fault (α × EvTimer α) := do
  let (c, q) ← executeTake s.q s.now
  return (c, { s with q := q, flag := false })

/-- The end of `scheduler_callback_timer_execute` (src/scheduler.c:332-334). -/
def evRearm {α : Type} [DecidableEq α] (s : EvTimer α) : Except Fault (EvTimer α) := do
  if s.q.n > 0 then
    let h ← headTime s.q
    return armTimer { s with q := { s.q with timer := some h } } h
  else return s

/-- src/scheduler.c:322-330 in a build with NDEBUG (stm32f4, gd32f4): the assertions of
`scheduler_callback_timer_execute` and `callback_remove` are gone, and the callback pointer may be
NULL. -/
def executeTakeNdebug {α : Type} [DecidableEq α] (q : CbQ α) : Except Fault (Option α × CbQ α) := do
  let cb ← rd q.arr 0
  let pos ← findPos q.arr (fun x => .ok (decide (x = cb))) q.n 0
  let arr ← shiftDown (q.n - 1 - pos) pos q.arr
  let arr ← wr arr ((q.n : Int) - 1) none
  match cb with
  | none => .error .nullDeref   -- tcb->scheduled = 0 on a NULL pointer
  | some c => return (cb, { q with arr := arr, n := q.n - 1, scheduled := upd q.scheduled c false })

end Verif
