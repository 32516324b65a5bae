/-
Model of the deferred-callback queue of src/scheduler.c (lines 11-13 and 266-335).

A `struct timer_callback *` is an element of a type `α` (in the firmware, `CbId` below); the
`time` and `scheduled` fields of the structs are functions on `α`.  What a callback does when it
is called is not part of the queue: `execute` returns which callback to call, and the caller
continues with `rearm` after the call.
-/
import Verif.Base.Arr
import Verif.Model.Util

namespace Verif

/-- MAX_CALLBACKS, src/scheduler.c:11. -/
abbrev maxCallbacks : Nat := 32

/-- The `struct timer_callback` objects of the firmware: `expire_event` (src/decoder.c:26),
`callback` in each of the 16 output events (src/scheduler.h:54, src/config.h MAX_EVENTS),
`test_trigger_callback` (src/sim.c:38), and the replay timer of the hosted platform
(src/platforms/hosted.c:411-506). -/
inductive CbId
  | expire
  | event (i : Fin 16)
  | testTrigger
  | replay
  deriving DecidableEq

/-- src/scheduler.c:12-13 `callbacks[]`, `n_callbacks`, the fields of the callback structs
(src/scheduler.h:39-44), and the time last given to `schedule_event_timer`. -/
structure CbQ (α : Type) where
  arr : Fin maxCallbacks → Option α
  n : Nat
  time : α → Time
  scheduled : α → Bool
  timer : Option Time

/-- `callbacks[]` all NULL, nothing pending (static initialisation). -/
def CbQ.init (α : Type) : CbQ α :=
  { arr := fun _ => none, n := 0, time := fun _ => 0, scheduled := fun _ => false, timer := none }

section
variable {α : Type}

/-- The search loops, src/scheduler.c:269-273 and 290-294: `rem` iterations left, at index `i`;
stops at the first entry satisfying `p`, or at `n_callbacks`. -/
def findPos (arr : Fin maxCallbacks → Option α) (p : Option α → Except Fault Bool) :
    Nat → Nat → Except Fault Nat
  | 0, i => .ok i
  | rem + 1, i => do
    let c ← rd arr i
    if ← p c then .ok i else findPos arr p rem (i + 1)

/-- src/scheduler.c:277-279: `rem` iterations of `callbacks[i] = callbacks[i + 1]; ++i`. -/
def shiftDown : Nat → Nat → (Fin maxCallbacks → Option α) → Except Fault (Fin maxCallbacks → Option α)
  | 0, _, arr => .ok arr
  | rem + 1, i, arr => do
    let c ← rd arr (i + 1 : Nat)
    let arr ← wr arr i c
    shiftDown rem (i + 1) arr

/-- src/scheduler.c:297-299: `rem` iterations of `callbacks[i] = callbacks[i - 1]; --i`, from
`i = pos + rem`. -/
def shiftUp (pos : Nat) : Nat → (Fin maxCallbacks → Option α) → Except Fault (Fin maxCallbacks → Option α)
  | 0, arr => .ok arr
  | rem + 1, arr => do
    let c ← rd arr (pos + rem : Nat)
    let arr ← wr arr (pos + rem + 1 : Nat) c
    shiftUp pos rem arr

variable [DecidableEq α]

/-- Update of one field of one callback struct. -/
def upd {β : Type} (f : α → β) (a : α) (b : β) : α → β := fun x => if x = a then b else f x

/-- src/scheduler.c:266-284 `callback_remove`. -/
def callbackRemove (q : CbQ α) (c : α) : Except Fault (CbQ α) := do
  let pos ← findPos q.arr (fun x => .ok (decide (x = some c))) q.n 0
  cassert (decide (pos < q.n))
  let arr ← shiftDown (q.n - 1 - pos) pos q.arr
  let arr ← wr arr ((q.n : Int) - 1) none
  return { q with arr := arr, n := q.n - 1, scheduled := upd q.scheduled c false }

/-- src/scheduler.c:291, the comparison `time_before(tcb->time, callbacks[i]->time)`. -/
def cmpTime (time : α → Time) (c : α) : Option α → Except Fault Bool
  | none => .error .nullDeref
  | some d => .ok (timeBefore (time c) (time d))

/-- src/scheduler.c:286-304 `callback_insert`. -/
def callbackInsert (q : CbQ α) (c : α) : Except Fault (CbQ α) := do
  let pos ← findPos q.arr (cmpTime q.time c) q.n 0
  let arr ← shiftUp pos (q.n - pos) q.arr
  let arr ← wr arr pos (some c)
  return { q with arr := arr, n := q.n + 1, scheduled := upd q.scheduled c true }

/-- `callbacks[0]->time`. -/
def headTime (q : CbQ α) : Except Fault Time := do
  match ← rd q.arr 0 with
  | none => .error .nullDeref
  | some c => return q.time c

/-- src/scheduler.c:309-311: `if (tcb->scheduled) callback_remove(tcb)`. -/
def removeIfScheduled (q : CbQ α) (c : α) : Except Fault (CbQ α) :=
  if q.scheduled c then callbackRemove q c else .ok q

/-- src/scheduler.c:306-320 `schedule_callback`.  The body runs with interrupts masked, so it is
one step. -/
def scheduleCallback (q : CbQ α) (c : α) (t : Time) : Except Fault (CbQ α) := do
  let q ← removeIfScheduled q c
  let q := { q with time := upd q.time c t }
  let q ← callbackInsert q c
  let h ← headTime q
  return { q with timer := some h }

/-- src/scheduler.c:322-330, `scheduler_callback_timer_execute` up to the call of the callback:
which callback is called, and the queue at that moment. -/
def executeTake (q : CbQ α) (now : Time) : Except Fault (α × CbQ α) := do
  cassert (decide (q.n > 0))
  let h ← headTime q
  cassert (timeBeforeOrEqual h now)
  match ← rd q.arr 0 with
  | none => .error .nullDeref
  | some c => do
    let q ← callbackRemove q c
    return (c, q)

/-- src/scheduler.c:332-334: the end of `scheduler_callback_timer_execute`, after the callback
has returned. -/
def executeRearm (q : CbQ α) : Except Fault (CbQ α) := do
  if q.n > 0 then
    let h ← headTime q
    return { q with timer := some h }
  else return q

end

end Verif
