/-
Model of the output event part of src/scheduler.c (lines 15-264) and src/scheduler.h.

`interrupts_enabled()` assertions are left to Verif.Model.Interrupts.  `disable_interrupts()` /
`enable_interrupts()` pairs mark the parts that run atomically with respect to buffer swaps: each
of `descheduleCrit` and `scheduleCrit` is one such part.
-/
import Verif.Model.Decoder

namespace Verif

/-- src/scheduler.h:14-21 `sched_state_t`. -/
inductive SState
  | unscheduled
  | scheduled
  | submitted
  | fired
  deriving DecidableEq

/-- src/scheduler.h:23-28 `struct sched_entry`. -/
structure Entry where
  time : Time
  pin : BitVec 8
  val : Bool
  state : SState
  deriving DecidableEq

/-- src/scheduler.h:8-12 `event_type_t`. -/
inductive EvType
  | disabled
  | fuel
  | ignition
  deriving DecidableEq

/-- src/scheduler.h:47-56 `struct output_event`; its `callback` member lives in the callback queue
(Verif.Model.Callback, `CbId.event`). -/
structure OEvent where
  type : EvType
  angle : Fl
  pin : BitVec 32
  inverted : Bool
  start : Entry
  stop : Entry
  deriving DecidableEq

/-- A zero-initialised entry. -/
def Entry.init : Entry := { time := 0, pin := 0, val := false, state := .unscheduled }

/-- src/scheduler.c:16-18 `event_has_fired`. -/
def eventHasFired (ev : OEvent) : Bool :=
  decide (ev.start.state = .fired) && decide (ev.stop.state = .fired)

/-- src/scheduler.c:21-24 `event_is_unscheduled`. -/
def eventIsUnscheduled (ev : OEvent) : Bool :=
  decide (ev.start.state = .unscheduled) && decide (ev.stop.state = .unscheduled)

/-- src/scheduler.c:29-39 `sched_entry_disable` as built with NDEBUG. -/
def entryDisable (en : Entry) : Entry × Bool :=
  if en.state ≠ .scheduled then (en, false) else ({ en with state := .unscheduled }, true)

/-- src/scheduler.c:29-39 `sched_entry_disable` with its assertion on the state. -/
def entryDisableA (en : Entry) : Except Fault (Entry × Bool) := do
  cassert (decide (en.state ≠ .unscheduled))
  return entryDisable en

/-- src/scheduler.c:46-60 `sched_entry_enable`; `earliest` is what
`platform_output_earliest_schedulable_time()` returns. -/
def entryEnable (earliest : Time) (en : Entry) (time : Time) : Entry × Bool :=
  if en.state = .submitted ∨ en.state = .fired then (en, false)
  else if timeBefore time earliest then (en, false)
  else ({ en with time := time, state := .scheduled }, true)

/-- src/scheduler.c:63-68 `reset_fired_event`. -/
def resetFiredEvent (ev : OEvent) : Except Fault OEvent := do
  cassert (decide (ev.start.state = .fired))
  cassert (decide (ev.stop.state = .fired))
  return { ev with start := { ev.start with state := .unscheduled },
                   stop := { ev.stop with state := .unscheduled } }

/-- src/scheduler.c:72-80 `deschedule_event` as built with NDEBUG: one critical section. -/
def descheduleCrit (ev : OEvent) : OEvent :=
  if (entryDisable ev.start).2 then
    { ev with start := (entryDisable ev.start).1, stop := (entryDisable ev.stop).1 }
  else ev

/-- src/scheduler.c:72-80 `deschedule_event` with the assertions of `sched_entry_disable`. -/
def descheduleEvent (ev : OEvent) : Except Fault OEvent := do
  let (s, ok) ← entryDisableA ev.start
  if ok then
    let (p, _) ← entryDisableA ev.stop
    return { ev with start := s, stop := p }
  else return ev

/-- src/scheduler.c:83-95, one turn of the loop of `invalidate_scheduled_events`. -/
def invalidateOne (ev : OEvent) : Except Fault OEvent :=
  if ev.start.state = .unscheduled then .ok ev
  else if ev.type = .ignition ∨ ev.type = .fuel then descheduleEvent ev
  else .ok ev

/-- `evs[i] = v`. -/
def setEv {n : Nat} (evs : Fin n → OEvent) (i : Fin n) (v : OEvent) : Fin n → OEvent :=
  fun j => if j = i then v else evs j

/-- One turn of the loop, on the array. -/
def invalidateAt {n : Nat} (evs : Fin n → OEvent) (i : Fin n) : Except Fault (Fin n → OEvent) := do
  let ev ← invalidateOne (evs i)
  return setEv evs i ev

/-- src/scheduler.c:82-96 `invalidate_scheduled_events`, on an array of `n` events. -/
def invalidateEvents {n : Nat} (evs : Fin n → OEvent) : Except Fault (Fin n → OEvent) :=
  (List.finRange n).foldlM invalidateAt evs

/-- src/scheduler.c:104-107: the pin and value of both edges are rewritten, with interrupts
enabled.  `ev->pin` (32 bits) is stored in 8 bits. -/
def setPins (ev : OEvent) : OEvent :=
  { ev with start := { ev.start with pin := ev.pin.setWidth 8, val := !ev.inverted },
            stop := { ev.stop with pin := ev.pin.setWidth 8, val := ev.inverted } }

/-- src/scheduler.c:124-126: the stop time to use when the start could not be moved. -/
def adjustStop (ev : OEvent) (moved : Bool) (newstart newstop : Time) : Time :=
  if !moved && decide (ev.type = .fuel) then newstop + (ev.start.time - newstart) else newstop

/-- src/scheduler.c:109-131: the critical section of `schedule_output_event_safely`. -/
def scheduleCrit (earliest : Time) (ev : OEvent) (newstart newstop : Time) : OEvent :=
  if eventIsUnscheduled ev then
    if (entryEnable earliest ev.start newstart).2 then
      { ev with start := (entryEnable earliest ev.start newstart).1,
                stop := (entryEnable earliest ev.stop newstop).1 }
    else ev
  else
    { ev with start := (entryEnable earliest ev.start newstart).1,
              stop := (entryEnable earliest ev.stop
                (adjustStop ev (entryEnable earliest ev.start newstart).2 newstart newstop)).1 }

/-- src/scheduler.c:100-132 `schedule_output_event_safely`. -/
def scheduleSafely (earliest : Time) (ev : OEvent) (newstart newstop : Time) : OEvent :=
  scheduleCrit earliest (setPins ev) newstart newstop

section
variable [FloatFmt]

/-- src/scheduler.c:154-157 and 207-210: too close (less than 90 degrees) to the last firing? -/
def tooSoon (ev : OEvent) (d : Decoder) (stopTime : Time) : Except Fault Bool := do
  let lim ← timeFromRpmDiff d.rpm (Fl.fin 90)
  return decide ((timeDiff stopTime ev.stop.time).toNat < lim.toNat)

/-- src/scheduler.c:152-160 and 205-214: a fired event is reset unless it is too soon; `none` means
the caller returns. -/
def resetIfFired (ev : OEvent) (d : Decoder) (stopTime : Time) : Except Fault (Option OEvent) := do
  if eventHasFired ev then
    let soon ← tooSoon ev d stopTime
    if soon then return none
    else
      let ev ← resetFiredEvent ev
      return some ev
  else return some ev

/-- src/scheduler.c:164-169 and 220-225: would the scheduled stop move forward by more than 180
degrees? -/
def tooFar (ev : OEvent) (d : Decoder) (stopTime : Time) : Except Fault Bool := do
  if ev.stop.state = .scheduled ∧ timeBefore ev.stop.time stopTime = true then
    let lim ← timeFromRpmDiff d.rpm (Fl.fin 180)
    return decide (lim.toNat < (timeDiff stopTime ev.stop.time).toNat)
  else return false

/-- src/scheduler.c:171-175: less than the minimum time since the last firing? -/
def tooLittle (ev : OEvent) (minFireUs : BitVec 32) (startTime : Time) : Except Fault Bool := do
  let lim ← timeFromUs minFireUs
  return decide ((timeDiff startTime ev.stop.time).toNat < lim.toNat)

/-- What `schedule_event` reads besides the event itself. -/
structure SchedEnv where
  /-- `config.decoder` -/
  d : Decoder
  /-- `platform_output_earliest_schedulable_time()` -/
  earliest : Time
  /-- `current_time()` -/
  now : Time
  /-- `(degrees_t)calculated_values.timing_advance` -/
  advance : Fl
  /-- `calculated_values.dwell_us` -/
  dwellUs : BitVec 32
  /-- `calculated_values.fueling_us` -/
  fuelingUs : BitVec 32
  /-- `config.ignition.min_fire_time_us` -/
  minFireUs : BitVec 32
  /-- result of `ignition_cut()` -/
  ignitionCut : Bool
  /-- result of `fuel_cut()` -/
  fuelCut : Bool

/-- src/scheduler.c:146-148: stop time of an ignition event. -/
def ignitionStop (env : SchedEnv) (ev : OEvent) : Except Fault Time := do
  let a ← clampAngle (ev.angle - env.advance - env.d.lastTriggerAngle + env.d.offset) (Fl.fin 720)
  let t ← timeFromRpmDiff env.d.toothRpm a
  return env.d.lastTriggerTime + t

/-- src/scheduler.c:164-181, after the event has been reset if needed. -/
def ignitionArm (env : SchedEnv) (ev : OEvent) (start stop : Time) : Except Fault OEvent := do
  let far ← tooFar ev env.d stop
  if far then return ev
  else
    let little ← tooLittle ev env.minFireUs start
    if little then return ev
    else return scheduleSafely env.earliest ev start stop

/-- src/scheduler.c:152-181: go on with the event, or return when it fired too recently. -/
def ignitionGo (env : SchedEnv) (ev : OEvent) (start stop : Time) : Option OEvent → Except Fault OEvent
  | none => .ok ev
  | some ev => ignitionArm env ev start stop

/-- src/scheduler.c:134-182 `schedule_ignition_event` (its result is not used by any caller). -/
def scheduleIgnition (env : SchedEnv) (ev : OEvent) : Except Fault OEvent := do
  if env.d.rpm = 0 ∨ env.d.valid = false then return ev
  else
    let stop ← ignitionStop env ev
    let dwell ← timeFromUs env.dwellUs
    let r ← resetIfFired ev env.d stop
    ignitionGo env ev (stop - dwell) stop r

/-- src/scheduler.c:196-200: stop time of a fuel event. -/
def fuelStop (env : SchedEnv) (ev : OEvent) : Except Fault Time := do
  let a ← clampAngle (ev.angle - env.d.lastTriggerAngle + env.d.offset) (Fl.fin 720)
  let t ← timeFromRpmDiff env.d.toothRpm a
  return env.d.lastTriggerTime + t

/-- src/scheduler.c:233-238: the callback asked for once a stop time is set. -/
def fuelCallback (now : Time) (ev : OEvent) : Option Time :=
  if ev.stop.state = .scheduled ∧ timeBefore ev.stop.time now = false then some ev.stop.time else none

/-- src/scheduler.c:220-238, after the event has been reset if needed. -/
def fuelArm (env : SchedEnv) (ev : OEvent) (start stop : Time) :
    Except Fault (OEvent × Option Time) := do
  let far ← tooFar ev env.d stop
  if far then return (ev, none)
  else
    let ev := scheduleSafely env.earliest ev start stop
    return (ev, fuelCallback env.now ev)

/-- src/scheduler.c:205-238: go on with the event, or return when it fired too recently. -/
def fuelGo (env : SchedEnv) (ev : OEvent) (start stop : Time) :
    Option OEvent → Except Fault (OEvent × Option Time)
  | none => .ok (ev, none)
  | some ev => fuelArm env ev start stop

/-- src/scheduler.c:184-238 `schedule_fuel_event`; also returns the time of the requested
callback. -/
def scheduleFuel (env : SchedEnv) (ev : OEvent) : Except Fault (OEvent × Option Time) := do
  if env.d.rpm = 0 ∨ env.d.valid = false then return (ev, none)
  else
    let stop ← fuelStop env ev
    let r ← resetIfFired ev env.d stop
    fuelGo env ev (stop - 4 * env.fuelingUs) stop r

/-- src/scheduler.c:240-264 `schedule_event(&config.events[i])`; also returns the time of the
requested callback. -/
def scheduleEvent {n : Nat} (env : SchedEnv) (evs : Fin n → OEvent) (i : Fin n) :
    Except Fault ((Fin n → OEvent) × Option Time) :=
  match (evs i).type with
  | .ignition =>
    if env.ignitionCut || !env.d.valid then do
      let evs ← invalidateEvents evs
      return (evs, none)
    else do
      let ev ← scheduleIgnition env (evs i)
      return (setEv evs i ev, none)
  | .fuel =>
    if env.fuelCut || !env.d.valid then do
      let evs ← invalidateEvents evs
      return (evs, none)
    else do
      let (ev, cb) ← scheduleFuel env (evs i)
      return (setEv evs i ev, cb)
  | .disabled => .ok (evs, none)

end

end Verif
