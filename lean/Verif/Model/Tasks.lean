/-
Model of src/tasks.c.  The outputs written with `set_gpio`, `set_pwm` and `set_output` are returned.
-/
import Verif.Model.Calc

namespace Verif

section
variable [FloatFmt]

/-- src/tasks.c:7-28 `handle_fuel_pump`: the level written to the pump output and the static
`last_valid`.  `now1`, `now2` and `now3` are the successive results of `current_time()`: in the range
test, in the next statement executed, and in the last assignment. -/
def fuelPump (lastTrigger now1 now2 now3 lastValid : Time) : Except Fault (Bool × Time) := do
  let sec ← timeFromUs 1000000
  if timeInRange now1 lastTrigger (lastTrigger + sec) then return (true, now2)
  else do
    let prime ← timeFromUs 4000000
    if (timeDiff now2 lastValid).toNat < prime.toNat then return (true, lastValid)
    else do
      let back ← timeFromUs 5000000
      return (false, now3 - back)

/-- src/tasks.c:30-48 `handle_boost_control`: the duty written. -/
def boostControl (c : Config) : Except Fault Fl :=
  let map := (c.sensors sensorMap).value
  let tps := (c.sensors sensorTps).value
  if Fl.lt map c.boost.enableKpa then .ok (Fl.fin 0)
  else if Fl.lt map c.boost.controlKpa && Fl.lt c.boost.controlTps tps then .ok (Fl.fin 100)
  else do
    let t ← deref c.boost.duty
    interp1 t (Fl.ofU32 c.decoder.rpm)

/-- src/tasks.c:60-65 `cel_state_t`, in the order of its values. -/
inductive CelState
  | none
  | constant
  | slow
  | fast
  deriving DecidableEq

/-- The enumeration's integer value. -/
def CelState.rank : CelState → Nat
  | .none => 0
  | .constant => 1
  | .slow => 2
  | .fast => 3

/-- src/tasks.c:70-92 `determine_next_cel_state`. -/
def nextCel (c : Config) : CelState :=
  let sensorFault := decide ((faultStatus c.sensors).toNat > 0)
  let decodeLoss := !c.decoder.valid && decide (c.decoder.rpm.toNat > 0)
  let lean := Fl.lt c.cel.leanKpa (c.sensors sensorMap).value && Fl.lt c.cel.leanEgo (c.sensors sensorEgo).value
  if lean then .fast else if decodeLoss then .slow else if sensorFault then .constant else .none

/-- src/tasks.c:94-109 `determine_cel_pin_state`. -/
def celPin (s : CelState) (now start : Time) : Except Fault Bool :=
  match s with
  | .none => .ok false
  | .constant => .ok true
  | .slow => do
    let h ← timeFromUs 500000
    if h = 0 then .error .divZero else return decide ((now - start).toNat / h.toNat % 2 = 1)
  | .fast => do
    let h ← timeFromUs 200000
    if h = 0 then .error .divZero else return decide ((now - start).toNat / h.toNat % 2 = 1)

/-- The statics `cel_state` and `last_cel`, src/tasks.c:67-68. -/
structure Cel where
  state : CelState
  last : Time
  deriving DecidableEq

/-- src/tasks.c:115-124: drop a state that has been shown for 3 s, then take over a higher one.
`now1` and `now2` are the two results of `current_time()`. -/
def celUpdate (s : Cel) (next : CelState) (now1 now2 : Time) : Except Fault Cel := do
  let hold ← timeFromUs 3000000
  let st := if hold.toNat < (timeDiff now1 s.last).toNat then CelState.none else s.state
  if st.rank < next.rank then return { state := next, last := now2 }
  else return { state := st, last := s.last }

/-- src/tasks.c:111-127 `handle_check_engine_light`: the new statics and the level written.  The three
times are the successive results of `current_time()`. -/
def checkEngineLight (c : Config) (s : Cel) (now1 now2 now3 : Time) : Except Fault (Cel × Bool) := do
  let s ← celUpdate s (nextCel c) now1 now2
  let p ← celPin s.state now3 s.last
  return (s, p)

end

/-- One output write. -/
inductive OutWrite
  | gpio (pin : BitVec 32) (v : Bool)
  | output (pin : BitVec 32) (v : Bool)
  deriving DecidableEq

/-- src/tasks.c:130-142 `handle_emergency_shutdown`: the events after it and the writes, in order.
`invalidate_scheduled_events` is called without interrupts being masked; it is taken as one step. -/
def emergencyShutdown (pumpPin : BitVec 32) (evs : Fin maxEvents → OEvent) :
    Except Fault ((Fin maxEvents → OEvent) × List OutWrite) := do
  let evs ← invalidateEvents evs
  return (evs, OutWrite.gpio pumpPin false ::
    ((List.finRange maxEvents).filter fun i => decide ((evs i).type = .fuel)).map
      fun i => OutWrite.output (evs i).pin (evs i).inverted)

end Verif
