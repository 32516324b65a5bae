/-
Model of the interrupt level of the firmware as a whole: src/decoder.c:411-434 `decoder_update_scheduling`, the timer
interrupt that runs callbacks, decoder desynchronisation, and the buffer swap interrupt, on the microcontroller targets.

The trigger interrupt and the timer interrupt are one handler (gd32f4_sched.c:130-178, stm32f4-discovery.c:786-830), so
neither interrupts the other.  The buffer swap and the client reading the log may come between any two of the steps below.
Simplification: `decode` with the two calculations is one step, and each call of `schedule_event` is one step; the
interleavings inside `schedule_event` are covered at the level of one output (Verif.Spec.Output).
-/
import Verif.Model.Tasks
import Verif.Model.Buffers
import Verif.Model.Callback
import Verif.Model.EventLog

namespace Verif

/-- Where the trigger and timer interrupt handler is. -/
inductive EngPc
  /-- not running -/
  | idle
  /-- decoder.c:414-418: in `console_record_event` -/
  | record (k : Int) (t : Time)
  /-- decoder.c:430: about to schedule event `i` -/
  | loop (i : Nat)
  /-- scheduler.c:331-334: the callback has returned -/
  | rearm

/-- The state of the firmware.  `given` records the triggers delivered so far, for stating properties only. -/
structure Engine where
  cfg : Config
  vals : CalcValues
  tipin : Tipin
  q : CbQ CbId
  log : LogSys
  buf : Bool → OutBuf
  cur : Bool
  pc : EngPc
  given : List (Int × Time)

/-- The output side: buffers and events. -/
def Engine.dma (e : Engine) : Dma maxEvents := { buf := e.buf, cur := e.cur, evs := e.cfg.events }

/-- The event logged for a trigger, decoder.c:414-418. -/
def triggerEvent (k : Int) (t : Time) : LogEvent :=
  { time := t, seq := 0, type := .trigger, value := BitVec.ofInt 32 k }

/-- decoder.c:419-423: the trigger counters. -/
def countTrigger (d : Decoder) (k : Int) : Decoder :=
  if k = 0 then { d with t0Count := d.t0Count + 1 }
  else if k = 1 then { d with t1Count := d.t1Count + 1 }
  else d

/-- decoder.c:26-28 `set_expire_event`, if it was called. -/
def requestExpire (q : CbQ CbId) : Option Time → Except Fault (CbQ CbId)
  | none => .ok q
  | some t => scheduleCallback q .expire t

/-- decoder.c:18: the cancelling of outputs in `invalidate_decoder`, if it was called. -/
def cancelIf (lost : Bool) (evs : Fin maxEvents → OEvent) : Except Fault (Fin maxEvents → OEvent) :=
  if lost then invalidateEvents evs else .ok evs

section
variable [FloatFmt]

/-- decoder.c:419-425: count the trigger and decode it. -/
def engDecode (e : Engine) (k : Int) (t : Time) : Except Fault Engine := do
  let o ← decode (countTrigger e.cfg.decoder k) k t
  let q ← requestExpire e.q o.expire
  let evs ← cancelIf o.lost e.cfg.events
  return { e with cfg := { e.cfg with decoder := o.d, events := evs }, q := q }

/-- decoder.c:427-429 and the start of the loop.  `now` is `current_time()` in the tip-in calculation. -/
def engCalc (e : Engine) (now : Time) : Except Fault Engine :=
  if e.cfg.decoder.valid then do
    let v ← calculateIgnition e.cfg e.vals
    let (v, s) ← calculateFueling e.cfg now e.tipin v
    return { e with vals := v, tipin := s, pc := .loop 0 }
  else .ok { e with pc := .idle }

/-- What `schedule_event` reads, with the result `cut` of the cut test. -/
def engEnv (e : Engine) (now : Time) (cut : Bool) : SchedEnv :=
  { d := e.cfg.decoder, earliest := e.dma.earliest, now := now, advance := e.vals.timingAdvance, dwellUs := e.vals.dwellUs,
    fuelingUs := e.vals.fuelingUs, minFireUs := e.cfg.ignition.minFireUs, ignitionCut := cut, fuelCut := cut }

/-- scheduler.c:236: the callback of event `i`, if it was requested. -/
def requestEvent (q : CbQ CbId) (i : Fin maxEvents) : Option Time → Except Fault (CbQ CbId)
  | none => .ok q
  | some t => scheduleCallback q (.event i) t

/-- scheduler.c:240-264 `schedule_event(&config.events[i])`, with the cut test (calculations.c:34-40), which is made only
for enabled events. -/
def engSchedule (e : Engine) (now : Time) (i : Fin maxEvents) : Except Fault Engine :=
  if (e.cfg.events i).type = .disabled then .ok e
  else do
    let (cut, v) ← ignitionCut e.cfg e.vals
    let (evs, cb) ← scheduleEvent (engEnv { e with vals := v } now cut) e.cfg.events i
    let q ← requestEvent e.q i cb
    return { e with cfg := { e.cfg with events := evs }, vals := v, q := q }

/-- The callback that the timer interrupt calls: decoder.c:21-26, scheduler.c:234-235.  The test trigger and the replay
timer do not touch this state themselves: the triggers they make come as `EngAct.trigger`. -/
def engCallback (e : Engine) (now : Time) : CbId → Except Fault Engine
  | .expire => do
    let evs ← invalidateEvents e.cfg.events
    return { e with cfg := { e.cfg with decoder := handleDecoderExpire e.cfg.decoder, events := evs } }
  | .event i => engSchedule e now i
  | .testTrigger => .ok e
  | .replay => .ok e

/-- What can happen next. -/
inductive EngAct
  /-- a trigger edge on input `k` captured at `t`: decoder.c:411-418 -/
  | trigger (k : Int) (t : Time)
  /-- the interrupt handler goes on -/
  | work (now : Time)
  /-- the timer interrupt: scheduler.c:322-330 and the callback -/
  | timer (now : Time)
  /-- a capture overflow: `decoder_desync`, decoder.c:30-33 -/
  | desync (reason : DecLoss)
  /-- the buffer swap interrupt -/
  | swap (now : Time)
  /-- the sensor interrupts write new sensor values -/
  | sensors (s : Fin numSensors → Sensor)
  /-- the client reads the log -/
  | get
  | getStep
  /-- the client switches logging on or off -/
  | logging (b : Bool)

/-- decoder.c:430-432: one turn of the loop, or its end. -/
def engLoop (e : Engine) (now : Time) (i : Nat) : Except Fault Engine :=
  if h : i < maxEvents then do
    let e ← engSchedule e now ⟨i, h⟩
    return { e with pc := .loop (i + 1) }
  else .ok { e with pc := .idle }

/-- The interrupt handler goes on. -/
def engWork (e : Engine) (now : Time) : Except Fault Engine :=
  match e.pc with
  | .idle => .ok e
  | .record k t =>
      match e.log.recPc with
      | .idle => do
          let e ← engDecode e k t
          engCalc e now
      | _ => do
          let l ← recStep e.log
          return { e with log := l }
  | .loop i => engLoop e now i
  | .rearm => do
      let q ← executeRearm e.q
      return { e with q := q, pc := .idle }

/-- The timer interrupt. -/
def engTimer (e : Engine) (now : Time) : Except Fault Engine := do
  let (c, q) ← executeTake e.q now
  let e ← engCallback { e with q := q } now c
  return { e with pc := .rearm }

/-- A trigger arrives. -/
def engTrigger (e : Engine) (k : Int) (t : Time) : Except Fault Engine := do
  let l ← logStep e.log (.call (triggerEvent k t))
  return { e with log := l, pc := .record k t, given := e.given ++ [(k, t)] }

/-- A desynchronisation. -/
def engDesync (e : Engine) (r : DecLoss) : Except Fault Engine := do
  let evs ← invalidateEvents e.cfg.events
  return { e with cfg := { e.cfg with decoder := decoderDesync e.cfg.decoder r, events := evs } }

/-- A buffer swap. -/
def engSwap (e : Engine) (now : Time) : Engine :=
  let s := bufferSwap e.dma now
  { e with cfg := { e.cfg with events := s.evs }, buf := s.buf, cur := s.cur }

/-- One step of the log on the client's side. -/
def engLog (e : Engine) (a : LogAct) : Except Fault Engine := do
  let l ← logStep e.log a
  return { e with log := l }

/-- Run `f` if the interrupt handler is not running; otherwise the interrupt waits. -/
def whenIdle (e : Engine) (f : Except Fault Engine) : Except Fault Engine :=
  match e.pc with
  | .idle => f
  | _ => .ok e

/-- One step. -/
def engStep (e : Engine) : EngAct → Except Fault Engine
  | .trigger k t => whenIdle e (engTrigger e k t)
  | .work now => engWork e now
  | .timer now => whenIdle e (engTimer e now)
  | .desync r => whenIdle e (engDesync e r)
  | .swap now => .ok (engSwap e now)
  | .sensors s => .ok { e with cfg := { e.cfg with sensors := s } }
  | .get => engLog e .get
  | .getStep => engLog e .getStep
  | .logging b => engLog e (.enable b)

/-- A run. -/
def engRun (e : Engine) : List EngAct → Except Fault Engine
  | [] => .ok e
  | a :: as => engStep e a >>= fun e => engRun e as

end

end Verif
