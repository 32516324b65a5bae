/-
Model of the event log of src/console.c and src/console.h.

Events are recorded by interrupt handlers (on the hosted platform by other threads) while the main loop takes them
out.  Recorders exclude each other (`disable_interrupts`), but the main loop does not take part in that exclusion.
So both functions are modelled as sequences of memory accesses, and a run interleaves them in any order (sequentially
consistent memory: the shared indices are `_Atomic`).
-/
import Verif.Base.Arr
import Verif.Model.Util

namespace Verif

/-- src/console.h:12-17 -/
inductive LogType
  | none
  | output
  | gpio
  | trigger
  deriving DecidableEq

/-- src/console.h:9-19 `struct logged_event`. -/
structure LogEvent where
  time : Time
  seq : BitVec 32
  type : LogType
  value : BitVec 32
  deriving DecidableEq

/-- EVENT_LOG_SIZE, src/console.c:71. -/
abbrev logSize : Nat := 32

/-- src/console.c:73-79 -/
structure EventLog where
  enabled : Bool
  read : BitVec 32
  write : BitVec 32
  seq : BitVec 32
  events : Fin logSize → LogEvent

/-- src/console.c:81-88 `event_log_next_idx`. -/
def logNext (idx : BitVec 32) : BitVec 32 :=
  if logSize ≤ (idx + 1).toNat then 0 else idx + 1

/-- src/console.c:107-127 `console_record_event`: the next memory access to make. -/
inductive RecPc
  /-- not recording -/
  | idle
  /-- line 115 -/
  | fetchSeq (ev : LogEvent)
  /-- line 116 -/
  | loadRead (ev : LogEvent) (seq : BitVec 32)
  /-- lines 117-120 -/
  | loadWrite (ev : LogEvent) (seq rpos : BitVec 32)
  /-- line 121 -/
  | store (ev : LogEvent) (seq wpos : BitVec 32)
  /-- line 122 -/
  | storeSeq (seq wpos : BitVec 32)
  /-- line 123 -/
  | publish (wpos : BitVec 32)

/-- src/console.c:90-105 `get_logged_event`: the next memory access to make.  The event is copied word by word. -/
inductive GetPc
  /-- not reading -/
  | idle
  /-- line 91 -/
  | loadRead
  /-- lines 92-100 -/
  | loadWrite (rpos : BitVec 32)
  /-- line 102, first word -/
  | copyTime (rpos : BitVec 32)
  /-- line 102, second word -/
  | copySeq (rpos : BitVec 32) (time : Time)
  /-- line 102, third word -/
  | copyType (rpos : BitVec 32) (time : Time) (seq : BitVec 32)
  /-- line 102, fourth word -/
  | copyValue (rpos : BitVec 32) (time : Time) (seq : BitVec 32) (type : LogType)
  /-- line 103 -/
  | storeRead (rpos : BitVec 32) (ev : LogEvent)

/-- The log, the two activities on it, and what can be observed: the events whose recording has begun, the events handed to
the client, and how many times the client was told that there is nothing. -/
structure LogSys where
  log : EventLog
  recPc : RecPc
  getPc : GetPc
  started : List LogEvent
  delivered : List LogEvent
  nothing : Nat

/-- One step of the run. -/
inductive LogAct
  /-- `console_record_event` is called (lines 107-110) -/
  | call (ev : LogEvent)
  /-- the recorder makes its next access -/
  | recStep
  /-- `get_logged_event` is called -/
  | get
  /-- the reader makes its next access -/
  | getStep
  /-- the client sets the `enabled` flag, src/console.c:1356-1357; same activity as reading -/
  | enable (b : Bool)

/-- The recorder's accesses. -/
def recStep (s : LogSys) : Except Fault LogSys :=
  match s.recPc with
  | .idle => .ok s
  | .fetchSeq ev =>
      .ok { s with log := { s.log with seq := s.log.seq + 1 }, recPc := .loadRead ev s.log.seq, started := s.started ++ [ev] }
  | .loadRead ev seq => .ok { s with recPc := .loadWrite ev seq s.log.read }
  | .loadWrite ev seq rpos =>
      .ok { s with recPc := if logNext s.log.write ≠ rpos then .store ev seq s.log.write else .idle }
  | .store ev seq wpos => do
      let es ← wr s.log.events (wpos.toNat : Nat) ev
      return { s with log := { s.log with events := es }, recPc := .storeSeq seq wpos }
  | .storeSeq seq wpos => do
      let e ← rd s.log.events (wpos.toNat : Nat)
      let es ← wr s.log.events (wpos.toNat : Nat) { e with seq := seq }
      return { s with log := { s.log with events := es }, recPc := .publish wpos }
  | .publish wpos => .ok { s with log := { s.log with write := logNext wpos }, recPc := .idle }

/-- The reader's accesses. -/
def getStep (s : LogSys) : Except Fault LogSys :=
  match s.getPc with
  | .idle => .ok s
  | .loadRead => .ok { s with getPc := .loadWrite s.log.read }
  | .loadWrite rpos =>
      if s.log.enabled = false ∨ rpos = s.log.write then .ok { s with getPc := .idle, nothing := s.nothing + 1 }
      else .ok { s with getPc := .copyTime rpos }
  | .copyTime rpos => do
      let e ← rd s.log.events (rpos.toNat : Nat)
      return { s with getPc := .copySeq rpos e.time }
  | .copySeq rpos time => do
      let e ← rd s.log.events (rpos.toNat : Nat)
      return { s with getPc := .copyType rpos time e.seq }
  | .copyType rpos time seq => do
      let e ← rd s.log.events (rpos.toNat : Nat)
      return { s with getPc := .copyValue rpos time seq e.type }
  | .copyValue rpos time seq type => do
      let e ← rd s.log.events (rpos.toNat : Nat)
      return { s with getPc := .storeRead rpos { time := time, seq := seq, type := type, value := e.value } }
  | .storeRead rpos ev =>
      .ok { s with log := { s.log with read := logNext rpos }, getPc := .idle, delivered := s.delivered ++ [ev] }

/-- One step; a step that does not apply changes nothing. -/
def logStep (s : LogSys) : LogAct → Except Fault LogSys
  | .call ev =>
      match s.recPc with
      | .idle => .ok (if s.log.enabled then { s with recPc := .fetchSeq ev } else s)
      | _ => .ok s
  | .recStep => recStep s
  | .get =>
      match s.getPc with
      | .idle => .ok { s with getPc := .loadRead }
      | _ => .ok s
  | .getStep => getStep s
  | .enable b =>
      match s.getPc with
      | .idle => .ok { s with log := { s.log with enabled := b } }
      | _ => .ok s

/-- A run. -/
def logRun (s : LogSys) : List LogAct → Except Fault LogSys
  | [] => .ok s
  | a :: as => logStep s a >>= fun s => logRun s as

/-- src/console.c:79: the log at start. -/
def logBoot : LogSys where
  log := { enabled := true, read := 0, write := 0, seq := 0, events := fun _ => ⟨0, 0, .none, 0⟩ }
  recPc := .idle
  getPc := .idle
  started := []
  delivered := []
  nothing := 0

end Verif
