/-
Model of the trigger capture interrupts: gd32f4_sched.c:130-178 `TIMER1_IRQHandler` and stm32f4-discovery.c:786-830
`tim2_isr`, with the two capture channels of the timer.

The capture hardware is modelled from the reference manuals (STM32F4 RM0090 18.4.5 and 18.3.5, GD32F4xx timer chapter): an
edge latches the counter in the channel's register, sets the channel's flag, and sets the overcapture flag if the flag was
still set; reading the register clears the flag.  The frequency input and the compare channel of the same interrupt are left
out here (see Verif.Model.EventTimer for the latter).
-/
import Verif.Model.Util

namespace Verif

/-- One capture channel. -/
structure CapChan where
  reg : Time
  flag : Bool
  over : Bool
  deriving DecidableEq

/-- The hardware: an edge at time `t`. -/
def CapChan.capture (c : CapChan) (t : Time) : CapChan := { reg := t, flag := true, over := c.over || c.flag }

/-- What the handler does with the decoder. -/
inductive CapOut
  /-- `decoder_update_scheduling(k, t)` -/
  | deliver (k : Int) (t : Time)
  /-- `decoder_desync(DECODER_OVERFLOW)` -/
  | desync
  deriving DecidableEq

/-- gd32f4_sched.c:146-156 and stm32f4-discovery.c:814-824: the order in which the captures found are handed to the decoder. -/
def deliverCaptures (cc0 cc1 : Option Time) : List CapOut :=
  match cc0, cc1 with
  | some t0, some t1 => if timeBefore t1 t0 then [.deliver 1 t1, .deliver 0 t0] else [.deliver 0 t0, .deliver 1 t1]
  | some t0, none => [.deliver 0 t0]
  | none, some t1 => [.deliver 1 t1]
  | none, none => []

/-- Where the handler is.  Between any two of these an edge may come. -/
inductive CapPc
  /-- not running -/
  | idle
  /-- testing the flag of a channel: gd32f4_sched.c:136, 141; stm32f4-discovery.c:793, 799 -/
  | test (k : Bool)
  /-- reading its register: gd32f4_sched.c:137, 142; stm32f4-discovery.c:795, 801 -/
  | read (k : Bool)
  /-- clearing its flag (stm32 only): stm32f4-discovery.c:796, 802 -/
  | clear (k : Bool)
  /-- testing the overcapture flags (stm32 only): stm32f4-discovery.c:806-807 -/
  | testOver
  /-- clearing them (stm32 only), one after the other: stm32f4-discovery.c:808-809 -/
  | clearOver (k : Bool)
  /-- handing over what was found: gd32f4_sched.c:146-156; stm32f4-discovery.c:814-824 -/
  | hand
  /-- `decoder_desync` and return (stm32 only): stm32f4-discovery.c:810-811 -/
  | lose
  deriving DecidableEq

/-- What has happened, in order. -/
inductive CapEv
  | edge (k : Bool) (t : Time)
  | out (o : CapOut)
  deriving DecidableEq

/-- The two channels, the handler and its local variables, and everything that has happened. -/
structure CapSys where
  ch : Bool → CapChan
  pc : CapPc
  got : Bool → Option Time
  trace : List CapEv

/-- Two platforms have this handler. -/
inductive CapPlatform | gd32 | stm32
  deriving DecidableEq

/-- At boot. -/
def CapSys.boot : CapSys :=
  { ch := fun _ => { reg := 0, flag := false, over := false }, pc := .idle, got := fun _ => none, trace := [] }

/-- Change channel `k`. -/
def CapSys.setCh (s : CapSys) (k : Bool) (c : CapChan) : CapSys :=
  { s with ch := fun j => if j = k then c else s.ch j }

/-- Where the handler goes when it is done with channel `k`. -/
def capAfter (p : CapPlatform) : Bool → CapPc
  | false => .test true
  | true => if p = .stm32 then .testOver else .hand

/-- The next step of the handler. -/
def CapSys.step (p : CapPlatform) (s : CapSys) : CapSys :=
  match s.pc with
  | .idle => s
  | .test k => if (s.ch k).flag then { s with pc := .read k } else { s with pc := capAfter p k }
  | .read k =>
      let s' := s.setCh k { s.ch k with flag := false }
      { s' with got := (fun j => if j = k then some (s.ch k).reg else s.got j)
                pc := if p = .stm32 then .clear k else capAfter p k }
  | .clear k => { s.setCh k { s.ch k with flag := false } with pc := capAfter p k }
  | .testOver => if (s.ch false).over || (s.ch true).over then { s with pc := .clearOver false } else { s with pc := .hand }
  | .clearOver k => { s.setCh k { s.ch k with over := false } with pc := if k then .lose else .clearOver true }
  | .hand => { s with pc := .idle, trace := s.trace ++ (deliverCaptures (s.got false) (s.got true)).map .out }
  | .lose => { s with pc := .idle, trace := s.trace ++ [.out .desync] }

/-- What can happen next. -/
inductive CapAct
  /-- an edge on input `k` -/
  | edge (k : Bool) (t : Time)
  /-- the interrupt is taken (it is requested while a flag is set) -/
  | enter
  /-- the handler goes on -/
  | step

/-- One step. -/
def CapSys.act (p : CapPlatform) (s : CapSys) : CapAct → CapSys
  | .edge k t => { s.setCh k ((s.ch k).capture t) with trace := s.trace ++ [.edge k t] }
  | .enter => if s.pc = .idle then { s with pc := .test false, got := fun _ => none } else s
  | .step => s.step p

/-- A run. -/
def CapSys.run (p : CapPlatform) (s : CapSys) (as : List CapAct) : CapSys := as.foldl (CapSys.act p) s

end Verif
