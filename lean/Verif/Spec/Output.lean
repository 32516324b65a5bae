/-
Specification vocabulary for output events: one event seen as two edges, and the steps that can
happen to it.

`next` is the first tick that has not yet been handed to the platform.  Buffer swaps hand over 128
ticks at a time.  The steps are the atomic pieces of the code: critical sections of the control
code, single writes outside critical sections, and swaps.  Every interleaving of control code and
swap interrupts is a path of these steps.
-/
import Verif.Model.Sched

namespace Verif

/-- `b` is later than `a`, by less than half a timer wrap. -/
def Later (a b : Time) : Prop := 0 < (b - a).toNat ∧ (b - a).toNat < 2 ^ 31

instance (a b : Time) : Decidable (Later a b) := by unfold Later; infer_instance

/-- Number of ticks handed over by one swap. -/
abbrev windowTicks : Nat := 128

structure EvSt where
  next : Time
  ev : OEvent

/-- What a swap may do to an edge: an armed edge whose tick is handed over is submitted, a submitted
edge may be reported fired, and nothing else happens. -/
inductive EdgeSwap (next : Time) : Entry → Entry → Prop
  | submit (en : Entry) (h : en.state = .scheduled) (w : (en.time - next).toNat < windowTicks) :
      EdgeSwap next en { en with state := .submitted }
  | later (en : Entry) (h : en.state = .scheduled) (w : windowTicks ≤ (en.time - next).toNat) :
      EdgeSwap next en en
  | idle (en : Entry) (h : en.state ≠ .scheduled) : EdgeSwap next en en
  | fire (en : Entry) (h : en.state = .submitted) : EdgeSwap next en { en with state := .fired }

/-- The atomic steps of one output event.  `ok` restricts the times the control code asks for
(`ok state earliest start stop`). -/
inductive EvStep (ok : EvSt → Time → Time → Time → Prop) : EvSt → EvSt → Prop
  /-- the pin and value of the edges are rewritten (any number of the four writes) -/
  | repin (s : EvSt) (p q : BitVec 8) (v w : Bool) :
      EvStep ok s { s with ev := { s.ev with start := { s.ev.start with pin := p, val := v },
                                             stop := { s.ev.stop with pin := q, val := w } } }
  /-- the critical section of `schedule_output_event_safely`; the earliest schedulable time is the
  start of the next window, or (while the hosted timebase is inside a tick) the one after -/
  | arm (s : EvSt) (earliest newstart newstop : Time)
      (he : (earliest - s.next).toNat ≤ windowTicks) (h : ok s earliest newstart newstop) :
      EvStep ok s { s with ev := scheduleCrit earliest s.ev newstart newstop }
  /-- the critical section of `deschedule_event` -/
  | cancel (s : EvSt) : EvStep ok s { s with ev := descheduleCrit s.ev }
  /-- `reset_fired_event`, called only after `event_has_fired` -/
  | reset (s : EvSt) (ev : OEvent) (h : eventHasFired s.ev = true) (e : resetFiredEvent s.ev = .ok ev) :
      EvStep ok s { s with ev := ev }
  /-- a buffer swap hands over one window -/
  | swap (s : EvSt) (a b : Entry) (ha : EdgeSwap s.next s.ev.start a) (hb : EdgeSwap s.next s.ev.stop b) :
      EvStep ok s { next := s.next + 128, ev := { s.ev with start := a, stop := b } }
  /-- a console write to the event's configuration -/
  | config (s : EvSt) (ty : EvType) (ang : Fl) (pin : BitVec 32) (inv : Bool) :
      EvStep ok s { s with ev := { s.ev with type := ty, angle := ang, pin := pin, inverted := inv } }

/-- States reachable from power-up, when the event is not scheduled. -/
inductive EvHist (ok : EvSt → Time → Time → Time → Prop) : EvSt → Prop
  | init (s : EvSt) (ha : s.ev.start.state = .unscheduled) (hb : s.ev.stop.state = .unscheduled) :
      EvHist ok s
  | step {s t : EvSt} (h : EvHist ok s) (e : EvStep ok s t) : EvHist ok t

/-- No restriction on the requested times. -/
def anyTimes : EvSt → Time → Time → Time → Prop := fun _ _ _ _ => True

/-- The requested times are those of a pulse: the stop is later than the start by less than 2^29 ticks
(134 s), and the start is within 2^29 ticks of the present. -/
def pulseTimes : EvSt → Time → Time → Time → Prop := fun s _ ns np =>
  0 < (np - ns).toNat ∧ (np - ns).toNat < 2 ^ 29 ∧
  ((ns - s.next).toNat < 2 ^ 29 ∨ (s.next - ns).toNat ≤ 2 ^ 29)

/-- What an ignition reschedule needs, in addition, for the pulse to stay in order:
if the start is armed and cannot be moved, the new stop is later than the armed start; if the start is
already committed, it was handed over less than 2^29 ticks ago. -/
def orderedTimes : EvSt → Time → Time → Time → Prop := fun s earliest ns np =>
  pulseTimes s earliest ns np ∧
  (s.ev.type ≠ .fuel →
    (s.ev.start.state = .scheduled → timeBefore ns earliest = true → Later s.ev.start.time np) ∧
    ((s.ev.start.state = .submitted ∨ s.ev.start.state = .fired) →
      0 < (s.next - s.ev.start.time).toNat ∧ (s.next - s.ev.start.time).toNat < 2 ^ 29))

end Verif
