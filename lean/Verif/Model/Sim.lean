/-
Model of src/sim.c: the built-in test wheel.
-/
import Verif.Model.Decoder

namespace Verif
open FloatFmt

/-- src/sim.c:6, 14 and 38: the statics.  `tooth` is the static of `test_wheel_Nminus1_next`, `time` is the time of
`test_trigger_callback`, which is scheduled. -/
structure Sim where
  tooth : Int
  rpm : BitVec 32
  time : Time

/-- src/sim.c:8-11 `struct test_wheel_event`, and the new value of the static. -/
structure SimEvent where
  degrees : Fl
  trigger : Int
  tooth : Int

section
variable [FloatFmt]

/-- src/sim.c:13-36 `test_wheel_Nminus1_next`.  `N` is the number of triggers of the configured decoder, as an `int`; the
overflow of `2 * N` is not modelled. -/
def testWheelNext (N tooth : Int) : SimEvent :=
  let deg := Fl.fin 720 / Fl.ofInt (2 * N)
  let next := if 2 * N - 1 ≤ tooth + 1 then 0 else tooth + 1
  if tooth = 1 then { degrees := deg, trigger := 1, tooth := next }
  else if tooth = 36 then { degrees := Fl.fin 2 * deg, trigger := 0, tooth := next }
  else { degrees := deg, trigger := 0, tooth := next }

/-- src/sim.c:40-58 `execute_test_trigger`, the callback, with a speed other than 0: the trigger and the time it is
reported with, and the statics afterwards.  The decoder's own work (line 51) is left to the caller. -/
def executeTestTrigger (N : Int) (s : Sim) : Except Fault (Int × Time × Sim) :=
  let ev := testWheelNext N s.tooth
  timeFromRpmDiff s.rpm ev.degrees >>= fun delay =>
    .ok (ev.trigger, s.time, { s with tooth := ev.tooth, time := s.time + delay })

end

end Verif
