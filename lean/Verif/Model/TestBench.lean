/-
Model of how the console starts, changes and stops the test trigger (src/sim.c:38-69 and src/console.c:1354-1367).
-/
import Verif.Model.Console
import Verif.Model.Sim

namespace Verif

/-- The console and the statics of src/sim.c: `tooth` is that of `test_wheel_Nminus1_next` (line 14), the speed is
`console.testRpm` (line 38), and `pending` is the time `test_trigger_callback` (line 6) is scheduled for, if it is. -/
structure TestBench where
  console : Console
  tooth : Int
  pending : Option Time

section
variable [FloatFmt] [LibM]

/-- A request that is handled at the time `now`.  `testArmed` is cleared before the request and tells afterwards whether
`set_test_trigger_rpm` was called: then src/sim.c:60-65 schedules the callback, or moves it if it is scheduled already
(src/scheduler.c:306-321 `schedule_callback`).  The callback does not run in the middle of a request here. -/
def benchRequest (rate : BitVec 32) (version : String) (struct : List Item) (now : Time) (req : List Item)
    (b : TestBench) : Except Fault TestBench := do
  let (c, _, _) ← processRequest rate version struct req { b.console with testArmed := false }
  return { b with console := c, pending := if c.testArmed then some (now + 10000) else b.pending }

omit [LibM] in
/-- src/sim.c:40-58 `execute_test_trigger`, when the callback is due: the trigger handed to the decoder, if there is one.
The decoder's own work is left out, see `BenchRun.other`. -/
def benchCallback (b : TestBench) : Except Fault (Option (Int × Time) × TestBench) :=
  match b.pending with
  | none => .ok (none, b)
  | some t =>
    if b.console.testRpm = 0 then .ok (none, { b with pending := none })
    else do
      let (trigger, time, s) ← executeTestTrigger b.console.cfg.decoder.numTriggers.toInt ⟨b.tooth, b.console.testRpm, t⟩
      return (some (trigger, time), { b with tooth := s.tooth, pending := some s.time })

end

end Verif
