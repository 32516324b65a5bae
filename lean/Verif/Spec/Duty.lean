/-
The calls that arm an injector during an engine cycle at a steady speed.
-/
import Verif.Model.Sched

namespace Verif

section
variable [FloatFmt]

/-- The injector is scheduled once in every one of these circumstances, one after the other. -/
def armAll : List SchedEnv → OEvent → Except Fault OEvent
  | [], ev => .ok ev
  | env :: envs, ev => do
    let (ev', _) ← scheduleFuel env ev
    armAll envs ev'

end

/-- An engine at a steady speed: tooth `k` of `N` in a cycle is at `720 k / N` degrees and passes at
`t0 + k P`.  In `env` nothing is cut, the speed and offset are known. -/
structure Steady where
  env : SchedEnv
  N : ℕ
  P : ℕ
  t0 : Time
  /-- ticks from the handling of a tooth to the first tick that can still be scheduled -/
  lead : ℕ

/-- The circumstances when tooth `k` has been decoded and `late` ticks have passed since. -/
def Steady.at (s : Steady) (k late : ℕ) : SchedEnv :=
  let now := s.t0 + BitVec.ofNat 32 (k * s.P + late)
  { s.env with
    d := { s.env.d with
      lastTriggerTime := s.t0 + BitVec.ofNat 32 (k * s.P)
      lastTriggerAngle := .fin (720 * (k % s.N : ℕ) / s.N) }
    now := now
    earliest := now + BitVec.ofNat 32 s.lead }

/-- The speed is that of the teeth: a cycle of 720 degrees at `rpm` takes `N P` ticks. -/
def Steady.Ok (s : Steady) : Prop :=
  0 < s.N ∧ s.env.d.valid = true ∧ s.env.d.toothRpm = s.env.d.rpm ∧ s.env.d.rpm.toNat * (s.N * s.P) = 480000000 ∧
    s.env.d.offset = .fin 0

/-- From the end of an injection, `late` ticks after tooth 0, to the next tooth 0: the injector's own callback
at the end, and then a call at each tooth. -/
def Steady.calls (s : Steady) (late : ℕ) : List SchedEnv :=
  s.at 0 late :: (List.range s.N).map fun k => s.at (k + 1) 0

end Verif
