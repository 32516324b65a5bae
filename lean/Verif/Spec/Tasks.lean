/-
Specification of the periodic tasks in real time (unbounded integer ticks of 1/4 µs).
-/
import Verif.Spec.Time

namespace Verif

/-- One second in ticks. -/
abbrev second : Int := 4000000

/-- One run of the fuel pump task: the time of the latest trigger and the three times at which the
task reads the clock. -/
structure PumpRun where
  trigger : Int
  t1 : Int
  t2 : Int
  t3 : Int

/-- The latest trigger is at most a second old. -/
def PumpRun.turning (r : PumpRun) : Prop := r.t1 - r.trigger ≤ second

/-- The pump must run at the newest run of a history (newest first, power-up at time 0): the engine
is turning, or it was at an earlier run less than 4 s ago, or power-up is less than 4 s ago. -/
def PumpWanted : List PumpRun → Prop
  | [] => False
  | r :: rest => r.turning ∨ r.t2 < 4 * second ∨ ∃ q ∈ rest, q.turning ∧ r.t2 - q.t2 < 4 * second

/-- A history of runs in order (newest first): clock readings ascend, triggers lie in the past, and the
task runs again before the clock has wrapped (5 s are needed as margin). -/
def PumpOrder : List PumpRun → Prop
  | [] => True
  | r :: rest => 0 ≤ r.t1 ∧ r.t1 ≤ r.t2 ∧ r.t2 ≤ r.t3 ∧ r.trigger ≤ r.t1 ∧
      (match rest with
        | [] => r.t2 < 2 ^ 32
        | q :: _ => q.t3 ≤ r.t1 ∧ r.t2 - q.t2 < 2 ^ 32 - 5 * second) ∧
      PumpOrder rest

/-- What the check-engine light shows: a severity (3 lean in boost, 2 decoder loss, 1 sensor fault,
0 nothing) and since when. -/
structure CelShow where
  level : Nat
  since : Int

/-- The new severity shown, when severity `sev` is present at a run that reads the clock at `t1` then
`t2`: what was shown is dropped after 3 s, and a higher severity takes over at once. -/
def CelShow.next (s : CelShow) (sev : Nat) (t1 t2 : Int) : CelShow :=
  let keep := if t1 - s.since > 3 * second then 0 else s.level
  if keep < sev then ⟨sev, t2⟩ else ⟨keep, s.since⟩

/-- The blink pattern: steady for 1, half periods of 500 ms for 2 and 200 ms for 3, starting dark. -/
def CelShow.lit (s : CelShow) (t : Int) : Prop :=
  match s.level with
  | 0 => False
  | 1 => True
  | 2 => (t - s.since) / (second / 2) % 2 = 1
  | _ => (t - s.since) / (second / 5) % 2 = 1

end Verif
