/-
Model of the output side of src/platforms/hosted.c: the 128-tick windows of the simulated timebase.
-/
import Verif.Model.Buffers

namespace Verif

/-- hosted.c:227-230 `add_output_event`, on `output_events[64]` (line 218). -/
def addOutput (l : List Entry) (se : Entry) : Except Fault (List Entry) :=
  if l.length < 64 then .ok (l ++ [se]) else .error .oob

/-- hosted.c:248-253, one edge: what was handed over in the previous window has fired. -/
def hostFire (en : Entry) : Entry :=
  if en.state = .submitted then { en with state := .fired } else en

/-- hosted.c:254-263, one edge: an armed edge inside the window is copied and marked. -/
def hostSubmit (newStart newStop : Time) (l : List Entry) (en : Entry) : Except Fault (List Entry × Entry) :=
  if en.state = .scheduled ∧ timeInRange en.time newStart newStop = true then do
    let l ← addOutput l en
    return (l, { en with state := .submitted })
  else return (l, en)

/-- hosted.c:246-264, the loop body. -/
def hostAt {n : Nat} (newStart newStop : Time) (s : List Entry × (Fin n → OEvent)) (i : Fin n) :
    Except Fault (List Entry × (Fin n → OEvent)) := do
  let (l1, a) ← hostSubmit newStart newStop s.1 (hostFire (s.2 i).start)
  let (l2, b) ← hostSubmit newStart newStop l1 (hostFire (s.2 i).stop)
  return (l2, setEv s.2 i { s.2 i with start := a, stop := b })

/-- hosted.c:242-265: the masked part of `platform_buffer_swap`, for `n` events.  The list is
`output_events[0 .. num_output_events)` before sorting. -/
def hostSwap {n : Nat} (newStart newStop : Time) (evs : Fin n → OEvent) :
    Except Fault (List Entry × (Fin n → OEvent)) :=
  (List.finRange n).foldlM (hostAt newStart newStop) ([], evs)

/-- hosted.c:232-240 `output_event_compare`. -/
def outputCompare (a b : Entry) : Int :=
  if a.time = b.time then 0 else if timeBefore a.time b.time then -1 else 1

/-- The contract of `qsort` with that comparison (hosted.c:267-270): a permutation in which no entry
compares greater than a later one. -/
def QSorted (l l' : List Entry) : Prop :=
  l'.Perm l ∧ l'.Pairwise fun a b => outputCompare a b ≤ 0

/-- hosted.c:292-297: apply one edge to `cur_outputs` (16 bits). -/
def applyEdge (out : BitVec 16) (s : Entry) : BitVec 16 :=
  if s.val then out ||| pinMask s.pin else out &&& ~~~ pinMask s.pin

/-- hosted.c:290-306, the loop of `do_output_slots`: the final outputs and the reported
(time, outputs) pairs in order. -/
def doSlots (out : BitVec 16) : List Entry → BitVec 16 × List (Time × BitVec 16)
  | [] => (out, [])
  | [s] => (applyEdge out s, [(s.time, applyEdge out s)])
  | s :: r :: l =>
    let res := doSlots (applyEdge out s) (r :: l)
    (res.1, if s.time = r.time then res.2 else (s.time, applyEdge out s) :: res.2)

/-- The timebase and the events.  `swapped` is false between hosted.c:333 (`curtime = after`) and the
end of the masked part of the buffer swap, where the control thread can still run. -/
structure Host (n : Nat) where
  cur : Time
  swapped : Bool
  evs : Fin n → OEvent

/-- hosted.c:273-276 `platform_output_earliest_schedulable_time`. -/
def hostEarliest (cur : Time) : Time := cur.udiv 128 * 128 + 128

/-- hosted.c:331-333. -/
def hostTick {n : Nat} (s : Host n) : Host n := { s with cur := s.cur + 128, swapped := false }

/-- hosted.c:335: the swap for the window that starts at `curtime`. -/
def hostWindow {n : Nat} (s : Host n) : Except Fault (List Entry × Host n) := do
  let (l, evs) ← hostSwap s.cur (s.cur + 127) s.evs
  return (l, { s with swapped := true, evs := evs })

end Verif
