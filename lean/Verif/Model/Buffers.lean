/-
Model of src/platforms/common/stm32_sched_buffers.c/.h: the double-buffered DMA output of the
stm32f4 and gd32f4 targets.
-/
import Verif.Model.Sched

namespace Verif

/-- NUM_SLOTS, stm32_sched_buffers.h:6. -/
abbrev numSlots : Nat := 128

/-- stm32_sched_buffers.h:13-16 `struct output_slot`: one 32-bit word for the GPIO BSRR register. -/
structure Slot where
  on : BitVec 16
  off : BitVec 16

/-- stm32_sched_buffers.h:18-21 `struct output_buffer`. -/
structure OutBuf where
  first : Time
  slots : Fin numSlots → Slot

/-- The low 16 bits of `1 << pin`.  (For `pin >= 31` the C expression is undefined; the ARM shift
instruction gives a value whose low 16 bits are 0, as here.) -/
def pinMask (pin : BitVec 8) : BitVec 16 := (1#16) <<< pin.toNat

/-- stm32_sched_buffers.c:15-24 `platform_output_slot_unset`; the callers pass an index below
NUM_SLOTS. -/
def slotUnset (slots : Fin numSlots → Slot) (index : Fin numSlots) (pin : BitVec 8) (value : Bool) :
    Fin numSlots → Slot :=
  fun j => if j = index then
      (if value then { slots j with on := (slots j).on &&& ~~~ pinMask pin }
       else { slots j with off := (slots j).off &&& ~~~ pinMask pin })
    else slots j

/-- stm32_sched_buffers.c:26-35 `platform_output_slot_set`. -/
def slotSet (slots : Fin numSlots → Slot) (index : Fin numSlots) (pin : BitVec 8) (value : Bool) :
    Fin numSlots → Slot :=
  fun j => if j = index then
      (if value then { slots j with on := (slots j).on ||| pinMask pin }
       else { slots j with off := (slots j).off ||| pinMask pin })
    else slots j

/-- stm32_sched_buffers.c:53-60 (and 62-68): retire one edge. -/
def retireEdge (b : OutBuf) (en : Entry) : OutBuf × Entry :=
  if h : en.state = .submitted ∧ (en.time - b.first).toNat < numSlots then
    ({ b with slots := slotUnset b.slots ⟨(en.time - b.first).toNat, h.2⟩ en.pin en.val },
     { en with state := .fired })
  else (b, en)

/-- stm32_sched_buffers.c:77-84 (and 85-91): submit one edge. -/
def populateEdge (b : OutBuf) (en : Entry) : OutBuf × Entry :=
  if h : en.state = .scheduled ∧ (en.time - b.first).toNat < numSlots then
    ({ b with slots := slotSet b.slots ⟨(en.time - b.first).toNat, h.2⟩ en.pin en.val },
     { en with state := .submitted })
  else (b, en)

/-- stm32_sched_buffers.c:50-68, the loop body: start edge, then stop edge. -/
def retireAt {n : Nat} (s : OutBuf × (Fin n → OEvent)) (i : Fin n) : OutBuf × (Fin n → OEvent) :=
  let (b1, st) := retireEdge s.1 (s.2 i).start
  let (b2, sp) := retireEdge b1 (s.2 i).stop
  (b2, setEv s.2 i { s.2 i with start := st, stop := sp })

/-- stm32_sched_buffers.c:48-69 `retire_output_buffer`. -/
def retireBuffer {n : Nat} (b : OutBuf) (evs : Fin n → OEvent) : OutBuf × (Fin n → OEvent) :=
  (List.finRange n).foldl retireAt (b, evs)

/-- stm32_sched_buffers.c:75-91, the loop body. -/
def populateAt {n : Nat} (s : OutBuf × (Fin n → OEvent)) (i : Fin n) : OutBuf × (Fin n → OEvent) :=
  let (b1, st) := populateEdge s.1 (s.2 i).start
  let (b2, sp) := populateEdge b1 (s.2 i).stop
  (b2, setEv s.2 i { s.2 i with start := st, stop := sp })

/-- stm32_sched_buffers.c:73-92 `populate_output_buffer`. -/
def populateBuffer {n : Nat} (b : OutBuf) (evs : Fin n → OEvent) : OutBuf × (Fin n → OEvent) :=
  (List.finRange n).foldl populateAt (b, evs)

/-- stm32_sched_buffers.c:94-97 `round_time_to_buffer_start`. -/
def roundToBuffer (t : Time) : Time := t - t.umod 128

/-- The static data of the file, with the events: `buf false`/`buf true` are `output_buffers[0]`/`[1]`,
`cur` is `current_buffer`, the one the DMA is playing. -/
structure Dma (n : Nat) where
  buf : Bool → OutBuf
  cur : Bool
  evs : Fin n → OEvent

/-- stm32_sched_buffers.c:41-43 `platform_output_earliest_schedulable_time`. -/
def Dma.earliest {n : Nat} (s : Dma n) : Time := (s.buf s.cur).first + 256

/-- stm32_sched_buffers.c:99-108 `stm32_buffer_swap`; `now` is `current_time()`. -/
def bufferSwap {n : Nat} (s : Dma n) (now : Time) : Dma n :=
  let (b, evs) := retireBuffer (s.buf s.cur) s.evs
  let (b, evs) := populateBuffer { b with first := roundToBuffer now + 128 } evs
  { buf := fun k => if k = s.cur then b else s.buf k, cur := !s.cur, evs := evs }

/-- Power-up: zeroed buffers (stm32_sched_buffers.c:7-9). -/
def Dma.boot {n : Nat} (evs : Fin n → OEvent) : Dma n :=
  { buf := fun _ => { first := 0, slots := fun _ => { on := 0, off := 0 } }, cur := false, evs := evs }

end Verif
