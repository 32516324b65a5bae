/-
Model of the output port: what the words of the DMA buffers, and `set_output`, do to the pins.
stm32f4-discovery.c:252-293, 885-895; gd32f4_init.c:41-47; gd32f4_sched.c:211-250.
-/
import Verif.Model.Buffers

namespace Verif

/-- The levels of the sixteen pins of port D. -/
abbrev Pins : Type := Fin 16 → Bool

/-- One word written to the port's bit operation register (GPIO_BOP on the gd32, GPIOD_BSRR on the stm32), which is where the DMA
writes the slots (gd32f4_sched.c:227, stm32f4-discovery.c:276).  The low half of the word is `on_mask`, the high half `off_mask`
(stm32_sched_buffers.h:13-16); setting wins over clearing. -/
def playSlot (l : Pins) (w : Slot) : Pins := fun p => if w.on.getLsbD p then true else if w.off.getLsbD p then false else l p

/-- The levels when the first `m` slots of a buffer have been written, from levels `l`. -/
def portAfter (b : OutBuf) (l : Pins) : Nat → Pins
  | 0 => l
  | m + 1 => if h : m < numSlots then playSlot (portAfter b l m) (b.slots ⟨m, h⟩) else portAfter b l m

/-- The output system with its port: `level` is as at the first tick of the buffer being played. -/
structure PortSys (n : Nat) where
  dma : Dma n
  level : Pins

/-- The swap: the current buffer has been played to its end. -/
def PortSys.swap {n : Nat} (s : PortSys n) (now : Time) : PortSys n :=
  { dma := bufferSwap s.dma now, level := portAfter (s.dma.buf s.dma.cur) s.level numSlots }

/-- The level of pin `p` after tick `t` of the window being played. -/
def PortSys.at {n : Nat} (s : PortSys n) (t : Time) (p : Fin 16) : Bool :=
  portAfter (s.dma.buf s.dma.cur) s.level ((t - (s.dma.buf s.dma.cur).first).toNat + 1) p

/-- gd32f4_sched.c:213-218, stm32f4-discovery.c:253-259: before the pins are switched to output, those of enabled active-low outputs
are set, one after the other; the others are low (reset value; `gpio_clear` on the stm32).  A pin above 15 does nothing here (above 30
the C shift is undefined). -/
def bootLevels {n : Nat} (evs : Fin n → OEvent) : Pins :=
  (List.finRange n).foldl (fun (l : Pins) i p =>
    if (evs i).inverted && decide ((evs i).type ≠ .disabled) && decide ((evs i).pin.toNat = p) then true else l p) fun _ => false

/-- Accesses to the port. -/
inductive PortAct
  /-- the DMA writes a slot to the bit operation register -/
  | dma (w : Slot)
  /-- the processor's access of `set_output` that is due next -/
  | cpu

/-- Where `set_output` is: gd32f4_init.c:41-47 compiles to a load of GPIO_OCTL, a change in a register and a store. -/
inductive SetPc
  | load
  | store (r : Pins)
  | done

/-- gd32f4_init.c:41-47 `set_output(output, value)`, one access at a time, among writes of the DMA. -/
def gdSetOutput (out : Fin 16) (v : Bool) : Pins × SetPc → PortAct → Pins × SetPc
  | (l, pc), .dma w => (playSlot l w, pc)
  | (l, .load), .cpu => (l, .store fun p => if p = out then v else l p)
  | (_, .store r), .cpu => (r, .done)
  | (l, .done), .cpu => (l, .done)

/-- stm32f4-discovery.c:885-895 `set_output` (libopencm3's `gpio_set` and `gpio_clear` are single writes to GPIOD_BSRR). -/
def stSetOutput (out : Fin 16) (v : Bool) : Pins × SetPc → PortAct → Pins × SetPc
  | (l, pc), .dma w => (playSlot l w, pc)
  | (l, .load), .cpu => (playSlot l (if v then ⟨1#16 <<< out.val, 0⟩ else ⟨0, 1#16 <<< out.val⟩), .done)
  | (l, .store _), .cpu => (l, .done)
  | (l, .done), .cpu => (l, .done)

end Verif
