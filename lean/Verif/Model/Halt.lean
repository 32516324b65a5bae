/-
Model of how the gd32 stops its outputs before it writes the flash.
gd32f4_init.c:225-229 `platform_save_config`: handle_emergency_shutdown (tasks.c:128-143), then platform_disable_periphs
(gd32f4_init.c:103-122).
-/
import Verif.Model.Port

namespace Verif

/-- tasks.c:137-142: the calls of `set_output`, in order.  A pin above 15 is not on the port. -/
def fuelOuts {n : Nat} (evs : Fin n → OEvent) : List (Fin 16 × Bool) :=
  (List.finRange n).filterMap fun i =>
    if h : (evs i).type = .fuel ∧ (evs i).pin.toNat < 16 then some (⟨(evs i).pin.toNat, h.2⟩, (evs i).inverted) else none

/-- Where the shutdown is: the calls still to be finished, and where the first of them is. -/
structure HaltPc where
  outs : List (Fin 16 × Bool)
  pc : SetPc

/-- The shutdown, one access at a time, among writes of the DMA.  The clocks of the timers, the DMA and the port are switched off
after it (gd32f4_init.c:107-120): the DMA writes nothing more, and the pins, whose mode and output registers are kept, stay as they
are until the reset that follows the writing of the flash (lines 230-245). -/
def haltStep : Pins × HaltPc → PortAct → Pins × HaltPc
  | (l, h), .dma w => (playSlot l w, h)
  | (l, ⟨[], pc⟩), .cpu => (l, ⟨[], pc⟩)
  | (l, ⟨(o, v) :: outs, pc⟩), .cpu =>
      match gdSetOutput o v (l, pc) .cpu with
      | (l', .done) => (l', ⟨outs, .load⟩)
      | (l', pc') => (l', ⟨(o, v) :: outs, pc'⟩)

/-- The pins and the shutdown after the accesses `as`, from pins `l`. -/
def haltRun {n : Nat} (evs : Fin n → OEvent) (l : Pins) (as : List PortAct) : Pins × HaltPc :=
  as.foldl haltStep (l, ⟨fuelOuts evs, .load⟩)

/-- The words that the DMA writes. -/
def dmaWords : List PortAct → List Slot
  | [] => []
  | .dma w :: as => w :: dmaWords as
  | .cpu :: as => dmaWords as

end Verif
