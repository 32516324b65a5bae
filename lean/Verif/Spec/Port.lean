/-
Specification vocabulary for the pins: when an output is on, and the histories considered.
-/
import Verif.Model.Port
import Verif.Props.Buffers

namespace Verif

/-- The edge has been played by tick `t` of the window that starts at `first`: it is reported fired, or it is handed over and its tick
is not after `t`. -/
def Entry.playedBy (en : Entry) (first t : Time) : Prop :=
  en.state = .fired ∨ (en.state = .submitted ∧ (en.time - first).toNat ≤ (t - first).toNat)

/-- Output `i` is on at tick `t` of the window being played: its start has been played and its stop has not. -/
def PortSys.On {n : Nat} (s : PortSys n) (i : Fin n) (t : Time) : Prop :=
  (s.dma.evs i).start.playedBy (s.dma.buf s.dma.cur).first t ∧ ¬ (s.dma.evs i).stop.playedBy (s.dma.buf s.dma.cur).first t

/-- The pin number that the scheduler uses for an output: the configured one, cut to 8 bits. -/
def OEvent.pinNo (ev : OEvent) : Nat := (ev.pin.setWidth 8).toNat

/-- One output as the platform sees it: the first tick not handed over, and the event. -/
def Dma.view {n : Nat} (d : Dma n) (i : Fin n) : EvSt := { next := d.earliest, ev := d.evs i }

/-- The histories of the output system in which pin `p` belongs to output `i` alone, which is at rest at its inactive level at first
and is not given another pin or polarity; `ok` restricts the times asked for output `i`. -/
inductive PortReach {n : Nat} (ok : EvSt → Time → Time → Time → Prop) (i : Fin n) (p : Fin 16) : PortSys n → Prop
  | start (s : PortSys n) (h : Started s.dma) (hp : (s.dma.evs i).pinNo = p) (ho : ∀ j, j ≠ i → (s.dma.evs j).pinNo ≠ p)
      (hl : s.level p = (s.dma.evs i).inverted) : PortReach ok i p s
  /-- the control code works on any output -/
  | ctl {s : PortSys n} (h : PortReach ok i p s) (d : Dma n) (e : DmaStep s.dma d) (hb : d.buf = s.dma.buf ∧ d.cur = s.dma.cur)
      (hi : d.evs i = s.dma.evs i ∨ EvStep ok (s.dma.view i) (d.view i))
      (hp : (d.evs i).pin = (s.dma.evs i).pin ∧ (d.evs i).inverted = (s.dma.evs i).inverted)
      (ho : ∀ j, j ≠ i → (d.evs j).pinNo ≠ p) : PortReach ok i p { s with dma := d }
  | swap {s : PortSys n} (h : PortReach ok i p s) (now : Time) (hn : (now - (s.dma.buf (!s.dma.cur)).first).toNat < 128) :
      PortReach ok i p (s.swap now)

end Verif
