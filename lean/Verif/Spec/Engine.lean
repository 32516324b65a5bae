/-
Histories of the whole firmware.
-/
import Verif.Model.Engine
import Verif.Props.Buffers

namespace Verif

variable [FloatFmt]

/-- The firmware once it runs: buffers started, nothing scheduled, decoder initialised, empty queue and log. -/
structure EngBoot (e : Engine) : Prop where
  outputs : Started e.dma
  events : ∀ i w, ((e.cfg.events i).edge w).state = .unscheduled
  decoder : ∃ d, e.cfg.decoder = decoderInit d
  queue : e.q = CbQ.init CbId
  log : e.log = logBoot
  pc : e.pc = .idle
  given : e.given = []

/-- Swaps are serviced while the buffer that has just started is playing. -/
def SwapOk (e : Engine) : EngAct → Prop
  | .swap now => (now - (e.buf (!e.cur)).first).toNat < 128
  | _ => True

/-- States reached from `e0` by steps that satisfy `P`. -/
inductive EngReach (P : EngAct → Prop) (e0 : Engine) : Engine → Prop
  | boot : EngReach P e0 e0
  | step {e e' : Engine} (a : EngAct) : EngReach P e0 e → P a → SwapOk e a → engStep e a = .ok e' → EngReach P e0 e'

/-- Steps from `e` to `e'` during which the decoder is never valid, with the number of buffer swaps. -/
inductive WhileLost : Engine → Nat → Engine → Prop
  | refl (e : Engine) : e.cfg.decoder.valid = false → WhileLost e 0 e
  | step {e e1 e2 : Engine} {n : Nat} (a : EngAct) : WhileLost e n e1 → SwapOk e1 a → engStep e1 a = .ok e2 →
      e2.cfg.decoder.valid = false → WhileLost e (match a with | .swap _ => n + 1 | _ => n) e2

/-- The client does not switch logging off. -/
def KeepsLogging : EngAct → Prop
  | .logging b => b = true
  | _ => True

end Verif
