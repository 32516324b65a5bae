/-
Specification for the USB console's sending side (C96): how a message is cut into packets, and what has been written in the
present connection.
-/
import Verif.Model.UsbTx

namespace Verif

/-- A message as packets of at most 64 bytes: all are full but the last one, which may be empty, and tells the host that the
message is over. -/
def usbPackets (m : List Byte) : List (List Byte) :=
  if m.length < 64 then [m] else m.take 64 :: usbPackets (m.drop 64)
termination_by m.length
decreasing_by simp only [List.length_drop]; omega

/-- The messages that the console has begun to write since the host selected the configuration, and the state, in which `host`
is what the host has got since then. -/
structure UsbLog where
  s : UsbTx
  begun : List (List Byte)

def UsbLog.boot : UsbLog := ⟨.boot, []⟩

/-- One step. -/
def UsbLog.act (l : UsbLog) : UsbTxAct → UsbLog
  | .write m => ⟨l.s.act (.write m), if l.s.waiting ∨ l.s.pending then l.begun else l.begun ++ [m]⟩
  | .configure fe => if l.s.takesConfig then ⟨{ l.s.act (.configure fe) with host := [] }, []⟩ else l
  | a => ⟨l.s.act a, l.begun⟩

def UsbLog.run (l : UsbLog) (as : List UsbTxAct) : UsbLog := as.foldl UsbLog.act l

/-- What the host should have got: the packets of the messages, in order. -/
def UsbLog.due (l : UsbLog) : List (List Byte) := l.begun.flatMap usbPackets

/-- A stretch of time in which the interrupt is handled at least once when the FIFO is empty, and after that the host asks for a
packet; besides these only interrupts, tokens, and looks of the main loop at its flag. -/
def UsbRound (b : List UsbTxAct) : Prop :=
  ∃ x y z, b = x ++ UsbTxAct.irq true :: y ++ UsbTxAct.token :: z ∧
    ∀ a ∈ x ++ y ++ z, a = .token ∨ a = .leave ∨ ∃ fe, a = .irq fe

end Verif
