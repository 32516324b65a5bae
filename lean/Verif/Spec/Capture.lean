/-
Vocabulary for the trigger capture properties.
-/
import Verif.Model.Capture
import Verif.Spec.Time

namespace Verif

/-- Edges (input, instant) in the order the decoder should see them: by time, and the primary input (`false`) first when two
come in the same tick. -/
def InCaptureOrder (l : List (Bool × ℤ)) : Prop :=
  l.Pairwise fun a b => a.2 < b.2 ∨ (a.2 = b.2 ∧ a.1 = false ∧ b.1 = true)

/-- The number the decoder knows an input by. -/
def inputNo (k : Bool) : Int := if k then 1 else 0

/-- The edge was handed to the decoder, or the decoder was told that edges were lost. -/
def Accounted (k : Bool) (t : Time) (after : List CapEv) : Prop :=
  CapEv.out (.deliver (inputNo k) t) ∈ after ∨ CapEv.out .desync ∈ after

/-- No edge of the trace has been forgotten: each is accounted for later in the trace. -/
def NoneForgotten (trace : List CapEv) : Prop :=
  ∀ a k t b, trace = a ++ .edge k t :: b → Accounted k t b

/-- The handler is not running and has nothing to do. -/
def CapSys.Quiet (s : CapSys) : Prop := s.pc = .idle ∧ ∀ k, (s.ch k).flag = false

/-- A run from boot in which every action is allowed by `ok`. -/
inductive CapRun (p : CapPlatform) (ok : CapSys → CapAct → Prop) : CapSys → Prop
  | boot : CapRun p ok .boot
  | act {s a} : CapRun p ok s → ok s a → CapRun p ok (s.act p a)

end Verif
