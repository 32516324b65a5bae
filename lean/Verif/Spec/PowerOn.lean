/-
What an output has done since the firmware was started.
-/
import Verif.Spec.Firing

namespace Verif

variable [FloatFmt]

/-- On the way from the boot of `e0` to `e` the hardware is given a buffer that drives `p` to `v` at tick `t`. -/
def DrivenIn (A : ℤ → EngAct → Prop) (G : ℤ → Engine → Prop) (e0 : Engine) (n E : ℤ) (e : Engine) (p : Fin 16) (v : Bool)
    (t : ℤ) : Prop :=
  ∃ n' E' e' b, EngTimed A G e0 n' E' e' ∧ EngOn A G n' E' e' n E e ∧ InBuffer E' e' b t ∧ Drives (e'.buf b) (stamp t) p v

end Verif
