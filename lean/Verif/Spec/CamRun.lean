/-
The triggers of a crank wheel and a cam, in the order in which they come.
-/
import Verif.Spec.WheelRun

namespace Verif

/-- A trigger of the crank and the cam: tooth number `tooth`, or the cam pulse after it. -/
structure CamSlot where
  tooth : ℕ
  cam : Bool

/-- The trigger that follows.  A cam pulse comes after the tooth numbers that `pulse` says. -/
def camNext (pulse : ℕ → Prop) [DecidablePred pulse] (x : CamSlot) : CamSlot :=
  if x.cam = false ∧ pulse x.tooth then ⟨x.tooth, true⟩ else ⟨x.tooth + 1, false⟩

/-- Trigger number `j`, counted from 0. -/
def camSlot (pulse : ℕ → Prop) [DecidablePred pulse] : ℕ → CamSlot
  | 0 => ⟨0, false⟩
  | j + 1 => camNext pulse (camSlot pulse j)

/-- The input of trigger number `j` and its tick.  The crank is input 0, its teeth pass at the ticks `T`; the cam is input 1,
its pulses come at the ticks `P`. -/
def camEvent (pulse : ℕ → Prop) [DecidablePred pulse] (T P : ℕ → ℤ) (j : ℕ) : Int × ℤ :=
  if (camSlot pulse j).cam then (1, P (camSlot pulse j).tooth) else (0, T (camSlot pulse j).tooth)

/-- Tooth `n0` follows the gap at the beginning of an engine cycle, and enough teeth have come before. -/
structure CycleStart (N s R n0 : ℕ) : Prop where
  full : R ≤ n0
  gap : afterGap N s n0
  rev : firstRev N s n0

/-- A wheel with a cam and a decoder for it, as it is before the firmware starts.  The cam pulse comes between two teeth, once
in every engine cycle, after the tooth number `k` after the gap of the first revolution; tooth `n0` begins a cycle. -/
structure CamWheel (d0 : Decoder) (N s R k n0 : ℕ) (T P : ℕ → ℤ) : Prop where
  type : d0.type = .missingCamsync
  unseen : d0.camThis = false
  place : k < N - 1
  between : ∀ n, T n < P n ∧ P n < T (n + 1)
  start : CycleStart N s R n0

/-- The triggers handled so far are those of the list `ev`, in order, and the timing advance is one of `Adv`. -/
def OnEvents (ev : ℕ → Int × ℤ) (Adv : ℚ → Prop) (n : ℤ) (e : Engine) : Prop :=
  EventsGiven ev n e ∧ ∃ adv, e.vals.timingAdvance = .fin adv ∧ Adv adv

/-- The triggers handled so far are those of the list `ev`, in order, and while the decoder is valid the fuel pulse is `fu`
microseconds long. -/
def FuelOnEvents (ev : ℕ → Int × ℤ) (fu : BitVec 32) (n : ℤ) (e : Engine) : Prop :=
  EventsGiven ev n e ∧ (e.cfg.decoder.valid = true → e.vals.fuelingUs = fu)

end Verif
