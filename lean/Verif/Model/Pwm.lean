/-
PWM outputs: gd32f4_pwm.c and the PWM part of stm32f4-discovery.c.
-/
import Verif.Base.Fl
import Verif.Base.Arr

namespace Verif

variable [FloatFmt]

/-- C conversion float to `uint16_t` (C11 6.3.1.4p1): undefined unless the truncated value fits. -/
def toU16 : Fl → Except Fault (BitVec 16)
  | .fin q => if -1 < q ∧ q < 65536 then .ok (BitVec.ofInt 16 (Fl.truncQ q)) else .error .floatToInt
  | _ => .error .floatToInt

/-- C conversion float to `int`, given as the bits of the result. -/
def toS32 : Fl → Except Fault (BitVec 32)
  | .fin q => if -2147483649 < q ∧ q < 2147483648 then .ok (BitVec.ofInt 32 (Fl.truncQ q)) else .error .floatToInt
  | _ => .error .floatToInt

/-- TIMER2 (gd32) or TIM3 (stm32): a 16-bit counter with a period of 65536 counts (the reload register is 65535), four compare
registers with preload (gd32f4_pwm.c:32-35, stm32f4-discovery.c:198-229), and what the preload registers were at the start of the
period, which is what the counter is compared with. -/
structure PwmTimer where
  cnt : BitVec 16
  cv : Fin 4 → BitVec 16
  act : Fin 4 → BitVec 16

/-- gd32f4_pwm.c:17-42, stm32f4-discovery.c:176-231: all compare values are 0. -/
def PwmTimer.init : PwmTimer := { cnt := 0, cv := fun _ => 0, act := fun _ => 0 }

/-- One count; when the counter starts again the compare values take effect. -/
def PwmTimer.tick (t : PwmTimer) : PwmTimer :=
  if t.cnt = 65535 then { t with cnt := 0, act := t.cv } else { t with cnt := t.cnt + 1 }

/-- PWM mode 0 (gd32), mode 1 (stm32): the output is high while the counter is below the compare value. -/
def PwmTimer.high (t : PwmTimer) (ch : Fin 4) : Bool := decide (t.cnt.toNat < (t.act ch).toNat)

/-- The `switch` of both `set_pwm` functions: outputs 1 to 4 are the timer's channels, any other number does nothing. -/
def PwmTimer.write (t : PwmTimer) (output : BitVec 32) (v : BitVec 16) : PwmTimer :=
  { t with cv := fun ch => if output.toNat = ch.val + 1 then v else t.cv ch }

/-- gd32f4_pwm.c:44-60 `set_pwm`. -/
def gdSetPwm (t : PwmTimer) (output : BitVec 32) (percent : Fl) : Except Fault PwmTimer := do
  let duty ← toU16 ((percent / Fl.fin 100) * Fl.fin 65535)
  return t.write output duty

/-- stm32f4-discovery.c:234-238: the duty is limited to 0 to 100. -/
def stLimit (percent : Fl) : Fl :=
  if Fl.lt percent (Fl.fin 0) then Fl.fin 0 else if Fl.lt (Fl.fin 100) percent then Fl.fin 100 else percent

/-- stm32f4-discovery.c:233-250 `set_pwm`; the register keeps the low 16 bits. -/
def stSetPwm (t : PwmTimer) (output : BitVec 32) (percent : Fl) : Except Fault PwmTimer := do
  let ival ← toS32 ((stLimit percent / Fl.fin 100) * Fl.fin 65535)
  return t.write output (ival.setWidth 16)

end Verif
