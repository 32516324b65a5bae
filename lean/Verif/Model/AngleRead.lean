/-
Model of `current_angle` (src/decoder.c:436-449) with the interrupts that can come between its reads.  Its caller is an interrupt of a
lower priority than the one that decodes triggers (gd32f4_sensors.c:78 and gd32f4_sched.c:107, stm32f4-discovery.c:356 and :167).
-/
import Verif.Model.Decoder

namespace Verif

variable [FloatFmt]

/-- src/decoder.c:436-449.  `d0`: the decoder when the speed is tested (line 437), `d1`: when time and angle are read, with interrupts
off (440-443), `d2`: when the speed is read (446), `now`: what `current_time()` returns (446). -/
def angleRead (d0 d1 d2 : Decoder) (now : Time) : Except Fault Fl :=
  if d0.rpm = 0 then .ok d0.lastTriggerAngle
  else clampAngle (d1.lastTriggerAngle + degreesFromTimeDiff (now - d1.lastTriggerTime) d2.rpm) (Fl.fin 720)

/-- Without an interrupt in between it is `currentAngle`. -/
theorem angleRead_calm (d : Decoder) (now : Time) : angleRead d d d now = currentAngle d now := rfl

end Verif
