/-
Model of src/util.c.
-/
import Verif.Base.Binary32

namespace Verif

/-- `timeval_t` is `uint32_t` on every platform (src/platform.h:7). -/
abbrev Time := BitVec 32

/-- TICKRATE, 4 MHz on every target (hosted, stm32f4, gd32f4 platform headers). -/
def tickrate : Nat := 4000000

/-- src/util.c:29-32 `time_before`: `(signed int)(n - x) < 0`. -/
def timeBefore (n x : Time) : Bool := decide ((n - x).toInt < 0)

/-- src/util.c:34-37 `time_before_or_equal`. -/
def timeBeforeOrEqual (n x : Time) : Bool := decide ((n - x).toInt ≤ 0)

/-- src/util.c:39-41 `time_in_range`: unsigned comparison of offsets from `t1`. -/
def timeInRange (val t1 t2 : Time) : Bool := decide ((val - t1).toNat ≤ (t2 - t1).toNat)

/-- src/util.c:43-45 `time_diff`. -/
def timeDiff (later earlier : Time) : Time := later - earlier

section
variable [FloatFmt]
open FloatFmt

/-- src/util.c:5 `tick_degree_rpm_ratio = TICKRATE / 6.0f`. -/
def tickDegreeRpmRatio : Fl := Fl.ofNat tickrate / Fl.fin 6

/-- src/util.c:7-11 `rpm_from_time_diff`. -/
def rpmFromTimeDiff (t1 : Time) (deg : Fl) : Except Fault (BitVec 32) :=
  let ticksPerDegree := Fl.ofU32 t1 / deg
  Fl.toU32 (tickDegreeRpmRatio / ticksPerDegree)

/-- src/util.c:13-16 `time_from_rpm_diff`. -/
def timeFromRpmDiff (rpm : BitVec 32) (deg : Fl) : Except Fault Time :=
  let ticksPerDegree := tickDegreeRpmRatio / Fl.ofU32 rpm
  Fl.toU32 (ticksPerDegree * deg)

/-- src/util.c:18-21 `degrees_from_time_diff`. -/
def degreesFromTimeDiff (t : Time) (rpm : BitVec 32) : Fl :=
  let ticksPerDegree := tickDegreeRpmRatio / Fl.ofU32 rpm
  Fl.ofU32 t / ticksPerDegree

/-- src/util.c:23-26 `time_from_us`: `us * (TICKRATE / 1000000.0f)`. -/
def timeFromUs (us : BitVec 32) : Except Fault Time :=
  Fl.toU32 (Fl.ofU32 us * (Fl.ofNat tickrate / Fl.fin 1000000))

/-- src/util.c:48-50, the first loop of `clamp_angle`, with fuel. -/
def clampUp : Nat → Fl → Fl → Except Fault Fl
  | 0, _, _ => .error .diverge
  | n + 1, ang, max => if Fl.lt ang (Fl.fin 0) then clampUp n (ang + max) max else .ok ang

/-- src/util.c:51-53, the second loop of `clamp_angle`, with fuel. -/
def clampDown : Nat → Fl → Fl → Except Fault Fl
  | 0, _, _ => .error .diverge
  | n + 1, ang, max => if Fl.le max ang then clampDown n (ang - max) max else .ok ang

end

/-- Fuel for the loops of `clamp_angle`: more than the number of binary32 values (so a binary32
run that uses it up has repeated a value and never ends), plus the number of turns in the angle
(so that exact arithmetic never uses it up). -/
def clampFuel : Fl → Fl → Nat
  | Fl.fin a, Fl.fin m => 2 ^ 33 + ⌈|a| / |m|⌉.toNat
  | _, _ => 2 ^ 33

/-- src/util.c:47-55 `clamp_angle`. -/
def clampAngle [FloatFmt] (ang max : Fl) : Except Fault Fl := do
  let a ← clampUp (clampFuel ang max) ang max
  clampDown (clampFuel a max) a max

end Verif
