/-
The configuration the firmware ships with (src/config.c:4-302).

Decimal literals are rounded once, to the float format; the compiler rounds a literal without the `f`
suffix to double first.
-/
import Verif.Model.Calc

namespace Verif
open FloatFmt

section
variable [FloatFmt]

/-- A literal of a float member. -/
def lit (q : ℚ) : Fl := rnd q

/-- An initialiser list; the rest of the array is zero. -/
def litRow (l : List ℚ) : Fin maxAxis → Fl := fun i => lit (l.getD i 0)

def litAxis (l : List ℚ) : Axis := { num := l.length, values := litRow l }

def litData (l : List (List ℚ)) : Fin maxAxis → Fin maxAxis → Fl := fun r => litRow (l.getD r [])

/-- src/config.c:4-20 `enrich_vs_temp_and_map`. -/
def dfltEnrich : Table2d :=
  { rows := litAxis [20, 60, 80, 100]
    cols := litAxis [(-20), 0, 20, 40, 102, 120]
    data := litData [
    [5/2, 9/5, 3/2, 1, 1, 6/5],
    [2, 9/5, 13/10, 1, 1, 6/5],
    [3/2, 3/2, 6/5, 1, 1, 6/5],
    [6/5, 13/10, 11/10, 1, 1, 6/5]] }

/-- src/config.c:23-40 `tipin_vs_tpsrate_and_tps`. -/
def dfltTipin : Table2d :=
  { rows := litAxis [0, 10, 20, 50, 80]
    cols := litAxis [(-1000), 0, 100, 500, 1000]
    data := litData [
    [0, 0, 0, 0, 0],
    [0, 0, 0, 0, 0],
    [0, 0, 0, 20, 30],
    [0, 0, 0, 15, 20],
    [0, 0, 0, 10, 10]] }

/-- src/config.c:42-51 `tipin_duration_vs_rpm`. -/
def dfltTipinDur : Table1d :=
  { cols := litAxis [0, 1000, 2000, 4000]
    data := litRow [300, 150, 80, 40] }

/-- src/config.c:53-62 `dwell_ms_vs_brv`. -/
def dfltDwell : Table1d :=
  { cols := litAxis [5, 10, 14, 18]
    data := litRow [6, 4, 5/2, 9/5] }

/-- src/config.c:64-93 `ve_vs_rpm_and_map`. -/
def dfltVe : Table2d :=
  { rows := litAxis [20, 30, 40, 50, 60, 70, 80, 90, 100, 120, 140, 160, 180, 200, 220, 240]
    cols := litAxis [250, 500, 900, 1200, 1600, 2000, 2400, 3000, 3600, 4000, 4400, 5200, 5800, 6400, 6800, 7200]
    data := litData [
    [65, 30, 2, 2, 10, 10, 8, 8, 8, 8, 12, 12, 12, 12, 16, 16],
    [65, 45, 15, 12, 8, 9, 8, 8, 23, 9, 11, 12, 12, 12, 26, 26],
    [65, 45, 25, 25, 25, 18, 16, 24, 26, 40, 40, 43, 45, 45, 45, 45],
    [65, 45, 50, 42, 40, 46, 46, 43, 36, 42, 48, 50, 52, 52, 52, 52],
    [65, 45, 55, 53, 50, 53, 49, 57, 58, 61, 56, 52, 52, 52, 52, 52],
    [65, 45, 63, 59, 62, 60, 63, 61, 67, 67, 66, 66, 67, 67, 67, 67],
    [65, 45, 72, 65, 71, 65, 65, 66, 71, 70, 70, 74, 70, 68, 68, 68],
    [65, 45, 72, 72, 75, 80, 78, 75, 80, 83, 80, 80, 70, 70, 70, 72],
    [65, 45, 72, 72, 82, 79, 76, 76, 80, 80, 80, 80, 77, 77, 78, 78],
    [65, 45, 72, 72, 83, 83, 83, 84, 81, 82, 82, 82, 80, 80, 80, 80],
    [65, 45, 72, 72, 83, 83, 85, 83, 88, 89, 90, 90, 90, 90, 90, 90],
    [65, 45, 72, 72, 83, 83, 90, 90, 90, 90, 90, 90, 90, 90, 90, 90],
    [65, 45, 72, 72, 83, 83, 90, 90, 90, 90, 90, 90, 90, 90, 90, 90],
    [65, 45, 72, 72, 83, 83, 90, 90, 90, 90, 90, 90, 90, 90, 90, 90],
    [65, 45, 72, 72, 83, 83, 90, 90, 90, 90, 90, 90, 90, 90, 90, 90],
    [65, 45, 72, 72, 83, 83, 90, 90, 90, 90, 90, 90, 90, 90, 90, 90]] }

/-- src/config.c:95-123 `lambda_vs_rpm_and_map`. -/
def dfltLambda : Table2d :=
  { rows := litAxis [20, 30, 40, 50, 60, 70, 80, 90, 100, 120, 140, 160, 180, 200, 220, 240]
    cols := litAxis [250, 500, 900, 1200, 1600, 2000, 2400, 3000, 3600, 4000, 4400, 5200, 5800, 6400, 6800, 7200]
    data := litData [
    [1, 1, 1, 1, 1, 1, 1, 1, 1, 1, 1, 1, 1, 1, 1, 1],
    [1, 1, 1, 1, 1, 1, 1, 1, 1, 1, 1, 1, 1, 1, 1, 1],
    [1, 1, 1, 1, 1, 1, 1, 1, 1, 1, 1, 1, 1, 1, 1, 1],
    [1, 1, 1, 1, 1, 1, 1, 1, 1, 1, 1, 1, 1, 1, 1, 1],
    [1, 1, 1, 1, 1, 1, 1, 1, 1, 1, 1, 1, 1, 1, 1, 1],
    [1, 1, 23/25, 19/20, 9/10, 9/10, 9/10, 9/10, 9/10, 9/10, 9/10, 9/10, 9/10, 9/10, 9/10, 9/10],
    [9/10, 9/10, 9/10, 9/10, 9/10, 9/10, 9/10, 9/10, 9/10, 9/10, 9/10, 9/10, 9/10, 9/10, 9/10, 9/10],
    [17/20, 17/20, 17/20, 17/20, 17/20, 17/20, 17/20, 17/20, 17/20, 17/20, 17/20, 17/20, 17/20, 17/20, 17/20, 17/20],
    [17/20, 17/20, 17/20, 17/20, 17/20, 17/20, 17/20, 17/20, 17/20, 17/20, 17/20, 17/20, 17/20, 17/20, 17/20, 17/20],
    [21/25, 21/25, 21/25, 21/25, 21/25, 21/25, 21/25, 21/25, 21/25, 21/25, 21/25, 21/25, 21/25, 21/25, 21/25, 21/25],
    [83/100, 83/100, 83/100, 83/100, 83/100, 41/50, 41/50, 41/50, 41/50, 41/50, 41/50, 41/50, 41/50, 41/50, 41/50, 41/50],
    [83/100, 83/100, 83/100, 83/100, 83/100, 41/50, 41/50, 41/50, 41/50, 41/50, 41/50, 41/50, 41/50, 41/50, 41/50, 41/50],
    [81/100, 81/100, 81/100, 81/100, 81/100, 19/25, 19/25, 19/25, 19/25, 19/25, 19/25, 19/25, 19/25, 19/25, 19/25, 19/25],
    [73/100, 73/100, 73/100, 81/100, 81/100, 73/100, 73/100, 73/100, 73/100, 73/100, 73/100, 73/100, 73/100, 73/100, 73/100, 73/100],
    [3/4, 3/4, 3/4, 73/100, 73/100, 73/100, 73/100, 73/100, 73/100, 73/100, 73/100, 73/100, 73/100, 73/100, 73/100, 73/100],
    [3/4, 3/4, 3/4, 73/100, 73/100, 73/100, 73/100, 73/100, 73/100, 73/100, 73/100, 73/100, 73/100, 73/100, 73/100, 73/100]] }

/-- src/config.c:125-155 `timing_vs_rpm_and_map`. -/
def dfltTiming : Table2d :=
  { rows := litAxis [20, 30, 40, 50, 60, 70, 80, 90, 100, 120, 140, 160, 180, 200, 220, 240]
    cols := litAxis [250, 500, 900, 1200, 1600, 2000, 2400, 3000, 3600, 4000, 4400, 5200, 5800, 6400, 6800, 7200]
    data := litData [
    [12, 15, 18, 28, 32, 35, 42, 42, 42, 42, 42, 42, 42, 42, 42, 42],
    [12, 15, 18, 24, 28, 32, 36, 36, 38, 38, 40, 40, 40, 40, 40, 40],
    [12, 15, 18, 24, 25, 30, 32, 35, 36, 36, 38, 40, 40, 40, 40, 40],
    [10, 15, 15, 24, 24, 28, 30, 32, 34, 35, 35, 35, 35, 35, 35, 35],
    [10, 15, 15, 20, 22, 24, 28, 30, 34, 34, 34, 34, 34, 34, 34, 34],
    [10, 15, 15, 17, 17, 22, 26, 28, 32, 32, 32, 32, 32, 32, 32, 32],
    [10, 10, 10, 15, 18, 18, 24, 26, 31, 31, 31, 31, 31, 31, 31, 31],
    [8, 10, 10, 12, 15, 15, 22, 28, 30, 32, 32, 32, 32, 32, 32, 32],
    [8, 8, 8, 8, 10, 18, 24, 28, 28, 30, 30, 30, 30, 30, 30, 30],
    [8, 10, 10, 12, 13, 15, 22, 25, 26, 28, 28, 28, 28, 28, 28, 28],
    [8, 10, 10, 12, 13, 15, 18, 21, 23, 24, 24, 24, 24, 24, 24, 24],
    [8, 10, 10, 12, 13, 13, 15, 17, 20, 20, 21, 21, 21, 21, 21, 21],
    [8, 10, 10, 12, 13, 13, 15, 16, 16, 18, 18, 18, 18, 18, 18, 18],
    [8, 10, 10, 12, 12, 13, 13, 13, 15, 15, 15, 15, 15, 15, 15, 15],
    [8, 10, 10, 10, 10, 11, 13, 13, 13, 13, 13, 13, 13, 13, 13, 13],
    [8, 10, 10, 10, 10, 10, 10, 10, 10, 10, 10, 10, 10, 8, 8, 8]] }

/-- src/config.c:157-165 `injector_dead_time`. -/
def dfltDeadtime : Table1d :=
  { cols := litAxis [17/2, 9, 19/2, 10, 21/2, 11, 23/2, 12, 25/2, 13, 27/2, 14, 29/2, 15, 31/2, 16]
    data := litRow [297/100, 133/50, 239/100, 431/200, 49/25, 91/50, 17/10, 159/100, 37/25, 7/5, 33/25, 5/4, 119/100, 111/100, 21/20, 1] }

/-- src/config.c:167-173 `injector_pw_correction`. -/
def dfltPwc : Table1d :=
  { cols := litAxis [0, 333/1000, 521/1000, 102/125, 639/500, 2]
    data := litRow [0, 9/100, 43/500, 19/500, 23/1000, 0] }

/-- src/config.c:175-183 `boost_control_pwm`. -/
def dfltBoost : Table1d :=
  { cols := litAxis [1000, 2000, 3000, 4000, 5000, 6000]
    data := litRow [50, 50, 50, 50, 50, 50] }


/-- A zero-initialised output event with the three given members. -/
def dfltEvent (t : EvType) (angle : ℚ) (pin : Nat) : OEvent :=
  { type := t, angle := lit angle, pin := BitVec.ofNat 32 pin, inverted := false, start := Entry.init, stop := Entry.init }

/-- src/config.c:186-198. -/
def dfltEvents : Fin maxEvents → OEvent := fun i =>
  [dfltEvent .ignition 0 0,
   dfltEvent .ignition 120 1,
   dfltEvent .ignition 240 2,
   dfltEvent .ignition 360 0,
   dfltEvent .ignition 480 1,
   dfltEvent .ignition 600 2,
   dfltEvent .fuel 700 8,
   dfltEvent .fuel 460 9,
   dfltEvent .fuel 220 10].getD i (dfltEvent .disabled 0 0)

/-- src/config.c:199-207; the members not named are zero (`rpm_window_size` is one of them). -/
def dfltDecoder : Decoder :=
  { valid := false, rpm := 0, toothRpm := 0, lastTriggerTime := 0, lastTriggerAngle := lit 0, expiration := 0,
    type := .missingCamsync, offset := lit 0, maxRpmChange := lit (35/100), curRpmChange := lit 0, minRpm := 80,
    requiredTriggersRpm := 4, numTriggers := 36, degreesPerTrigger := lit 10, rpmWindowSize := 0, t0Count := 0,
    t1Count := 0, loss := .noLoss, state := .nosync, currentTriggersRpm := 0, triggersSinceLastSync := 0,
    times := fun _ => 0, camThis := false, camLast := false }

/-- A zero-initialised sensor. -/
def zeroSensor : Sensor :=
  { pin := 0, source := .none, method := .linear, rangeMin := lit 0, rangeMax := lit 0, rawMin := lit 0, rawMax := lit 0,
    bias := lit 0, thermA := lit 0, thermB := lit 0, thermC := lit 0, lag := lit 0, faultMin := lit 0, faultMax := lit 0,
    faultValue := lit 0,
    window := { captureWidth := 0, totalWidth := 0, offset := 0, accumulator := lit 0, samples := 0, collecting := false,
                startAngle := lit 0 },
    time := 0, rawValue := lit 0, value := lit 0, derivative := lit 0, fault := .none }

/-- src/config.c:219-264. -/
def dfltSensors : Fin numSensors → Sensor := fun i =>
  [{ zeroSensor with
      pin := 3, source := .adc, method := .linearWindowed, rawMax := lit 5, rangeMin := lit 12, rangeMax := lit 420,
      faultMin := lit (5/100), faultMax := lit (495/100), faultValue := lit 50,
      window := { zeroSensor.window with totalWidth := 120, captureWidth := 120 } },
   { zeroSensor with
      pin := 4, source := .adc, method := .therm, rawMax := lit 5, faultMin := lit (5/100), faultMax := lit (495/100),
      faultValue := lit 10, bias := lit 2490, thermA := lit (146167419060305 / 10 ^ 17),
      thermB := lit (22887572003919 / 10 ^ 17), thermC := lit (164484831669638 / 10 ^ 21) },
   { zeroSensor with
      pin := 5, source := .adc, method := .therm, rawMax := lit 5, faultMin := lit (5/100), faultMax := lit (495/100),
      faultValue := lit 50, bias := lit 2490, thermA := lit (131586818223649 / 10 ^ 17),
      thermB := lit (25618700140100302 / 10 ^ 20), thermC := lit (18474199456928 / 10 ^ 20) },
   { zeroSensor with
      pin := 2, source := .adc, method := .linear, rawMax := lit 5, rangeMax := lit (245/10), lag := lit 80,
      faultMin := lit (1/10), faultMax := lit (49/10), faultValue := lit (138/10) },
   { zeroSensor with
      pin := 6, source := .adc, method := .linear, rawMax := lit 5, rangeMin := lit (-1574/100), rangeMax := lit (14547/100),
      faultMin := lit (25/100), faultMax := lit (45/10), faultValue := lit 25, lag := lit 10 },
   { zeroSensor with pin := 5, source := .const, value := lit 102 },
   { zeroSensor with
      pin := 3, source := .pulsewidth, rawMin := lit (1/1000), rawMax := lit (5/1000), rangeMin := lit (-40),
      rangeMax := lit 125 },
   { zeroSensor with
      pin := 7, source := .adc, method := .linear, rawMax := lit 5, rangeMin := lit (499/1000), rangeMax := lit (1309/1000) },
   { zeroSensor with source := .const, value := lit 100 },
   { zeroSensor with
      pin := 3, source := .freq, method := .linear, rawMin := lit 50, rawMax := lit 150, rangeMax := lit 100 }].getD i
    zeroSensor

/-- src/config.c:208-211. -/
def dfltKnock : Fin 2 → Knock := fun _ =>
  { frequency := lit 7000, threshold := lit 0, width := 0, freq := 0, w := lit 0, cr := lit 0, nSamples := 0,
    sprev := lit 0, sprev2 := lit 0, value := lit 0 }

/-- src/config.c:185-302 `config`. -/
def dfltConfig : Config :=
  { events := dfltEvents, decoder := dfltDecoder, sensors := dfltSensors, knock := dfltKnock,
    timing := some dfltTiming, ve := some dfltVe, lambda := some dfltLambda, deadtime := some dfltDeadtime,
    pwCorrection := some dfltPwc, tempEnrich := some dfltEnrich, dwell := some dfltDwell, tipinAmount := some dfltTipin,
    tipinDuration := some dfltTipinDur,
    fueling := { injectorCc := lit 1015, cylinderCc := lit 500, stoich := lit (147/10), injections := 1, pumpPin := 0,
                 crankRpm := lit 400, crankTemp := lit 20, crankAmt := lit (5/2), airDensity := lit (12922/10000000),
                 fuelDensity := lit (755/1000) },
    ignition := { dwell := .brv, dwellDuty := lit 0, dwellUs := lit 0, minFireUs := 500 },
    boost := { duty := some dfltBoost, enableKpa := lit 90, controlKpa := lit 190, controlTps := lit 105, pin := 1,
               overboost := lit 260 },
    cel := { pin := 2, leanKpa := lit 140, leanEgo := lit (91/100) },
    rpmStop := 6700, rpmStart := 6200 }

end

end Verif
