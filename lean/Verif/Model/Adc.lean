/-
Model of the external ADC chips' tables: src/platforms/common/tlv2553_adc.h, ad7888_adc.h and max11632_adc.h, and of the
interrupt handlers that use them: gd32f4_sensors.c:92-112 and stm32f4-discovery.c:396-416.
-/
import Verif.Model.Sensors

namespace Verif

/-- The chips. -/
inductive AdcChip | tlv2553 | ad7888 | max11632
  deriving DecidableEq

/-- `SPI_INPUT(X)`: tlv2553_adc.h:7, ad7888_adc.h:7, max11632_adc.h:8. -/
def spiInput (c : AdcChip) (x : Nat) : BitVec 16 :=
  match c with
  | .tlv2553 => (BitVec.ofNat 16 x <<< 12) ||| 0x0C00#16
  | .ad7888 => (BitVec.ofNat 16 x <<< 11) ||| 0x400#16
  | .max11632 => 0x8600#16 ||| (BitVec.ofNat 16 x <<< 11)

/-- `adc_transmit_sequence`: tlv2553_adc.h:24-35, ad7888_adc.h:14-24, max11632_adc.h:15-21. -/
def adcSequence (c : AdcChip) : List (BitVec 16) :=
  match c with
  | .tlv2553 =>
      [0, 1, 2, 0, 1, 3, 0, 1, 4, 0, 1, 5, 0, 1, 6, 0, 1, 7, 0, 1, 8, 0, 1, 9, 0, 1, 10, 0, 1, 11].map (spiInput .tlv2553)
  | .ad7888 => [0, 1, 2, 3, 4, 5, 6, 7, 0].map (spiInput .ad7888)
  | .max11632 =>
      0x7400#16 :: [2, 3, 0, 1, 4, 5, 6, 7, 0, 1, 8, 9, 10, 11, 0, 1, 12, 13, 14, 15, 0, 1].map (spiInput .max11632)
        ++ [0x1000#16]

/-- `NUM_SPI_TX`. -/
abbrev numSpiTx : AdcChip → Nat
  | .tlv2553 => 30
  | .ad7888 => 9
  | .max11632 => 24

/-- `read_raw_from_position`: tlv2553_adc.h:40-43, ad7888_adc.h:29-32, max11632_adc.h:23-28. -/
def readRaw (c : AdcChip) (values : Fin (numSpiTx c) → BitVec 16) (position : Int) : Except Fault (BitVec 16) := do
  let first ← rd values position
  match c with
  | .tlv2553 => return first >>> 4
  | .ad7888 => return first &&& 0xFFF#16
  | .max11632 => do
      let second ← rd values (position + 1)
      return ((first &&& 0x0F#16) <<< 8) ||| (second >>> 8)

/-- The position `read_adc_pin` reads for a pin, if any: tlv2553_adc.h:48-74, ad7888_adc.h:36-57, max11632_adc.h:30-63. -/
def pinPosition (c : AdcChip) (pin : Int) : Option Int :=
  match c with
  | .tlv2553 =>
      if pin = 2 then some 3 else if pin = 3 then some 6 else if pin = 4 then some 9 else if pin = 5 then some 12
      else if pin = 6 then some 15 else if pin = 7 then some 18 else if pin = 8 then some 21 else if pin = 9 then some 24
      else if pin = 10 then some 27 else if pin = 11 then some 0 else none
  | .ad7888 =>
      if pin = 0 then some 1 else if pin = 1 then some 2 else if pin = 2 then some 3 else if pin = 3 then some 4
      else if pin = 4 then some 5 else if pin = 5 then some 6 else if pin = 6 then some 7 else if pin = 7 then some 8 else none
  | .max11632 =>
      if pin = 2 then some 1 else if pin = 3 then some 2 else if pin = 4 then some 5 else if pin = 5 then some 6
      else if pin = 6 then some 7 else if pin = 7 then some 8 else if pin = 8 then some 11 else if pin = 9 then some 12
      else if pin = 10 then some 13 else if pin = 11 then some 14 else if pin = 12 then some 17 else if pin = 13 then some 18
      else if pin = 14 then some 19 else if pin = 15 then some 20 else none

/-- `read_adc_pin`. -/
def readAdcPin (c : AdcChip) (values : Fin (numSpiTx c) → BitVec 16) (pin : Int) : Except Fault (BitVec 16) :=
  match pinPosition c pin with
  | some p => readRaw c values p
  | none => .ok 0

/-- `adc_response_is_valid`: tlv2553_adc.h:77-83, ad7888_adc.h:60-63, max11632_adc.h:66-69. -/
def adcResponseValid (c : AdcChip) (values : Fin (numSpiTx c) → BitVec 16) : Except Fault Bool :=
  match c with
  | .tlv2553 => do
      let t ← readAdcPin .tlv2553 values 11
      return !(decide (t.toNat < 2048 - 10) || decide (t.toNat > 2048 + 10))
  | .ad7888 => .ok true
  | .max11632 => .ok true

/-- The boards, with the chip they are built for: gd32f4_sensors.c:6-14, stm32f4-discovery.c:298-312. -/
inductive AdcBoard | gd32Tlv2553 | stm32Tlv2553 | stm32Ad7888
  deriving DecidableEq

def AdcBoard.chip : AdcBoard → AdcChip
  | .gd32Tlv2553 | .stm32Tlv2553 => .tlv2553
  | .stm32Ad7888 => .ad7888

/-- `SPI_SAMPLE_RATE`: gd32f4_sensors.c:9, stm32f4-discovery.c:301, 306.  The frames per second: on both boards the timer that
starts them divides its clock by exactly clock / rate (gd32f4_sensors.c:21-22, stm32f4-discovery.c:360-361). -/
def AdcBoard.framesPerSecond : AdcBoard → Nat
  | .gd32Tlv2553 | .stm32Tlv2553 => 150000
  | .stm32Ad7888 => 70000

/-- `platform_adc_samplerate`: gd32f4_sensors.c:10, 114-116, stm32f4-discovery.c:302, 307, 1005-1011. -/
def AdcBoard.adcRate : AdcBoard → BitVec 32
  | .gd32Tlv2553 | .stm32Tlv2553 => 5000
  | .stm32Ad7888 => 5000

section
variable [FloatFmt]

/-- gd32f4_sensors.c:104-108, stm32f4-discovery.c:410-413: `(float)(5 * adc_value) / 4096.0f`. -/
def adcVolts (v : BitVec 16) : Fl := Fl.ofU32 (5 * v.setWidth 32) / Fl.fin 4096

/-- The fault, if any, of the reads the handler makes, and the update it passes on: gd32f4_sensors.c:98-109,
stm32f4-discovery.c:405-415. -/
def adcUpdate (c : AdcChip) (values : Fin (numSpiTx c) → BitVec 16) (now : Time) : Except Fault AdcUpdate := do
  let valid ← adcResponseValid c values
  let vs ← (List.finRange maxAdcPins).foldlM (fun (vs : Fin maxAdcPins → Fl) (i : Fin maxAdcPins) => do
    let v ← readAdcPin c values ((i : Nat) : Int)
    return fun j => if j = i then adcVolts v else vs j) (fun _ => Fl.fin 0)
  return { time := now, valid := valid, values := vs }

/-- tlv2553_adc.h:85-107 `process_knock_inputs`: the samples of input `k` (0 or 1). -/
def knockSamples (values : Fin 30 → BitVec 16) (k : Nat) : Except Fault (List Fl) :=
  (List.range 10).mapM fun (i : Nat) => do
    let v ← readRaw .tlv2553 values ((i : Int) * 3 + 1 + k)
    return Fl.ofU32 (v.setWidth 32) / Fl.fin 4096

end

end Verif
