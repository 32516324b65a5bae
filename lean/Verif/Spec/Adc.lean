/-
The ADC chips, from their data sheets (TI TLV2553, Analog Devices AD7888, Maxim MAX11632).  The firmware sends the commands of
a fixed sequence over and over; in every 16-bit frame one command goes out and one word comes back.

`ana i c` is what the chip measures in frame `i` on its input `c`, as a 12-bit number.
-/
import Verif.Model.Adc

namespace Verif

/-- The command sent in frame `i`, counted from the first one ever sent. -/
def adcCommand (c : AdcChip) (i : Nat) : BitVec 16 := (adcSequence c).getD (i % numSpiTx c) 0

/-- The input a command selects.  TLV2553: the top four bits.  AD7888: ADD2..ADD0 are bits 13 to 11.  MAX11632: in the
conversion register (top bit set), bits 14 to 11. -/
def adcSelects (c : AdcChip) (cmd : BitVec 16) : Option Nat :=
  match c with
  | .tlv2553 => some (cmd >>> 12).toNat
  | .ad7888 => some ((cmd >>> 11) &&& 7#16).toNat
  | .max11632 => if cmd.getLsbD 15 then some ((cmd >>> 11) &&& 15#16).toNat else none

/-- The word that comes back in frame `i + 1`.  TLV2553: the result for the command of the frame before, in the top twelve
bits.  AD7888: the same, in the low twelve bits.  MAX11632, clock mode 11: the result of a conversion command starts in the second
byte of the command's own frame, so the low four bits of that byte are its top bits, and the first byte of the next frame has
the rest. -/
def adcAnswer (c : AdcChip) (ana : Nat → Nat → BitVec 12) (i : Nat) : BitVec 16 :=
  let result (j : Nat) : BitVec 16 := match adcSelects c (adcCommand c j) with
    | some p => (ana j p).setWidth 16
    | none => 0
  match c with
  | .tlv2553 => result i <<< 4
  | .ad7888 => result i
  | .max11632 => (result i <<< 8) ||| (result (i + 1) >>> 8)

/-- The buffer received in the `r`-th repetition (`r ≥ 1`) of the sequence. -/
def adcBuffer (c : AdcChip) (ana : Nat → Nat → BitVec 12) (r : Nat) : Fin (numSpiTx c) → BitVec 16 :=
  fun j => adcAnswer c ana (r * numSpiTx c + j - 1)

/-- The pins that can be read as slow inputs.  On the TLV2553 and the MAX11632 inputs 0 and 1 are kept for knock sensing. -/
def slowPins : AdcChip → List Nat
  | .tlv2553 => [2, 3, 4, 5, 6, 7, 8, 9, 10, 11]
  | .ad7888 => [0, 1, 2, 3, 4, 5, 6, 7]
  | .max11632 => [2, 3, 4, 5, 6, 7, 8, 9, 10, 11, 12, 13, 14, 15]

end Verif
