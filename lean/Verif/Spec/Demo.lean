/-
A concrete operating point, used by the examples beside the theorems.
-/
import Verif.Model.Default

namespace Verif
open Fl FloatFmt

/-- An operating point of the shipped configuration. -/
def demoConfig [FloatFmt] : Config :=
  let vals : List Fl := [fin 80, fin 20, fin 90, lit (138 / 10), fin 30, fin 100, fin 20, fin 1, fin 100, fin 0]
  { dfltConfig with
    decoder := { dfltDecoder with rpm := 3000, toothRpm := 3000, valid := true, state := .sync }
    sensors := fun i => { dfltSensors i with value := vals.getD i (fin 0) } }

def zeroCalc : CalcValues :=
  ⟨fin 0, 0, false, false, false, 0, fin 0, fin 0, fin 0, fin 0, fin 0, fin 0, fin 0, fin 0⟩

end Verif
