/-
Specification vocabulary for time: real time is an unbounded integer number of ticks; what the
firmware sees is its 32-bit stamp.
-/
import Mathlib.Data.Int.Notation

namespace Verif

/-- The 32-bit stamp of an instant of real time (in ticks). -/
def stamp (t : Int) : BitVec 32 := BitVec.ofInt 32 t

end Verif
