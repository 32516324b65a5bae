/-
Model of src/table.c and src/table.h.
-/
import Verif.Base.Arr

namespace Verif

/-- MAX_AXIS_SIZE, src/table.h:6. -/
abbrev maxAxis : Nat := 24

/-- src/table.h:9-13 `struct table_axis`.  `num` is an `unsigned char` (0..255).  The `name` text
is not part of lookup and is left out here (see Verif.Model.Console for text fields). -/
structure Axis where
  num : Nat
  values : Fin maxAxis → Fl

/-- src/table.h:15-19 `struct table_1d` (title left out). -/
structure Table1d where
  cols : Axis
  data : Fin maxAxis → Fl

/-- src/table.h:21-26 `struct table_2d` (title left out).  `data[row][column]`. -/
structure Table2d where
  rows : Axis
  cols : Axis
  data : Fin maxAxis → Fin maxAxis → Fl

/-- src/table.c:14-20, the loop of `axis_find_cell_lower`.  `middle` is always `x1 + len/2`
(set at lines 12 and 19).  The fuel is never used up (`findLoop_spec`). -/
def findLoop (a : Axis) (value : Fl) : Nat → Nat → Nat → Except Fault Nat
  | 0, _, _ => .error .diverge
  | fuel + 1, x1, len =>
    if len > 1 then do
      let m ← rd a.values (x1 + len / 2 : Nat)
      let x1' := if Fl.le m value then x1 + len / 2 else x1
      findLoop a value fuel x1' ((len + 1) / 2)
    else .ok x1

/-- src/table.c:5-22 `axis_find_cell_lower`. -/
def findCell (a : Axis) (value : Fl) : Except Fault Nat := do
  cassert (decide (a.num > 0))
  let v0 ← rd a.values 0
  cassert (Fl.le v0 value)
  let vn ← rd a.values ((a.num : Int) - 1)
  cassert (Fl.le value vn)
  findLoop a value (a.num + 1) 0 a.num

/-- src/table.c:27-35 (and 51-67): clamp a lookup value to the first and last breakpoints. -/
def clampAxis (a : Axis) (val : Fl) : Except Fault Fl := do
  let v0 ← rd a.values 0
  let val := if Fl.lt val v0 then v0 else val
  let vn ← rd a.values ((a.num : Int) - 1)
  return if Fl.lt vn val then vn else val

section
variable [FloatFmt]

/-- src/table.c:24-45 `interpolate_table_oneaxis`. -/
def interp1 (t : Table1d) (val : Fl) : Except Fault Fl := do
  let val ← clampAxis t.cols val
  let index ← findCell t.cols val
  let x1 ← rd t.cols.values index
  let x2 ← rd t.cols.values (index + 1)
  let part := (val - x1) / (x2 - x1)
  let first ← rd t.data index
  let second ← rd t.data (index + 1)
  return ((second - first) * part) + first

/-- src/table.c:47-82 `interpolate_table_twoaxis`. -/
def interp2 (t : Table2d) (x y : Fl) : Except Fault Fl := do
  let x ← clampAxis t.cols x
  let y ← clampAxis t.rows y
  let xi ← findCell t.cols x
  let yi ← findCell t.rows y
  let x1 ← rd t.cols.values xi
  let x2 ← rd t.cols.values (xi + 1)
  let y1 ← rd t.rows.values yi
  let y2 ← rd t.rows.values (yi + 1)
  let row1 ← rd t.data yi
  let d11 ← rd row1 xi
  let d12 ← rd row1 (xi + 1)
  let xy1 := (x2 - x) / (x2 - x1) * d11 + (x - x1) / (x2 - x1) * d12
  let row2 ← rd t.data (yi + 1)
  let d21 ← rd row2 xi
  let d22 ← rd row2 (xi + 1)
  let xy2 := (x2 - x) / (x2 - x1) * d21 + (x - x1) / (x2 - x1) * d22
  return (y2 - y) / (y2 - y1) * xy1 + (y - y1) / (y2 - y1) * xy2

end

/-- src/table.c:88-92, the monotonicity scan of `table_valid_axis` (`i < num - 1`, signed). -/
def validScan (a : Axis) : Nat → Except Fault Bool
  | 0 => .ok true
  | k + 1 => do
    -- pairs (0,1) .. (k,k+1), scanned upwards; written from the top of the prefix
    let ok ← validScan a k
    if ok then do
      let u ← rd a.values k
      let v ← rd a.values (k + 1)
      return !(Fl.lt v u)
    else return false

/-- src/table.c:84-94 `table_valid_axis`. -/
def validAxis (a : Axis) : Except Fault Bool :=
  if a.num > maxAxis then .ok false else validScan a (a.num - 1)

/-- src/table.c:96-102 `table_valid_oneaxis`. -/
def validTable1 (t : Table1d) : Except Fault Bool := validAxis t.cols

/-- src/table.c:104-113 `table_valid_twoaxis`. -/
def validTable2 (t : Table2d) : Except Fault Bool := do
  if ← validAxis t.cols then validAxis t.rows else return false

end Verif
