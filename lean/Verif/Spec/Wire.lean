/-
The CBOR encoding of a message (RFC 8949, section 3), whatever its length, and what a client needs to cut the stream it
receives into messages.
-/
import Verif.Model.Structure
import Verif.Spec.Cbor
import Verif.Spec.Request

namespace Verif

mutual
/-- The encoding of an item: a head with the major type and the argument, followed by the content. -/
def Wire.bytes (bits : Fl → BitVec 32) : Wire → List Byte
  | .num n => intBytes n
  | .flt x => 0xfa :: beBytes 4 (bits x).toNat
  | .bool b => [if b then 0xf5 else 0xf4]
  | .null => [0xf6]
  | .text s => headBytes 3 s.utf8ByteSize ++ utf8Bytes s
  | .arr d l => openBytes 4 d l.length ++ Wire.bytesAll bits l ++ closeBytes d
  | .map d l => openBytes 5 d (l.length / 2) ++ Wire.bytesAll bits l ++ closeBytes d
/-- The encodings one after the other. -/
def Wire.bytesAll (bits : Fl → BitVec 32) : List Wire → List Byte
  | [] => []
  | w :: ws => Wire.bytes bits w ++ Wire.bytesAll bits ws
end

/-- Bytes of a head with argument `n`. -/
def headSize (n : Nat) : Nat :=
  if n < 24 then 1 else if n < 2 ^ 8 then 2 else if n < 2 ^ 16 then 3 else if n < 2 ^ 32 then 5 else 9

mutual
/-- Bytes of the encoding of a value the console answers with. -/
def Item.size : Item → Nat
  | .int n => headSize (if 0 ≤ n then n.toNat else (-1 - n).toNat)
  | .flt _ => 5
  | .bool _ => 1
  | .null => 1
  | .text s => headSize s.utf8ByteSize + s.utf8ByteSize
  | .arr _ l => 2 + Item.sizes l
  | .map l => 2 + Item.sizes l
  | .half _ => 1
  | .dbl _ => 1
  | .other => 1
def Item.sizes : List Item → Nat
  | [] => 0
  | a :: l => Item.size a + Item.sizes l
end

/-- Every table that is there has at most so many rows and columns (the ten tables in the order of
`Console.title`), and every text has at most the 24 bytes there is room for (MAX_TABLE_TITLE_SIZE, src/table.h:7). -/
structure Sized (rows cols : Fin 10 → Nat) (c : Console) : Prop where
  ve : ∀ T, c.cfg.ve = some T → T.rows.num ≤ rows 0 ∧ T.cols.num ≤ cols 0
  lambda : ∀ T, c.cfg.lambda = some T → T.rows.num ≤ rows 1 ∧ T.cols.num ≤ cols 1
  dwell : ∀ T, c.cfg.dwell = some T → T.cols.num ≤ cols 2
  timing : ∀ T, c.cfg.timing = some T → T.rows.num ≤ rows 3 ∧ T.cols.num ≤ cols 3
  deadtime : ∀ T, c.cfg.deadtime = some T → T.cols.num ≤ cols 4
  pwCorrection : ∀ T, c.cfg.pwCorrection = some T → T.cols.num ≤ cols 5
  tempEnrich : ∀ T, c.cfg.tempEnrich = some T → T.rows.num ≤ rows 6 ∧ T.cols.num ≤ cols 6
  tipinAmount : ∀ T, c.cfg.tipinAmount = some T → T.rows.num ≤ rows 7 ∧ T.cols.num ≤ cols 7
  tipinDuration : ∀ T, c.cfg.tipinDuration = some T → T.cols.num ≤ cols 8
  duty : ∀ T, c.cfg.boost.duty = some T → T.cols.num ≤ cols 9
  title : ∀ k, (c.title k).utf8ByteSize ≤ maxTitle
  colName : ∀ k, (c.colName k).utf8ByteSize ≤ maxTitle
  rowName : ∀ k, (c.rowName k).utf8ByteSize ≤ maxTitle

end Verif
