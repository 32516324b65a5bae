/-
Sending back to the console what it answered (C83).
-/
import Verif.Spec.Request

namespace Verif

mutual
/-- The same item with every list sent with its length.  (The console answers with lists of unknown length.) -/
def Item.sized : Item → Item
  | .arr _ l => .arr true (Item.sizedAll l)
  | .map l => .map (Item.sizedAll l)
  | x => x
def Item.sizedAll : List Item → List Item
  | [] => []
  | x :: l => x.sized :: Item.sizedAll l
end

mutual
/-- No integer in the item is 2^31 or more. -/
def Item.Small : Item → Prop
  | .int n => n < 2 ^ 31
  | .arr _ l => Item.SmallAll l
  | .map l => Item.SmallAll l
  | _ => True
def Item.SmallAll : List Item → Prop
  | [] => True
  | x :: l => x.Small ∧ Item.SmallAll l
end

/-- A text that fits the 25 bytes of a title with its terminating zero. -/
def IsTitle (t : String) : Prop := t.utf8ByteSize ≤ 24 ∧ '\x00' ∉ t.toList

/-- The titles and axis names of the configuration are C strings in their buffers. -/
def Titled (c : Console) : Prop := ∀ k, IsTitle (c.title k) ∧ IsTitle (c.colName k) ∧ IsTitle (c.rowName k)

/-- A path to a part that is sent back as a whole: not to the data of a table, whose size is that of the
axes, and not to one of the values of an axis. -/
def PartPath (p : List Item) : Prop := .text "data" ∉ p ∧ ∀ q r, p = q ++ .text "values" :: r → r = []

/-- A path that leads into a table. -/
def InTable (p : List Item) : Prop :=
  (∃ n r, p = .text "tables" :: n :: r) ∨ ∃ r, p = .text "boost-control" :: .text "pwm" :: r

/-- The frequencies of the knock sensors are such that the filters can be set up. -/
def KnockReady [FloatFmt] [LibM] (rate : BitVec 32) (c : Console) : Prop :=
  ∀ i, ∃ k, knockConfigure rate (c.cfg.knock i) = .ok k

end Verif
