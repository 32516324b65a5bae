/-
The encoder on a buffer: it stores the encoding if that fits, and else reports so.
-/
import Verif.Spec.Wire

namespace Verif

/-- From `e`, the bytes `bs` have been stored, or there was no room. -/
def Stores (e : Enc) (bs : List Byte) (e' : Enc) : Prop :=
  (e.over = true → e' = e) ∧
  (e.over = false → e.buf.length ≤ txCapacity → (e.buf.length + bs.length ≤ txCapacity → e' = ⟨e.buf ++ bs, false⟩) ∧
    (txCapacity < e.buf.length + bs.length → e'.over = true))

theorem stores_put (e : Enc) (bs : List Byte) : Stores e bs (e.put bs) := by
  refine ⟨fun h => by simp [Enc.put, h], fun h _ => ⟨fun h1 => ?_, fun h1 => ?_⟩⟩
  · cases e; simp_all [Enc.put]
  · simp [Enc.put, h, Nat.not_le.mpr h1]

theorem Stores.trans {e e1 e2 : Enc} {a b : List Byte} (h : Stores e a e1) (h' : Stores e1 b e2) :
    Stores e (a ++ b) e2 := by
  refine ⟨fun ho => ?_, fun ho hc => ⟨fun hl => ?_, fun hl => ?_⟩⟩
  · rw [h'.1 (by rw [h.1 ho, ho]), h.1 ho]
  · rw [List.length_append] at hl
    have h1 := (h.2 ho hc).1 (by omega)
    subst h1
    have h2 := (h'.2 rfl (by simp only [List.length_append]; omega)).1 (by simp only [List.length_append]; omega)
    rw [h2, List.append_assoc]
  · rw [List.length_append] at hl
    by_cases h1 : e.buf.length + a.length ≤ txCapacity
    · have h2 := (h.2 ho hc).1 h1
      subst h2
      exact (h'.2 rfl (by simp only [List.length_append]; omega)).2 (by simp only [List.length_append]; omega)
    · have h2 := (h.2 ho hc).2 (by omega)
      rw [h'.1 h2, h2]

theorem stores_nil (e : Enc) : Stores e [] e := by
  refine ⟨fun _ => rfl, fun h hc => ⟨fun _ => ?_, fun h1 => ?_⟩⟩
  · cases e; simp_all
  · simp only [List.length_nil] at h1; omega

mutual
theorem stores_wire (bits : Fl → BitVec 32) : ∀ (w : Wire) (e : Enc), Stores e (w.bytes bits) (Enc.wire bits w e)
  | .num _, e => stores_put e _
  | .flt _, e => stores_put e _
  | .bool _, e => stores_put e _
  | .null, e => stores_put e _
  | .text _, e => (stores_put e _).trans (stores_put _ _)
  | .arr _ l, e => ((stores_put e _).trans (stores_wires bits l _)).trans (stores_put _ _)
  | .map _ l, e => ((stores_put e _).trans (stores_wires bits l _)).trans (stores_put _ _)
theorem stores_wires (bits : Fl → BitVec 32) :
    ∀ (ws : List Wire) (e : Enc), Stores e (Wire.bytesAll bits ws) (Enc.wires bits ws e)
  | [], e => stores_nil e
  | w :: ws, e => (stores_wire bits w e).trans (stores_wires bits ws _)
end

/-- The answer is written if and only if it fits, and then it is the whole answer. -/
theorem sendReply_eq (bits : Fl → BitVec 32) (l : List Wire) :
    sendReply bits l =
      if (Wire.bytes bits (.map false l)).length ≤ txCapacity then some (Wire.bytes bits (.map false l)) else none := by
  have h := (stores_wire bits (.map false l) Enc.init).2 rfl (by decide)
  unfold sendReply
  generalize Enc.wire bits (.map false l) Enc.init = e at h ⊢
  have h0 : Enc.init.buf = [] := rfl
  rw [h0, List.nil_append, List.length_nil, Nat.zero_add] at h
  split
  · rename_i hl
    rw [h.1 hl]
    rfl
  · rename_i hl
    simp [h.2 (by omega)]

/-- A message is sent whole if it fits. -/
theorem sendMessage_eq (bits : Fl → BitVec 32) {w : Wire} (hw : (w.bytes bits).length ≤ txCapacity) :
    sendMessage bits w = .ok (w.bytes bits) := by
  have h := (stores_wire bits w Enc.init).2 rfl (by decide)
  unfold sendMessage
  generalize Enc.wire bits w Enc.init = e at h ⊢
  have h0 : Enc.init.buf = [] := rfl
  rw [h0, List.nil_append, List.length_nil, Nat.zero_add] at h
  rw [h.1 hw]
  rfl

/-! ### Sizes -/

theorem beBytes_length (k n : Nat) : (beBytes k n).length = k := by
  induction k generalizing n with
  | zero => rfl
  | succ k ih => simp [beBytes, ih]

theorem headBytes_length (major n : Nat) : (headBytes major n).length = headSize n := by
  unfold headBytes headSize
  repeat' split
  all_goals simp [beBytes_length]

theorem utf8Bytes_length (s : String) : (utf8Bytes s).length = s.utf8ByteSize := by
  simp [utf8Bytes]

theorem intBytes_length (n : Int) :
    (intBytes n).length = headSize (if 0 ≤ n then n.toNat else (-1 - n).toNat) := by
  unfold intBytes
  split <;> exact headBytes_length _ _

mutual
theorem item_size (bits : Fl → BitVec 32) : ∀ x : Item, ((Item.wire x).bytes bits).length = x.size
  | .int n => intBytes_length n
  | .flt _ => by simp [Item.wire, Wire.bytes, Item.size, beBytes_length]
  | .bool _ => rfl
  | .null => rfl
  | .text s => by simp [Item.wire, Wire.bytes, Item.size, headBytes_length, utf8Bytes_length]
  | .arr _ l => by
    simp only [Item.wire, Wire.bytes, Item.size, List.length_append, item_sizes bits l]
    simp [openBytes, closeBytes]; omega
  | .map l => by
    simp only [Item.wire, Wire.bytes, Item.size, List.length_append, item_sizes bits l]
    simp [openBytes, closeBytes]; omega
  | .half _ => rfl
  | .dbl _ => rfl
  | .other => rfl
theorem item_sizes (bits : Fl → BitVec 32) : ∀ l : List Item, (Wire.bytesAll bits (Item.wires l)).length = Item.sizes l
  | [] => rfl
  | a :: l => by simp [Item.wires, Wire.bytesAll, Item.sizes, item_size bits a, item_sizes bits l]
end

theorem sizes_append (a b : List Item) : Item.sizes (a ++ b) = Item.sizes a + Item.sizes b := by
  induction a with
  | nil => simp [Item.sizes]
  | cons x a ih => simp [Item.sizes, ih]; omega

theorem answer_size (bits : Fl → BitVec 32) (l : List Item) :
    (Wire.bytes bits (.map false (Item.wires l))).length = 2 + Item.sizes l := by
  simp only [Wire.bytes, List.length_append, item_sizes]
  simp [openBytes, closeBytes]; omega

mutual
/-- Bytes of the encoding. -/
def Wire.size : Wire → Nat
  | .num n => headSize (if 0 ≤ n then n.toNat else (-1 - n).toNat)
  | .flt _ => 5
  | .bool _ => 1
  | .null => 1
  | .text s => headSize s.utf8ByteSize + s.utf8ByteSize
  | .arr d l => (if d then headSize l.length else 2) + Wire.sizes l
  | .map d l => (if d then headSize (l.length / 2) else 2) + Wire.sizes l
def Wire.sizes : List Wire → Nat
  | [] => 0
  | a :: l => Wire.size a + Wire.sizes l
end

mutual
theorem wire_size (bits : Fl → BitVec 32) : ∀ w : Wire, (w.bytes bits).length = w.size
  | .num n => intBytes_length n
  | .flt _ => by simp [Wire.bytes, Wire.size, beBytes_length]
  | .bool _ => rfl
  | .null => rfl
  | .text s => by simp [Wire.bytes, Wire.size, headBytes_length, utf8Bytes_length]
  | .arr d l => by
    cases d <;> simp [Wire.bytes, Wire.size, wire_sizes bits l, openBytes, closeBytes, headBytes_length] <;> omega
  | .map d l => by
    cases d <;> simp [Wire.bytes, Wire.size, wire_sizes bits l, openBytes, closeBytes, headBytes_length] <;> omega
theorem wire_sizes (bits : Fl → BitVec 32) : ∀ l : List Wire, (Wire.bytesAll bits l).length = Wire.sizes l
  | [] => rfl
  | a :: l => by simp [Wire.bytesAll, Wire.sizes, wire_size bits a, wire_sizes bits l]
end

theorem wire_sizes_append (a b : List Wire) : Wire.sizes (a ++ b) = Wire.sizes a + Wire.sizes b := by
  induction a with
  | nil => simp [Wire.sizes]
  | cons x a ih => simp [Wire.sizes, ih]; omega

theorem wires_size (l : List Item) : Wire.sizes (Item.wires l) = Item.sizes l := by
  rw [← wire_sizes fun _ => 0, item_sizes]

theorem structure_size : Wire.sizes structureWires = 6347 := by decide +kernel

end Verif
