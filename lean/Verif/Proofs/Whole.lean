/-
What the console writes can be encoded: every map has a value for every key.
-/
import Verif.Proofs.Reader
import Verif.Proofs.ReplySize
import Verif.Props.Request
import Verif.Model.Structure

namespace Verif

mutual
/-- Numbers of at most 64 bits, and maps with a value for every key. -/
def Item.Whole : Item → Prop
  | .int n => -2 ^ 64 ≤ n ∧ n < 2 ^ 64
  | .arr _ l => Item.WholeAll l
  | .map l => l.length % 2 = 0 ∧ Item.WholeAll l
  | _ => True
def Item.WholeAll : List Item → Prop
  | [] => True
  | x :: l => Item.Whole x ∧ Item.WholeAll l
end

theorem wholeAll_append (a b : List Item) : Item.WholeAll (a ++ b) ↔ Item.WholeAll a ∧ Item.WholeAll b := by
  induction a with
  | nil => simp [Item.WholeAll]
  | cons x a ih => simp [Item.WholeAll, ih, and_assoc]

theorem okAll_append (a b : List Wire) : Wire.OkAll (a ++ b) ↔ Wire.OkAll a ∧ Wire.OkAll b := by
  induction a with
  | nil => simp [Wire.OkAll]
  | cons x a ih => simp [Wire.OkAll, ih, and_assoc]

theorem size_pos : ∀ x : Item, 0 < x.size
  | .int n => headSize_pos _
  | .flt _ => by simp [Item.size]
  | .bool _ => by simp [Item.size]
  | .null => by simp [Item.size]
  | .text s => by rw [Item.size]; have := headSize_pos s.utf8ByteSize; omega
  | .arr _ _ => by rw [Item.size]; omega
  | .map _ => by rw [Item.size]; omega
  | .half _ => by simp [Item.size]
  | .dbl _ => by simp [Item.size]
  | .other => by simp [Item.size]

theorem length_le_sizes (l : List Item) : l.length ≤ Item.sizes l := by
  induction l with
  | nil => simp
  | cons x l ih => have := size_pos x; simp only [List.length_cons, Item.sizes]; omega

theorem wires_length (l : List Item) : (Item.wires l).length = l.length := by
  induction l with
  | nil => rfl
  | cons x l ih => simp [Item.wires, ih]

mutual
theorem whole_ok : ∀ x : Item, x.Whole → x.size < 2 ^ 64 → (Item.wire x).Ok
  | .int n, h, _ => h
  | .flt _, _, _ => trivial
  | .bool _, _, _ => trivial
  | .null, _, _ => trivial
  | .text s, _, h => by
    rw [Item.size] at h
    simp only [Item.wire, Wire.Ok]; omega
  | .arr _ l, h, hs => by
    rw [Item.size] at hs
    have := length_le_sizes l
    simp only [Item.wire, Wire.Ok, wires_length]
    exact ⟨by omega, whole_okAll l h (by omega)⟩
  | .map l, h, hs => by
    rw [Item.size] at hs
    have := length_le_sizes l
    simp only [Item.wire, Wire.Ok, wires_length]
    exact ⟨by omega, h.1, whole_okAll l h.2 (by omega)⟩
  | .half _, _, _ => trivial
  | .dbl _, _, _ => trivial
  | .other, _, _ => trivial
theorem whole_okAll : ∀ l : List Item, Item.WholeAll l → Item.sizes l < 2 ^ 64 → Wire.OkAll (Item.wires l)
  | [], _, _ => trivial
  | x :: l, h, hs => by
    rw [Item.sizes] at hs
    exact ⟨whole_ok x h.1 (by omega), whole_okAll l h.2 (by omega)⟩
end

mutual
/-- `Wire.Ok`, computed. -/
def Wire.okB : Wire → Bool
  | .num n => decide (-2 ^ 64 ≤ n) && decide (n < 2 ^ 64)
  | .text s => decide (s.utf8ByteSize < 2 ^ 64)
  | .arr _ l => decide (l.length < 2 ^ 64) && Wire.okBs l
  | .map _ l => decide (l.length < 2 ^ 64) && decide (l.length % 2 = 0) && Wire.okBs l
  | _ => true
def Wire.okBs : List Wire → Bool
  | [] => true
  | w :: ws => Wire.okB w && Wire.okBs ws
end

mutual
theorem ok_of_okB : ∀ w : Wire, w.okB = true → w.Ok
  | .num n, h => by simpa [Wire.okB, Wire.Ok] using h
  | .flt _, _ => trivial
  | .bool _, _ => trivial
  | .null, _ => trivial
  | .text s, h => by simpa [Wire.okB, Wire.Ok] using h
  | .arr _ l, h => by
    simp only [Wire.okB, Bool.and_eq_true, decide_eq_true_eq] at h
    exact ⟨h.1, okAll_of_okBs l h.2⟩
  | .map _ l, h => by
    simp only [Wire.okB, Bool.and_eq_true, decide_eq_true_eq] at h
    exact ⟨h.1.1, h.1.2, okAll_of_okBs l h.2⟩
theorem okAll_of_okBs : ∀ l : List Wire, Wire.okBs l = true → Wire.OkAll l
  | [], _ => trivial
  | w :: l, h => by
    simp only [Wire.okBs, Bool.and_eq_true] at h
    exact ⟨ok_of_okB w h.1, okAll_of_okBs l h.2⟩
end

theorem structure_ok : Wire.OkAll structureWires := okAll_of_okBs _ (by decide +kernel)

theorem structure_length : structureWires.length = 4 := rfl

/-- An unfiltered loop writes the keys and one whole item for each. -/
theorem loop_whole {σ : Type} {desc : Nat → RSt σ → Option (Bool × Option Item × RSt σ)}
    {body : Nat → Bool → Option Item → RSt σ → Except Fault (RSt σ)} {key : Nat → List Item} {m : Nat}
    (hk : ∀ i, ((key i).length + 1) % m = 0 ∧ Item.WholeAll (key i))
    (hd : ∀ i st f v st1, desc i st = some (f, v, st1) → st1.s = st.s ∧ st1.out = st.out ++ key i) :
    ∀ is st c st', (∀ i ∈ is, ∀ f v a a', body i f v a = .ok a' → ∃ x, a'.out = a.out ++ [x] ∧ x.Whole) →
      fieldLoop desc false body is false st = .ok (c, st') → st.out.length % m = 0 → Item.WholeAll st.out →
      st'.out.length % m = 0 ∧ Item.WholeAll st'.out
  | [], st, c, st', _, h, h1, h2 => by cases h; exact ⟨h1, h2⟩
  | i :: is, st, c, st', hb, h, h1, h2 => by
    have hb' := fun j hj => hb j (List.mem_cons_of_mem i hj)
    rw [fieldLoop, if_neg (by decide)] at h
    cases hdi : desc i st with
    | none => rw [hdi] at h; exact loop_whole hk hd is st c st' hb' h h1 h2
    | some t =>
      obtain ⟨f, v, st1⟩ := t
      rw [hdi] at h
      dsimp only at h
      obtain ⟨-, ho1⟩ := hd _ _ _ _ _ hdi
      cases hbi : body i f v st1 with
      | error e => rw [hbi] at h; cases h
      | ok st2 =>
        rw [hbi] at h
        obtain ⟨x, hx, hw⟩ := hb i List.mem_cons_self f v st1 st2 hbi
        refine loop_whole hk hd is st2 c st' hb' h ?_ ?_
        · rw [hx, ho1, List.length_append, List.length_append, List.length_singleton, Nat.add_assoc, Nat.add_mod, h1,
            (hk i).1]
          simp
        · rw [hx, ho1, wholeAll_append, wholeAll_append]
          exact ⟨⟨h2, (hk i).2⟩, hw, trivial⟩

variable [FloatFmt]

/-- A renderer writes one whole item. -/
theorem render_whole {σ : Type} {I : σ → Prop} (n : Node σ) (hw : WF I n) (isSet filtered : Bool) (value : Option Item)
    (st st' : RSt σ) (h : render n isSet filtered value st = .ok st') : ∃ x, st'.out = st.out ++ [x] ∧ x.Whole := by
  induction n generalizing filtered value st st' with
  | u32 l =>
    cases h
    refine ⟨_, rfl, ?_⟩
    have := (l.get (if isSet = true then setOpt l (u32Of value) st.s else st.s)).isLt
    simp only [Item.Whole]
    omega
  | flt l => cases h; exact ⟨_, rfl, trivial⟩
  | bool l => cases h; exact ⟨_, rfl, trivial⟩
  | text l => cases h; exact ⟨_, rfl, trivial⟩
  | const l => cases h; exact ⟨_, rfl, trivial⟩
  | oob => cases h
  | enum cs l =>
    cases h
    obtain ⟨-, -, -, h1, -⟩ := hw
    refine ⟨_, by rw [← enumOut_nodup h1], ?_⟩
    generalize (if isSet = true then _ else _ : Int) = cur
    unfold enumOut
    dsimp only
    split
    · trivial
    · cases List.filter (fun m => decide (m.1 = cur)) cs <;> trivial
  | deref null n ih =>
    rw [render] at h
    split at h
    · cases h
    · exact ih hw.1 _ _ _ _ h
  | map ids child post ih =>
    cases filtered with
    | true =>
      rcases map_filtered h with ⟨h1, -⟩ | ⟨i, hil, -, w, st1, h3, h4, -⟩
      · exact ⟨.null, h1, trivial⟩
      · obtain ⟨x, h7, h8⟩ := ih i (hw.1 i hil) _ _ _ _ h3
        exact ⟨x, by rw [h4, h7], h8⟩
    | false =>
      rw [render] at h
      split at h
      · cases h
      · rename_i completed st1 hl
        split at h
        · cases h
        · cases h
          refine ⟨_, rfl, ?_⟩
          obtain ⟨h1, h2⟩ := loop_whole (m := 2) (key := fun i => [.text (ids.getD i "")])
            (fun i => ⟨by simp, trivial, trivial⟩) (fun i a f v a1 hd => descend_open hd) _ _ _ _
            (fun i him f v a a' hb => ih i (hw.1 i (List.mem_range.mp him)) f v a a' hb) hl rfl trivial
          exact ⟨h1, h2⟩
  | arr resize count elem ih =>
    rw [render] at h
    split at h
    · cases h
    · rename_i completed st1 hl
      cases h
      cases filtered with
      | false =>
        refine ⟨_, rfl, ?_⟩
        exact (loop_whole (m := 1) (key := fun i => []) (fun i => ⟨rfl, trivial⟩)
          (fun i a f v a1 hd => descend_open hd) _ _ _ _ (fun i him f v a a' hb => ih i (hw.1 i) f v a a' hb) hl rfl
          trivial).2
      | true =>
        rcases loop_filtered _ _ _ _ hl with ⟨h1, h2⟩ | ⟨h1, i, him, f, w, st2, h3, h4⟩
        · subst h1 h2
          exact ⟨.null, by simp [wrap, addNull, openOut], trivial⟩
        · subst h1
          obtain ⟨h5, h6, h7⟩ := descend_hit h3
          obtain ⟨x, h8, h9⟩ := ih i (hw.1 i) _ _ _ _ h4
          subst h6
          exact ⟨x, by simp [wrap, addNull, h8, openOut], h9⟩

variable [LibM] {bits : Fl → BitVec 32}

omit [FloatFmt] [LibM] in
theorem id_whole (req : List Item) : Item.Whole (.int (requestId req)) := by
  have : -2 ^ 31 ≤ requestId req ∧ requestId req < 2 ^ 31 := by
    unfold requestId
    split
    · unfold getInt
      rename_i n _
      generalize BitVec.ofInt 32 n = m
      have h1 := BitVec.toInt_lt (x := m)
      have h2 := BitVec.le_toInt (x := m)
      exact ⟨h2, h1⟩
    · omega
  simp only [Item.Whole]
  omega

/-- The answer to a request for something else than the structure is whole. -/
theorem process_whole (rate : BitVec 32) (version : String) {struct req l : List Item} {c c' : Console} {e : Effect}
    (hs : isStructure req = false)
    (h : processRequest rate version struct req c = .ok (c', l, e)) : l.length % 2 = 0 ∧ Item.WholeAll l := by
  have hid := id_whole req
  have hhead : ∀ r : List Item, r.length % 2 = 0 ∧ Item.WholeAll r →
      ([Item.text "type", .text "response", .text "id", .int (requestId req)] ++ r).length % 2 = 0 ∧
        Item.WholeAll ([.text "type", .text "response", .text "id", .int (requestId req)] ++ r) := by
    intro r hr
    refine ⟨by simp; omega, trivial, trivial, trivial, hid, hr.2⟩
  have hone : ∀ isSet p v c1 r, request (consoleTree rate version) isSet p v c = .ok (c1, r) →
      ∃ y : Item, r = [y] ∧ y.Whole := by
    intro isSet p v c1 r hr
    unfold request at hr
    split at hr
    · cases hr
    · rename_i st hst
      cases hr
      exact render_whole _ (wf_console rate version) _ _ _ _ _ hst
  unfold processRequest at h
  dsimp only at h
  split at h
  · cases h
    rw [List.append_assoc]
    exact hhead _ ⟨rfl, trivial, trivial, trivial, trivial, trivial, trivial, trivial⟩
  split at h
  · cases h
    rw [List.append_assoc]
    exact hhead _ ⟨rfl, trivial, trivial, trivial, trivial, trivial⟩
  split at h
  · rename_i m hm _ hst
    simp only [isStructure, hm, hst] at hs
    cases hs
  split at h
  · cases h
    exact hhead _ ⟨rfl, trivial, trivial, trivial⟩
  split at h
  · cases h
    exact hhead _ ⟨rfl, trivial, trivial, trivial⟩
  split at h
  · cases h
  · rename_i c1 r hp
    cases h
    refine hhead _ ?_
    unfold pathRequest at hp
    split at hp
    · split at hp
      · split at hp
        · cases hp
        · rename_i c2 r2 hr
          cases hp
          obtain ⟨y, rfl, hy⟩ := hone _ _ _ _ _ hr
          exact ⟨by simp [reportSuccess], trivial, hy, trivial, trivial, trivial⟩
      · split at hp
        · cases hp
          exact ⟨rfl, trivial, trivial, trivial, trivial, trivial⟩
        · split at hp
          · split at hp
            · cases hp
            · rename_i c2 r2 hr
              cases hp
              obtain ⟨y, rfl, hy⟩ := hone _ _ _ _ _ hr
              exact ⟨by simp [reportSuccess], trivial, hy, trivial, trivial, trivial⟩
          · cases hp
            exact ⟨rfl, trivial⟩
    · cases hp
      exact ⟨rfl, trivial, trivial, trivial, trivial, trivial⟩

/-- The answer, as it is encoded. -/
theorem answer_ok (rate : BitVec 32) (version : String) {req l : List Item} {c c' : Console} {e : Effect}
    (h : processRequest rate version (Wire.items structureWires) req c = .ok (c', l, e))
    (hsize : (Wire.bytes bits (.map false (answerWires req l))).length ≤ txCapacity) :
    (Wire.map false (answerWires req l)).Ok := by
  cases hs : isStructure req with
  | true =>
    have hw : answerWires req l = Item.wires [.text "type", .text "response", .text "id", .int (requestId req)] ++
        structureWires ++ Item.wires (reportSuccess true) := by
      rw [answerWires, if_pos hs]
    rw [hw]
    refine ⟨by simp [wires_length, structure_length, reportSuccess], by
      simp [wires_length, structure_length, reportSuccess], ?_⟩
    rw [okAll_append, okAll_append]
    exact ⟨⟨⟨ok_of_okB _ (by decide), ok_of_okB _ (by decide), ok_of_okB _ (by decide), id_whole req, trivial⟩,
      structure_ok⟩, ok_of_okB _ (by decide), trivial, trivial⟩
  | false =>
    have hw : answerWires req l = Item.wires l := by
      rw [answerWires, if_neg (by simp [hs])]
    rw [hw] at hsize ⊢
    obtain ⟨h1, h2⟩ := process_whole rate version hs h
    rw [answer_size] at hsize
    have h3 : Item.sizes l < 2 ^ 64 := by simp only [txCapacity] at hsize; omega
    have := length_le_sizes l
    refine ⟨?_, ?_, whole_okAll l h2 h3⟩
    · rw [wires_length]; omega
    · rw [wires_length]; exact h1

end Verif
