/-
That the structure answer describes the configuration, renderer by renderer.
-/
import Verif.Model.Structure
import Verif.Spec.Describes
import Verif.Proofs.Request

namespace Verif

section
variable {σ : Type} {I : σ → Prop} {types : List Item}

/-- Whatever the renderer shows is of the form described. -/
def Fit (types : List Item) (I : σ → Prop) (w : Wire) (n : Node σ) : Prop :=
  ∀ s x, I s → dump n s = .ok x → Describes types w.item x

theorem collect_parts {key : Nat → List Item} {f : Nat → Except Fault Item} {is : List Nat} {l : List Item}
    (h : collect key f is = .ok l) :
    ∃ g : Nat → Item, (∀ i ∈ is, f i = .ok (g i)) ∧ l = is.flatMap fun i => key i ++ [g i] := by
  refine ⟨fun i => match f i with | .ok x => x | .error _ => .null, ?_⟩
  induction is generalizing l with
  | nil => cases h; simp
  | cons i is ih =>
    unfold collect at h
    split at h
    · cases h
    · rename_i d hd
      split at h
      · cases h
      · rename_i l' hl'
        cases h
        obtain ⟨h1, h2⟩ := ih hl'
        refine ⟨fun j hj => ?_, by simp [hd, h2]⟩
        rcases List.mem_cons.mp hj with rfl | hj
        · simp only [hd]
        · exact h1 j hj

theorem flatMap_one (g : Nat → Item) (l : List Nat) : (l.flatMap fun i => ([] : List Item) ++ [g i]) = l.map g := by
  induction l with
  | nil => rfl
  | cons a l ih => simp [List.flatMap_cons, ← ih]

theorem items_flatMap (l : List (String × Wire)) :
    Wire.items (l.flatMap fun x => [.text x.1, x.2]) = l.flatMap fun x => [.text x.1, x.2.item] := by
  induction l with
  | nil => rfl
  | cons a l ih => simp [Wire.items, Wire.item, ih]

theorem items_map (l : List Wire) : Wire.items l = l.map Wire.item := by
  induction l with
  | nil => rfl
  | cons a l ih => simp [Wire.items, ih]

theorem fit_map {ids : List String} {child : Nat → Node σ} {post : σ → Except Fault σ} (dl : List (String × Wire))
    (hn : dl.map Prod.fst = ids) (hk : "_type" ∉ ids)
    (h : ∀ i, i < dl.length → Fit types I (dl.getD i ("", .null)).2 (child i)) :
    Fit types I (descFields dl) (.map ids child post) := by
  intro s x hs hx
  unfold dump at hx
  split at hx
  · cases hx
  · rename_i l hl
    cases hx
    obtain ⟨g, h1, rfl⟩ := collect_parts hl
    have hlen : ids.length = dl.length := by rw [← hn, List.length_map]
    have e1 : (descFields dl).item = .map (((List.range ids.length).map fun i =>
        (ids.getD i "", (dl.getD i ("", .null)).2.item, g i)).flatMap fun e => [.text e.1, e.2.1]) := by
      unfold descFields
      rw [Wire.item, items_flatMap, List.flatMap_map]
      congr 1
      rw [hlen]
      conv => lhs; rw [show dl = (List.range dl.length).map fun i => dl.getD i ("", .null) from by
        apply List.ext_getElem
        · simp
        · intro i h1 h2
          simp [List.getD, List.getElem?_eq_getElem h1]]
      rw [List.flatMap_map]
      congr 1
      funext i
      have : ids.getD i "" = (dl.getD i ("", .null)).1 := by
        simp only [← hn, List.getD, List.getElem?_map]
        cases dl[i]? <;> rfl
      rw [this]
    have e2 : ((List.range ids.length).flatMap fun i => [Item.text (ids.getD i "")] ++ [g i]) =
        ((List.range ids.length).map fun i =>
        (ids.getD i "", (dl.getD i ("", .null)).2.item, g i)).flatMap fun e => [.text e.1, e.2.2] := by
      rw [List.flatMap_map]
      rfl
    rw [e1, e2]
    refine .fields ?_ ?_
    · intro e he
      obtain ⟨i, hi, rfl⟩ := List.mem_map.mp he
      have hi := List.mem_range.mp hi
      simp only [List.getD, List.getElem?_eq_getElem hi, Option.getD_some]
      exact fun hc => hk (hc ▸ List.getElem_mem hi)
    · intro e he
      obtain ⟨i, hi, rfl⟩ := List.mem_map.mp he
      have hi' := List.mem_range.mp hi
      exact h i (hlen ▸ hi') s _ hs (h1 i hi)

theorem fit_fields {nl : List (String × Node σ)} {post : σ → Except Fault σ} {dl : List (String × Wire)}
    (h : List.Forall₂ (fun (a : String × Wire) (b : String × Node σ) => a.1 = b.1 ∧ Fit types I a.2 b.2) dl nl)
    (hk : "_type" ∉ nl.map Prod.fst) : Fit types I (descFields dl) (.fields nl post) := by
  refine fit_map dl ?_ hk ?_
  · induction h with
    | nil => rfl
    | cons h _ ih =>
      simp only [List.map_cons, List.mem_cons, not_or] at hk ⊢
      rw [h.1, ih hk.2]
  · clear hk
    induction h with
    | nil => intro i hi; cases hi
    | cons h _ ih =>
      intro i hi
      cases i with
      | zero => exact h.2
      | succ i => exact ih i (Nat.lt_of_succ_lt_succ hi)

theorem fit_arr {resize : Option (Lens σ Nat)} {n : Nat} {elem : Nat → Node σ} {w : Wire} {b : Bool}
    (h : ∀ i, i < n → Fit types I w (elem i)) :
    Fit types I (.arr b (List.replicate n w)) (.arr resize (fun _ => n) elem) := by
  intro s x hs hx
  unfold dump at hx
  split at hx
  · cases hx
  · rename_i l hl
    cases hx
    obtain ⟨g, h1, rfl⟩ := collect_parts hl
    have e1 : (Wire.arr b (List.replicate n w)).item =
        .arr b (((List.range n).map fun i => (w.item, g i)).map fun e => e.1) := by
      rw [Wire.item, items_map]
      congr 1
      apply List.ext_getElem <;> simp
    have e2 : ((List.range n).flatMap fun i => ([] : List Item) ++ [g i]) =
        ((List.range n).map fun i => (w.item, g i)).map fun e => e.2 := by
      rw [flatMap_one, List.map_map]
      rfl
    rw [e1, e2]
    refine .array ?_
    intro e he
    obtain ⟨i, hi, rfl⟩ := List.mem_map.mp he
    exact h i (List.mem_range.mp hi) s _ hs (h1 i hi)

theorem fit_fixed {n : Nat} {elem : Fin n → Node σ} {w : Wire} (h : ∀ i, Fit types I w (elem i)) :
    Fit types I (.arr false (List.replicate n w)) (fixedArr n elem) := by
  refine fit_arr fun i hi => ?_
  rw [dif_pos hi]
  exact h _

theorem fit_u32 {l : Lens σ (BitVec 32)} {d : String} : Fit types I (descU32 d) (.u32 l) := by
  intro s x _ hx
  cases hx
  exact .uint32 rfl (by omega) (by have := (l.get s).isLt; omega)

theorem fit_flt {l : Lens σ Fl} {d : String} : Fit types I (descFloat d) (.flt l) := by
  intro s x _ hx
  cases hx
  exact .float rfl

theorem fit_bool {l : Lens σ Bool} {d : String} : Fit types I (descBool d) (.bool l) := by
  intro s x _ hx
  cases hx
  exact .bool rfl

theorem fit_text {l : Lens σ String} {d : String} : Fit types I (descLeaf "string" d) (.text l) := by
  intro s x _ hx
  cases hx
  exact .string rfl rfl

theorem fit_const {t d : String} : Fit types I (descLeaf "string" d) (.const t : Node σ) := by
  intro s x _ hx
  cases hx
  exact .string rfl rfl

theorem fit_enum {choices : List (Int × String)} {l : Lens σ Int} {d : String}
    (h : ∀ s, ∃ t, (l.get s, t) ∈ choices) :
    Fit types I (descEnum d (choices.map Prod.snd)) (.enum choices l) := by
  intro s x _ hx
  obtain ⟨t, ht⟩ := h s
  have : ∃ t', x = .text t' ∧ t' ∈ choices.map Prod.snd := by
    have hx : .ok ((enumOut choices (l.get s)).headD .null) = Except.ok x := hx
    cases hx
    unfold enumOut
    have hm : (l.get s, t) ∈ choices.filter fun m => m.1 = l.get s := by simp [ht]
    generalize hf : (choices.filter fun m => m.1 = l.get s) = fs at hm
    cases fs with
    | nil => cases hm
    | cons a fs =>
      refine ⟨a.2, by simp, ?_⟩
      have : a ∈ choices := List.mem_of_mem_filter (hf ▸ List.mem_cons_self)
      exact List.mem_map_of_mem this
  obtain ⟨t', rfl, ht'⟩ := this
  refine .choice (b := false) (l := (choices.map Prod.snd).map .text) rfl ?_ (List.mem_map_of_mem ht')
  show some (Item.arr false (Wire.items _)) = _
  rw [items_map, List.map_map]
  rfl

theorem fit_deref {null : σ → Bool} {n : Node σ} {w : Wire} (h : Fit types I w n) :
    Fit types I w (.deref null n) := by
  intro s x hs hx
  unfold dump at hx
  split at hx
  · cases hx
  · exact h s x hs hx

theorem fit_named {n : Node σ} {w : Wire} {t : String} (ht : lookupKey t types = some w.item) (h : Fit types I w n) :
    Fit types I (.map false (typeField t)) n :=
  fun s x hs hx => .named (t := t) rfl ht (h s x hs hx)

/-- A list of floats. -/
theorem floats_dump {count : σ → Nat} {f : Nat → Node σ} {s : σ} {x : Item} {resize : Option (Lens σ Nat)}
    (hf : ∀ i y, dump (f i) s = .ok y → ∃ v, y = .flt v) (hx : dump (.arr resize count f) s = .ok x) :
    ∃ l : List Fl, x = .arr false (l.map .flt) ∧ l.length = count s := by
  unfold dump at hx
  split at hx
  · cases hx
  · rename_i l hl
    cases hx
    obtain ⟨g, h1, rfl⟩ := collect_parts hl
    refine ⟨(List.range (count s)).map fun i => match g i with | .flt v => v | _ => .nan, ?_, by simp⟩
    congr 1
    rw [flatMap_one, List.map_map]
    refine List.map_congr_left fun i hi => ?_
    obtain ⟨v, hv⟩ := hf i _ (h1 i hi)
    simp [hv]

theorem fit_floats {resize : Option (Lens σ Nat)} {count : σ → Nat} {f : Nat → Node σ} {d : String}
    (hc : ∀ s, I s → count s ≤ maxAxis) (hf : ∀ i s y, dump (f i) s = .ok y → ∃ v, y = .flt v) :
    Fit types I (descList "[float]" d) (.arr resize count f) := by
  intro s x hs hx
  obtain ⟨l, rfl, hl⟩ := floats_dump (fun i => hf i s) hx
  refine .floats (n := maxAxis) rfl rfl ?_
  have := hc s hs
  omega

theorem fit_lists {rows cols : σ → Nat} {f : Nat → Nat → Node σ} {d : String}
    (hr : ∀ s, I s → rows s ≤ maxAxis) (hc : ∀ s, I s → cols s ≤ maxAxis)
    (hf : ∀ r i s y, dump (f r i) s = .ok y → ∃ v, y = .flt v) :
    Fit types I (descList "[[float]]" d) (.arr none rows fun r => .arr none cols (f r)) := by
  intro s x hs hx
  unfold dump at hx
  split at hx
  · cases hx
  · rename_i l hl
    cases hx
    obtain ⟨g, h1, rfl⟩ := collect_parts hl
    have h2 : ∀ i ∈ List.range (rows s), ∃ l : List Fl, g i = .arr false (l.map .flt) ∧ l.length = cols s :=
      fun i hi => floats_dump (fun j => hf i j s) (h1 i hi)
    choose! L hL using h2
    have : ((List.range (rows s)).flatMap fun i => ([] : List Item) ++ [g i]) =
        ((List.range (rows s)).map L).map fun r => .arr false (r.map .flt) := by
      rw [flatMap_one, List.map_map]
      exact List.map_congr_left fun i hi => (hL i hi).1
    rw [this]
    have h3 := hr s hs
    have h4 := hc s hs
    refine .lists (n := maxAxis) (m := cols s) rfl rfl (by simp; omega) (by omega) ?_
    intro r hr
    obtain ⟨i, hi, rfl⟩ := List.mem_map.mp hr
    exact (hL i hi).2

end
end Verif
