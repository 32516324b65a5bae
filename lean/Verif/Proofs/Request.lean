/-
Proofs about the console's render helpers, for any tree of fields.
-/
import Mathlib.Logic.Relation
import Verif.Spec.Request

namespace Verif

section
variable {σ : Type}

/-! ### The dump -/

/-- The items of a container, from those of its parts. -/
def collect (key : Nat → List Item) (f : Nat → Except Fault Item) : List Nat → Except Fault (List Item)
  | [] => .ok []
  | i :: is =>
    match f i with
    | .error e => .error e
    | .ok d =>
      match collect key f is with
      | .error e => .error e
      | .ok l => .ok (key i ++ d :: l)

/-- What a get without a path answers. -/
def dump : Node σ → σ → Except Fault Item
  | .u32 l, s => .ok (.int (l.get s).toNat)
  | .flt l, s => .ok (.flt (l.get s))
  | .bool l, s => .ok (.bool (l.get s))
  | .enum choices l, s => .ok ((enumOut choices (l.get s)).headD .null)
  | .text l, s => .ok (.text (l.get s))
  | .const t, _ => .ok (.text t)
  | .map ids child _, s =>
    match collect (fun i => [.text (ids.getD i "")]) (fun i => dump (child i) s) (List.range ids.length) with
    | .error e => .error e
    | .ok l => .ok (.map l)
  | .arr _ count elem, s =>
    match collect (fun _ => []) (fun i => dump (elem i) s) (List.range (count s)) with
    | .error e => .error e
    | .ok l => .ok (.arr false l)
  | .deref null n, s => if null s then .error .nullDeref else dump n s
  | .oob, _ => .error .oob

/-- What the leaf at a path is changed by. -/
inductive Writes : Node σ → σ → σ → Prop
  | u32 (l : Lens σ (BitVec 32)) (s : σ) (v) : Writes (.u32 l) s (l.set v s)
  | flt (l : Lens σ Fl) (s : σ) (v) : Writes (.flt l) s (l.set v s)
  | bool (l : Lens σ Bool) (s : σ) (v) : Writes (.bool l) s (l.set v s)
  | enum (c) (l : Lens σ Int) (s : σ) (v) : Writes (.enum c l) s (l.set v s)
  | text (l : Lens σ String) (s : σ) (v) : Writes (.text l) s (l.set v s)
  | map {ids : List String} {child : Nat → Node σ} {post} {s s' : σ} (i : Nat) (hi : i < ids.length)
      (h : Writes (child i) s s') : Writes (.map ids child post) s s'
  | post {ids : List String} {child : Nat → Node σ} {post} {s s' : σ} (h : post s = .ok s') :
      Writes (.map ids child post) s s'
  | arr {resize count} {elem : Nat → Node σ} {s s' : σ} (i : Nat) (h : Writes (elem i) s s') :
      Writes (.arr resize count elem) s s'
  | deref {null} {n : Node σ} {s s' : σ} (h : Writes n s s') : Writes (.deref null n) s s'

/-- Writing under `n` does not change what is shown under `m`. -/
def Indep (I : σ → Prop) (n m : Node σ) : Prop :=
  ∀ s s', I s → Writes n s s' → dump m s' = dump m s

/-- A tree whose fields are separate pieces of memory: what is stored is read back, and writing one
field does not change another.  `I` is an invariant of the memory. -/
def WF (I : σ → Prop) : Node σ → Prop
  | .u32 l => ∀ s v, I s → l.get (l.set v s) = v ∧ I (l.set v s)
  | .flt l => ∀ s v, I s → l.get (l.set v s) = v ∧ I (l.set v s)
  | .bool l => ∀ s v, I s → l.get (l.set v s) = v ∧ I (l.set v s)
  | .enum choices l => (∀ s v, I s → I (l.set v s)) ∧ (∀ s, l.set (l.get s) s = s) ∧
      (∀ s m, I s → m ∈ choices → l.get (l.set m.1 s) = m.1) ∧
      (choices.map Prod.fst).Nodup ∧ (choices.map Prod.snd).Nodup
  | .text l => ∀ s v, I s → l.get (l.set v s) = v ∧ I (l.set v s)
  | .const _ => True
  | .map ids child post => (∀ i < ids.length, WF I (child i)) ∧
      (∀ i < ids.length, ∀ j < ids.length, i ≠ j → Indep I (child i) (child j)) ∧
      (∀ s s', I s → post s = .ok s' → I s' ∧ ∀ i < ids.length, dump (child i) s' = dump (child i) s)
  | .arr _ count elem => (∀ i, WF I (elem i)) ∧ (∀ i j, i ≠ j → Indep I (elem i) (elem j)) ∧
      (∀ s, I s → count s ≤ 2 ^ 31) ∧
      (∀ s s' i, I s → Writes (elem i) s s' → count s' = count s)
  | .deref null n => WF I n ∧ ∀ s s', I s → Writes n s s' → null s' = null s
  | .oob => True

/-- The node a path addresses, not looking past a leaf. -/
def Node.at : Node σ → List Item → σ → Option (Node σ)
  | .map ids child post, p, s =>
    match p with
    | [] => some (.map ids child post)
    | k :: r =>
      match (List.range ids.length).find? fun i => pathMatchStr (k :: r) (ids.getD i "") with
      | none => none
      | some i => (child i).at r s
  | .arr resize count elem, p, s =>
    match p with
    | [] => some (.arr resize count elem)
    | k :: r =>
      match (List.range (count s)).find? fun i => pathMatchInt (k :: r) i with
      | none => none
      | some i => (elem i).at r s
  | .deref _ n, p, s => n.at p s
  | n, p, _ => if p.isEmpty then some n else none

/-! ### Lists -/

theorem collect_append (key f) (a b : List Nat) (l : List Item) (h : collect key f (a ++ b) = .ok l) :
    ∃ la lb, collect key f a = .ok la ∧ collect key f b = .ok lb ∧ l = la ++ lb := by
  induction a generalizing l with
  | nil => exact ⟨[], l, rfl, h, rfl⟩
  | cons i is ih =>
    simp only [List.cons_append, collect] at h ⊢
    cases hd : f i with
    | error e => rw [hd] at h; cases h
    | ok d =>
      rw [hd] at h
      dsimp only at h ⊢
      cases hc : collect key f (is ++ b) with
      | error e => rw [hc] at h; cases h
      | ok l' =>
        rw [hc] at h
        obtain ⟨la, lb, h1, h2, h3⟩ := ih l' hc
        refine ⟨key i ++ d :: la, lb, ?_, h2, ?_⟩
        · rw [h1]
        · cases h; rw [h3]; simp

theorem collect_mem {key f} {is : List Nat} {l : List Item} (h : collect key f is = .ok l) :
    ∀ i ∈ is, ∃ d, f i = .ok d := by
  induction is generalizing l with
  | nil => simp
  | cons i is ih =>
    simp only [collect] at h
    cases hd : f i with
    | error e => rw [hd] at h; cases h
    | ok d =>
      rw [hd] at h
      dsimp only at h
      cases hc : collect key f is with
      | error e => rw [hc] at h; cases h
      | ok l' =>
        intro j hj
        rcases List.mem_cons.mp hj with rfl | hj
        · exact ⟨d, hd⟩
        · exact ih hc j hj

theorem collect_congr {key f g} {is : List Nat} (h : ∀ i ∈ is, f i = g i) :
    collect key f is = collect key g is := by
  induction is with
  | nil => rfl
  | cons i is ih =>
    simp only [collect]
    rw [h i (by simp), ih fun j hj => h j (by simp [hj])]

/-- A list without keys: the entry at each index. -/
theorem collect_get {f} {n : Nat} {l : List Item} (h : collect (fun _ => []) f (List.range n) = .ok l) :
    l.length = n ∧ ∀ i < n, ∃ d, f i = .ok d ∧ l[i]? = some d := by
  induction n generalizing l with
  | zero => simp [collect] at h; subst h; simp
  | succ n ih =>
    rw [List.range_succ] at h
    obtain ⟨la, lb, h1, h2, rfl⟩ := collect_append _ _ _ _ _ h
    obtain ⟨h3, h4⟩ := ih h1
    simp only [collect] at h2
    cases hd : f n with
    | error e => rw [hd] at h2; cases h2
    | ok d =>
      rw [hd] at h2
      cases h2
      refine ⟨by simp [h3], fun i hi => ?_⟩
      rcases Nat.lt_succ_iff_lt_or_eq.mp hi with hi | rfl
      · obtain ⟨d', h5, h6⟩ := h4 i hi
        exact ⟨d', h5, by rw [List.getElem?_append_left (by omega)]; exact h6⟩
      · exact ⟨d, hd, by rw [List.getElem?_append_right (by omega)]; simp [h3]⟩

/-- A map: the value of a key is that of the first field with this name. -/
theorem collect_lookup {f} {ids : Nat → String} {t : String} {is : List Nat} {l : List Item}
    (h : collect (fun i => [.text (ids i)]) f is = .ok l) :
    match is.find? fun i => decide (ids i = t) with
    | none => lookupKey t l = none
    | some i => ∃ d, f i = .ok d ∧ lookupKey t l = some d := by
  induction is generalizing l with
  | nil => simp [collect] at h; subst h; rfl
  | cons i is ih =>
    simp only [collect] at h
    cases hd : f i with
    | error e => rw [hd] at h; cases h
    | ok d =>
      rw [hd] at h
      dsimp only at h
      cases hc : collect (fun i => [.text (ids i)]) f is with
      | error e => rw [hc] at h; cases h
      | ok l' =>
        rw [hc] at h
        cases h
        rw [List.find?_cons]
        by_cases he : ids i = t
        · simp only [he, decide_true]
          exact ⟨d, hd, by simp [lookupKey]⟩
        · simp only [he, decide_false]
          have := ih hc
          have h2 : lookupKey t ([Item.text (ids i)] ++ d :: l') = lookupKey t l' := by
            simp [lookupKey, he]
          rw [h2]
          exact this

/-! ### The loop over the fields -/

theorem fieldLoop_completed (desc : Nat → RSt σ → Option (Bool × Option Item × RSt σ)) (f body is st) :
    fieldLoop desc f body is true st = .ok (true, st) := by
  induction is with
  | nil => rfl
  | cons i is ih => rw [fieldLoop]; simpa using ih

/-- With a path, only the first field that matches is rendered. -/
theorem fieldLoop_filtered (desc : Nat → RSt σ → Option (Bool × Option Item × RSt σ)) (body is) (st : RSt σ)
    (hit : Nat → Bool) (x : Bool × Option Item × RSt σ)
    (hd : ∀ i, desc i st = if hit i then some x else none) :
    fieldLoop desc true body is false st =
      match is.find? hit with
      | none => .ok (false, st)
      | some i =>
        match body i x.1 x.2.1 x.2.2 with
        | .error e => .error e
        | .ok st' => .ok (true, st') := by
  induction is with
  | nil => rfl
  | cons i is ih =>
    rw [fieldLoop, hd i, List.find?_cons]
    simp only [Bool.false_eq_true, if_false]
    cases hh : hit i with
    | false => simpa using ih
    | true =>
      obtain ⟨f, v, st'⟩ := x
      simp only [if_true]
      cases body i f v st' with
      | error e => rfl
      | ok st'' => exact fieldLoop_completed _ _ _ _ _

/-- Where nothing descends, nothing happens. -/
theorem fieldLoop_none (desc : Nat → RSt σ → Option (Bool × Option Item × RSt σ)) (f body is) (st : RSt σ)
    (hd : ∀ i, desc i st = none) : fieldLoop desc f body is false st = .ok (false, st) := by
  induction is with
  | nil => rfl
  | cons i is ih => rw [fieldLoop, hd i]; simpa using ih

/-- A get without a path renders the fields one after the other. -/
theorem fieldLoop_get (desc : Nat → RSt σ → Option (Bool × Option Item × RSt σ)) (body) (key : Nat → List Item)
    (v : Option Item) (g : Nat → Except Fault Item) (is : List Nat) (st : RSt σ)
    (hd : ∀ i st, desc i st = some (false, v, { st with out := st.out ++ key i }))
    (hb : ∀ i ∈ is, ∀ st', st'.s = st.s → body i false v st' = match g i with
      | .error e => .error e
      | .ok d => .ok { st' with out := st'.out ++ [d] }) :
    fieldLoop desc false body is false st =
      match collect key g is with
      | .error e => .error e
      | .ok l => .ok (false, { st with out := st.out ++ l }) := by
  induction is generalizing st with
  | nil => simp [fieldLoop, collect]
  | cons i is ih =>
    rw [fieldLoop, hd i, collect]
    simp only [Bool.false_eq_true, if_false]
    rw [hb i (by simp) { st with out := st.out ++ key i } rfl]
    cases hg : g i with
    | error e => rfl
    | ok d =>
      dsimp only
      rw [ih]
      · cases collect key g is with
        | error e => rfl
        | ok l => simp
      · intro j hj st' hs
        exact hb j (by simp [hj]) st' hs

end

/-! ### Getting -/

section
variable {σ : Type} [FloatFmt]

omit [FloatFmt] in
theorem resizeTo_get (v : Option Item) (resize : Option (Lens σ Nat)) (s : σ) :
    resizeTo false v resize s = s := by
  unfold resizeTo
  split <;> rfl

omit [FloatFmt] in
theorem resizeTo_scalar (isSet : Bool) (v : Item) (hv : v.isLeaf = true) (resize : Option (Lens σ Nat)) (s : σ) :
    resizeTo isSet (some v) resize s = s := by
  unfold resizeTo
  split
  · rename_i h
    cases h
    cases hv
  · rfl

omit [FloatFmt] in
theorem enumOut_nodup {choices : List (Int × String)} (h : (choices.map Prod.fst).Nodup) (c : Int) :
    enumOut choices c = [(enumOut choices c).headD .null] := by
  have h1 : (choices.filter fun m => decide (m.1 = c)).length ≤ 1 := by
    induction choices with
    | nil => simp
    | cons m ms ih =>
      rw [List.map_cons, List.nodup_cons] at h
      rw [List.filter_cons]
      by_cases hm : m.1 = c
      · have : ms.filter (fun m => decide (m.1 = c)) = [] := by
          rw [List.filter_eq_nil_iff]
          intro x hx
          have : x.1 ≠ m.1 := fun h2 => h.1 (List.mem_map.mpr ⟨x, hx, h2⟩)
          simp only [decide_eq_true_eq]
          omega
        simp [hm, this]
      · simp only [hm, decide_false, Bool.false_eq_true, if_false]
        exact ih h.2
  unfold enumOut
  generalize (choices.filter fun m => decide (m.1 = c)) = l at h1
  match l, h1 with
  | [], _ => rfl
  | [x], _ => rfl
  | _ :: _ :: _, h => simp at h

/-- A get without a path shows the dump. -/
theorem render_get {I : σ → Prop} (n : Node σ) (hw : WF I n) (v : Option Item) (st : RSt σ) :
    render n false false v st = match dump n st.s with
      | .error e => .error e
      | .ok d => .ok { st with out := st.out ++ [d] } := by
  induction n generalizing v st with
  | u32 l => simp [render, dump]
  | flt l => simp [render, dump]
  | bool l => simp [render, dump]
  | enum c l =>
    obtain ⟨_, h2, _, h4, _⟩ := hw
    simp only [render, dump, Bool.false_eq_true, if_false, h2]
    rw [enumOut_nodup h4]
    rfl
  | text l => simp [render, dump]
  | const t => simp [render, dump]
  | map ids child post ih =>
    rw [render, dump]
    rw [fieldLoop_get _ _ (fun i => [.text (ids.getD i "")]) v (fun i => dump (child i) st.s)]
    · cases collect (fun i => [.text (ids.getD i "")]) (fun i => dump (child i) st.s)
        (List.range ids.length) with
      | error e => rfl
      | ok l => simp [wrap, addNull, openOut]
    · intro i st
      simp [descendMap, descend, mapValue]
    · intro i hi st' hs
      rw [ih i (hw.1 i (List.mem_range.mp hi)), hs]
      simp [openOut]
  | arr resize count elem ih =>
    rw [render, dump]
    simp only [resizeTo_get]
    rw [fieldLoop_get _ _ (fun i => []) v (fun i => dump (elem i) st.s)]
    · have : (openOut false { st with s := st.s }).s = st.s := rfl
      rw [this]
      cases collect (fun i => []) (fun i => dump (elem i) st.s) (List.range (count st.s)) with
      | error e => rfl
      | ok l => simp [wrap, addNull, openOut]
    · intro i st
      simp [descendArr, descend, arrValue]
    · intro i hi st' hs
      rw [ih i (hw.1 i), hs]
      simp [openOut]
  | deref null n ih =>
    rw [render, dump]
    cases null st.s with
    | true => rfl
    | false => simpa using ih hw.1 v st
  | oob => rfl

omit [FloatFmt] in
theorem follow_leaf {x : Item} (hx : x.isLeaf = true) (k : Item) (r : List Item) :
    x.follow (k :: r) = none := by
  cases x <;> first | rfl | (cases hx)

/-- Neither a map nor a list. -/
def Node.isLeaf : Node σ → Bool
  | .map _ _ _ => false
  | .arr _ _ _ => false
  | .deref _ _ => false
  | .oob => false
  | _ => true

omit [FloatFmt] in
theorem enumOut_leaf (c : List (Int × String)) (x : Int) : ((enumOut c x).headD .null).isLeaf = true := by
  unfold enumOut
  generalize c.filter (fun m => decide (m.1 = x)) = l
  cases l <;> rfl

omit [FloatFmt] in
theorem dump_leaf {n : Node σ} (hn : n.isLeaf = true) {s : σ} {d : Item} (hd : dump n s = .ok d) :
    d.isLeaf = true := by
  cases n with
  | enum c l =>
    rw [dump] at hd
    cases hd
    exact enumOut_leaf c _
  | map _ _ _ => cases hn
  | arr _ _ _ => cases hn
  | deref _ _ => cases hn
  | oob => cases hn
  | _ => rw [dump] at hd; cases hd; rfl

omit [FloatFmt] in
/-- A leaf with a path left over is a path past a leaf. -/
theorem pastLeaf_leaf {x : Item} (hx : x.isLeaf = true) (k : Item) (r : List Item) :
    PastLeaf (k :: r) x := ⟨[], k, r, x, rfl, rfl, hx⟩

omit [FloatFmt] in
theorem pastLeaf_cons {d x : Item} {k : Item} {r : List Item} (h : Item.step k d = some x)
    (hp : PastLeaf r x) : PastLeaf (k :: r) d := by
  obtain ⟨q, k', r', y, h1, h2, h3⟩ := hp
  exact ⟨k :: q, k', r', y, by rw [h1]; rfl, by simp [Item.follow, h, h2], h3⟩

omit [FloatFmt] in
theorem find_hit (ids : List String) (k : Item) (r : List Item) :
    ((List.range ids.length).find? fun i => pathMatchStr (k :: r) (ids.getD i "")) =
      match k with
      | .text t => (List.range ids.length).find? fun i => decide (ids.getD i "" = t)
      | _ => none := by
  cases k with
  | text t => simp only [pathMatchStr, eq_comm]
  | _ => simp [pathMatchStr]

omit [FloatFmt] in
theorem find_index (n : Nat) (hn : n ≤ 2 ^ 31) (k : Item) (r : List Item) :
    ((List.range n).find? fun i => pathMatchInt (k :: r) i) =
      match k with
      | .int m => if 0 ≤ m ∧ m < n then some m.toNat else none
      | _ => none := by
  cases k with
  | int m =>
    dsimp only
    split
    · rename_i h
      have hlen : m.toNat < n := by omega
      have hin : pathMatchInt (.int m :: r) m.toNat = true := by
        have hg : getIntChecked m = some m := if_pos (by omega)
        simp only [pathMatchInt, hg]
        simp; omega
      cases hf : (List.range n).find? (fun i => pathMatchInt (.int m :: r) i) with
      | none =>
        rw [List.find?_eq_none] at hf
        exact absurd hin (hf m.toNat (List.mem_range.mpr hlen))
      | some i =>
        have := List.find?_some hf
        simp only [pathMatchInt, getIntChecked] at this
        split at this
        · simp at this
          rw [this]; simp
        · simp at this
    · rename_i h
      rw [List.find?_eq_none]
      intro i hi
      simp only [pathMatchInt, getIntChecked]
      rw [List.mem_range] at hi
      split
      · simp; omega
      · simp
  | _ => simp [pathMatchInt]

omit [FloatFmt] in
/-- The dump's part at a path is the dump of the node at the path. -/
theorem follow_dump {I : σ → Prop} (n : Node σ) (hw : WF I n) (s : σ) (hi : I s) (p : List Item) (d : Item)
    (hd : dump n s = .ok d) :
    match n.at p s with
    | none => d.follow p = none
    | some m => ∃ x, dump m s = .ok x ∧ d.follow p = some x := by
  induction n generalizing p d with
  | map ids child post ih =>
    cases p with
    | nil => exact ⟨d, hd, rfl⟩
    | cons k r =>
      rw [Node.at, find_hit]
      rw [dump] at hd
      cases hc : collect (fun i => [.text (ids.getD i "")]) (fun i => dump (child i) s)
        (List.range ids.length) with
      | error e => rw [hc] at hd; cases hd
      | ok l =>
        rw [hc] at hd
        cases hd
        cases k with
        | text t =>
          dsimp only
          have h := collect_lookup (t := t) hc
          cases hf : (List.range ids.length).find? (fun i => decide (ids.getD i "" = t)) with
          | none =>
            rw [hf] at h
            simp [Item.follow, Item.step, h]
          | some i =>
            rw [hf] at h
            obtain ⟨x, h1, h2⟩ := h
            have hil := List.mem_range.mp (List.mem_of_find?_eq_some hf)
            have := ih i (hw.1 i hil) r x h1
            dsimp only
            have h3 : Item.follow (.text t :: r) (.map l) = Item.follow r x := by
              simp [Item.follow, Item.step, h2]
            rw [h3]
            exact this
        | _ => simp [Item.follow, Item.step]
  | arr resize count elem ih =>
    cases p with
    | nil => exact ⟨d, hd, rfl⟩
    | cons k r =>
      rw [Node.at, find_index _ (hw.2.2.1 s hi)]
      rw [dump] at hd
      cases hc : collect (fun i => []) (fun i => dump (elem i) s) (List.range (count s)) with
      | error e => rw [hc] at hd; cases hd
      | ok l =>
        rw [hc] at hd
        cases hd
        obtain ⟨hl, hg⟩ := collect_get hc
        cases k with
        | int m =>
          dsimp only
          by_cases hm : 0 ≤ m ∧ m < count s
          · rw [if_pos hm]
            obtain ⟨x, h1, h2⟩ := hg m.toNat (by omega)
            have := ih m.toNat (hw.1 _) r x h1
            dsimp only
            have h3 : Item.follow (.int m :: r) (.arr false l) = Item.follow r x := by
              simp [Item.follow, Item.step, h2, hm.1]
            rw [h3]
            exact this
          · rw [if_neg hm]
            dsimp only
            by_cases h0 : 0 ≤ m
            · have : l[m.toNat]? = none := by rw [List.getElem?_eq_none_iff]; omega
              simp [Item.follow, Item.step, h0, this]
            · simp [Item.follow, Item.step, h0]
        | _ => simp [Item.follow, Item.step]
  | deref null n ih =>
    rw [dump] at hd
    rw [Node.at]
    cases hn : null s with
    | true => rw [hn] at hd; cases hd
    | false => rw [hn] at hd; exact ih hw.1 p d hd
  | oob => cases hd
  | _ =>
    cases p with
    | nil => exact ⟨d, hd, rfl⟩
    | cons k r => 
      exact follow_leaf (dump_leaf (by rfl) hd) k r

/-- A get with a path shows the addressed part of the dump, or null. -/
theorem render_get_path {I : σ → Prop} (n : Node σ) (hw : WF I n) (s : σ) (hi : I s) (p : List Item) (d : Item)
    (hd : dump n s = .ok d) (hp : ¬PastLeaf p d) (v : Option Item) (out : List Item) :
    ∃ p', render n false (!p.isEmpty) v { s := s, path := p, out := out } =
      .ok { s := s, path := p', out := out ++ [(d.follow p).getD .null] } := by
  induction n generalizing p d out with
  | map ids child post ih =>
    cases p with
    | nil =>
      refine ⟨[], ?_⟩
      have := render_get _ hw v { s := s, path := [], out := out }
      rw [hd] at this
      exact this
    | cons k r =>
      have hfl := fieldLoop_filtered (fun i => descendMap false true v (ids.getD i ""))
        (fun i f v st' => render (child i) false f v st') (List.range ids.length)
        { s := s, path := k :: r, out := out } (fun i => pathMatchStr (k :: r) (ids.getD i ""))
        (!r.isEmpty, v, { s := s, path := r, out := out })
        (fun i => by simp [descendMap, descend, mapValue])
      have hnf : ((List.range ids.length).find? fun i => pathMatchStr (k :: r) (ids.getD i "")) = none →
          d.follow (k :: r) = none →
          ∃ p', render (.map ids child post) false (!(k :: r).isEmpty) v { s := s, path := k :: r, out := out } =
            .ok { s := s, path := p', out := out ++ [(d.follow (k :: r)).getD .null] } := by
        intro h1 h2
        refine ⟨k :: r, ?_⟩
        rw [render]
        simp only [List.isEmpty_cons, Bool.not_false, openOut, if_true]
        rw [hfl, h1, h2]
        rfl
      rw [find_hit] at hfl hnf
      rw [dump] at hd
      cases hc : collect (fun i => [.text (ids.getD i "")]) (fun i => dump (child i) s)
        (List.range ids.length) with
      | error e => rw [hc] at hd; cases hd
      | ok l =>
        rw [hc] at hd
        cases hd
        cases k with
        | text t =>
          have h := collect_lookup (t := t) hc
          dsimp only at hfl hnf
          cases hf : (List.range ids.length).find? (fun i => decide (ids.getD i "" = t)) with
          | none =>
            rw [hf] at h hnf
            exact hnf rfl (by simp [Item.follow, Item.step, h])
          | some i =>
            rw [hf] at h hfl
            obtain ⟨x, h1, h2⟩ := h
            have hil := List.mem_range.mp (List.mem_of_find?_eq_some hf)
            have hst : Item.step (.text t) (.map l) = some x := by simp [Item.step, h2]
            obtain ⟨p', h3⟩ := ih i (hw.1 i hil) r x h1 (fun h => hp (pastLeaf_cons hst h)) out
            refine ⟨p', ?_⟩
            rw [render]
            simp only [List.isEmpty_cons, Bool.not_false, openOut, if_true]
            rw [hfl]
            dsimp only
            rw [h3]
            simp [wrap, addNull, Item.follow, hst]
        | _ => exact hnf rfl (by simp [Item.follow, Item.step])
  | arr resize count elem ih =>
    cases p with
    | nil =>
      refine ⟨[], ?_⟩
      have := render_get _ hw v { s := s, path := [], out := out }
      rw [hd] at this
      exact this
    | cons k r =>
      have hfl := fieldLoop_filtered (descendArr false true v)
        (fun i f v st' => render (elem i) false f v st') (List.range (count s))
        { s := s, path := k :: r, out := out } (fun i => pathMatchInt (k :: r) i)
        (!r.isEmpty, v, { s := s, path := r, out := out })
        (fun i => by simp [descendArr, descend, arrValue])
      have hnf : ((List.range (count s)).find? fun i => pathMatchInt (k :: r) i) = none →
          d.follow (k :: r) = none →
          ∃ p', render (.arr resize count elem) false (!(k :: r).isEmpty) v
              { s := s, path := k :: r, out := out } =
            .ok { s := s, path := p', out := out ++ [(d.follow (k :: r)).getD .null] } := by
        intro h1 h2
        refine ⟨k :: r, ?_⟩
        rw [render]
        simp only [List.isEmpty_cons, Bool.not_false, openOut, if_true, resizeTo_get]
        rw [hfl, h1, h2]
        rfl
      have hfol := follow_dump _ hw s hi (k :: r) d hd
      rw [Node.at] at hfol
      rw [find_index _ (hw.2.2.1 s hi)] at hfl hfol hnf
      rw [dump] at hd
      cases hc : collect (fun i => []) (fun i => dump (elem i) s) (List.range (count s)) with
      | error e => rw [hc] at hd; cases hd
      | ok l =>
        rw [hc] at hd
        cases hd
        obtain ⟨hl, hg⟩ := collect_get hc
        cases k with
        | int m =>
          dsimp only at hfl hfol hnf
          by_cases hm : 0 ≤ m ∧ m < count s
          · rw [if_pos hm] at hfl
            obtain ⟨x, h1, h2⟩ := hg m.toNat (by omega)
            have hst : Item.step (.int m) (.arr false l) = some x := by simp [Item.step, h2, hm.1]
            obtain ⟨p', h3⟩ := ih m.toNat (hw.1 _) r x h1 (fun h => hp (pastLeaf_cons hst h)) out
            refine ⟨p', ?_⟩
            rw [render]
            simp only [List.isEmpty_cons, Bool.not_false, openOut, if_true, resizeTo_get]
            rw [hfl]
            dsimp only
            rw [h3]
            simp [wrap, addNull, Item.follow, hst]
          · rw [if_neg hm] at hfl hfol hnf
            exact hnf rfl hfol
        | _ => exact hnf rfl (by simp [Item.follow, Item.step])
  | deref null n ih =>
    rw [dump] at hd
    rw [render]
    cases hn : null s with
    | true => rw [hn] at hd; cases hd
    | false => rw [hn] at hd; simpa using ih hw.1 p d hd hp out
  | oob => cases hd
  | _ =>
    cases p with
    | nil =>
      refine ⟨[], ?_⟩
      have := render_get _ hw v { s := s, path := [], out := out }
      rw [hd] at this
      exact this
    | cons k r => exact absurd (pastLeaf_leaf (dump_leaf (by rfl) hd) k r) hp

/-! ### Setting -/

/-- The configuration after a leaf has been given a value. -/
def leafSet : Node σ → Option Item → σ → σ
  | .u32 l, v, s => setOpt l (u32Of v) s
  | .flt l, v, s => setOpt l (floatOf v) s
  | .bool l, v, s => setOpt l (boolOf v) s
  | .enum c l, v, s => l.set (enumSet c v (l.get s)) s
  | .text l, v, s => setOpt l (titleOf v) s
  | _, _, s => s

/-- What is shown of a node that was given a value that is not a container. -/
def shown : Node σ → σ → Item
  | .u32 l, s => .int (l.get s).toNat
  | .flt l, s => .flt (l.get s)
  | .bool l, s => .bool (l.get s)
  | .enum choices l, s => (enumOut choices (l.get s)).headD .null
  | .text l, s => .text (l.get s)
  | .const t, _ => .text t
  | .map _ _ _, _ => .map []
  | .arr _ _ _, _ => .arr false []
  | _, _ => .null

/-- The hooks run on a set along a path, innermost first; `s0` is the configuration at the start. -/
def runPosts : Node σ → List Item → σ → σ → Except Fault σ
  | .map ids child post, p, s0, s =>
    match p with
    | [] => post s
    | k :: r =>
      match (List.range ids.length).find? fun i => pathMatchStr (k :: r) (ids.getD i "") with
      | none => post s
      | some i =>
        match runPosts (child i) r s0 s with
        | .error e => .error e
        | .ok s' => post s'
  | .arr _ count elem, p, s0, s =>
    match p with
    | [] => .ok s
    | k :: r =>
      match (List.range (count s0)).find? fun i => pathMatchInt (k :: r) i with
      | none => .ok s
      | some i => runPosts (elem i) r s0 s
  | .deref _ n, p, s0, s => runPosts n p s0 s
  | _, _, _, s => .ok s

/-- The result of a set with a path. -/
def setResult (n : Node σ) (p : List Item) (v : Item) (s : σ) (out : List Item) :
    Except Fault (σ × List Item) :=
  match n.at p s with
  | none =>
    match runPosts n p s s with
    | .error e => .error e
    | .ok s' => .ok (s', out ++ [.null])
  | some m =>
    match runPosts n p s (leafSet m (some v) s) with
    | .error e => .error e
    | .ok s' => .ok (s', out ++ [shown m (leafSet m (some v) s)])

def RSt.res (x : Except Fault (RSt σ)) : Except Fault (σ × List Item) :=
  match x with
  | .error e => .error e
  | .ok st => .ok (st.s, st.out)

omit [FloatFmt] in
theorem enumSet_mem (c : List (Int × String)) (v : Option Item) (x : Int) :
    enumSet c v x = x ∨ ∃ m ∈ c, enumSet c v x = m.1 := by
  unfold enumSet
  split
  · rename_i t
    induction c generalizing x with
    | nil => exact Or.inl rfl
    | cons m ms ih =>
      rw [List.foldl_cons]
      rcases ih (if t = m.2 then m.1 else x) with h | ⟨m', h1, h2⟩
      · by_cases ht : t = m.2
        · exact Or.inr ⟨m, by simp, by rw [h, if_pos ht]⟩
        · left; rw [h, if_neg ht]
      · exact Or.inr ⟨m', by simp [h1], h2⟩
  · exact Or.inl rfl

omit [FloatFmt] in
theorem step_map {ids : List String} {child : Nat → Node σ} {post} {s : σ} {d : Item} {k : Item} {r : List Item}
    {i : Nat} (hd : dump (.map ids child post) s = .ok d)
    (hf : ((List.range ids.length).find? fun i => pathMatchStr (k :: r) (ids.getD i "")) = some i) :
    ∃ x, dump (child i) s = .ok x ∧ Item.step k d = some x := by
  rw [find_hit] at hf
  rw [dump] at hd
  cases hc : collect (fun i => [.text (ids.getD i "")]) (fun i => dump (child i) s)
    (List.range ids.length) with
  | error e => rw [hc] at hd; cases hd
  | ok l =>
    rw [hc] at hd
    cases hd
    cases k with
    | text t =>
      have h := collect_lookup (t := t) hc
      dsimp only at hf
      rw [hf] at h
      obtain ⟨x, h1, h2⟩ := h
      exact ⟨x, h1, by simp [Item.step, h2]⟩
    | _ => cases hf

omit [FloatFmt] in
theorem step_arr {resize count} {elem : Nat → Node σ} {s : σ} {d : Item} {k : Item} {r : List Item}
    {i : Nat} (hn : count s ≤ 2 ^ 31) (hd : dump (.arr resize count elem) s = .ok d)
    (hf : ((List.range (count s)).find? fun i => pathMatchInt (k :: r) i) = some i) :
    ∃ x, dump (elem i) s = .ok x ∧ Item.step k d = some x := by
  rw [find_index _ hn] at hf
  rw [dump] at hd
  cases hc : collect (fun i => []) (fun i => dump (elem i) s) (List.range (count s)) with
  | error e => rw [hc] at hd; cases hd
  | ok l =>
    rw [hc] at hd
    cases hd
    obtain ⟨hl, hg⟩ := collect_get hc
    cases k with
    | int m =>
      dsimp only at hf
      split at hf
      · rename_i hm
        cases hf
        obtain ⟨x, h1, h2⟩ := hg m.toNat (by omega)
        exact ⟨x, h1, by simp [Item.step, h2, hm.1]⟩
      · cases hf
    | _ => cases hf

/-- On the way to the path's end no list is resized by the value, and a container at the end is not given
the value of its entries. -/
def Node.calm (v : Item) : Node σ → List Item → σ → Prop
  | .map ids child _, p, s =>
    match p with
    | [] => v.isLeaf = true
    | k :: r =>
      match (List.range ids.length).find? fun i => pathMatchStr (k :: r) (ids.getD i "") with
      | none => True
      | some i => (child i).calm v r s
  | .arr resize count elem, p, s =>
    match p with
    | [] => v.isLeaf = true
    | k :: r => (v.isLeaf = true ∨ resize.isNone = true) ∧
      match (List.range (count s)).find? fun i => pathMatchInt (k :: r) i with
      | none => True
      | some i => (elem i).calm v r s
  | .deref _ n, p, s => n.calm v p s
  | _, _, _ => True

omit [FloatFmt] in
theorem calm_leaf {v : Item} (hv : v.isLeaf = true) (n : Node σ) (p : List Item) (s : σ) : n.calm v p s := by
  induction n generalizing p with
  | map ids child post ih =>
    cases p with
    | nil => exact hv
    | cons k r =>
      rw [Node.calm]
      cases (List.range ids.length).find? (fun i => pathMatchStr (k :: r) (ids.getD i "")) with
      | none => trivial
      | some i => exact ih i r
  | arr resize count elem ih =>
    cases p with
    | nil => exact hv
    | cons k r =>
      rw [Node.calm]
      refine ⟨Or.inl hv, ?_⟩
      cases (List.range (count s)).find? (fun i => pathMatchInt (k :: r) i) with
      | none => trivial
      | some i => exact ih i r
  | deref _ n ih => exact ih p
  | _ => trivial

/-- A set changes the addressed leaf and runs the hooks. -/
theorem render_set {I : σ → Prop} (n : Node σ) (hw : WF I n) (s : σ) (hi : I s) (p : List Item) (d : Item)
    (hd : dump n s = .ok d) (hp : ¬PastLeaf p d) (v : Item) (hv : n.calm v p s) (out : List Item) :
    RSt.res (render n true (!p.isEmpty) (some v) { s := s, path := p, out := out }) =
      setResult n p v s out := by
  unfold setResult
  induction n generalizing p d out with
  | map ids child post ih =>
    cases p with
    | nil =>
      have hv : v.isLeaf = true := hv
      rw [render, fieldLoop_none _ _ _ _ _ (fun i => by
        cases v <;> first | rfl | (cases hv))]
      simp only [openOut, Node.at, runPosts, leafSet, shown, List.isEmpty_nil, Bool.not_true,
        Bool.false_eq_true, if_false, if_true, wrap, addNull, Bool.false_and]
      cases post s with
      | error e => rfl
      | ok s' => rfl
    | cons k r =>
      have hfl := fieldLoop_filtered (fun i => descendMap true true (some v) (ids.getD i ""))
        (fun i f v st' => render (child i) true f v st') (List.range ids.length)
        { s := s, path := k :: r, out := out } (fun i => pathMatchStr (k :: r) (ids.getD i ""))
        (!r.isEmpty, some v, { s := s, path := r, out := out })
        (fun i => by simp [descendMap, descend, mapValue])
      have hfind := find_hit ids k r
      rw [render, Node.at, runPosts]
      simp only [List.isEmpty_cons, Bool.not_false, openOut, if_true]
      rw [hfl]
      cases hf : (List.range ids.length).find? (fun i => pathMatchStr (k :: r) (ids.getD i "")) with
      | none =>
        dsimp only
        cases post s with
        | error e => rfl
        | ok s' => rfl
      | some i =>
        dsimp only
        obtain ⟨x, h1, h2⟩ := step_map hd hf
        have hil := List.mem_range.mp (List.mem_of_find?_eq_some hf)
        have hv' : (child i).calm v r s := by
          rw [Node.calm, hf] at hv; exact hv
        have h3 := ih i (hw.1 i hil) r x h1 (fun h => hp (pastLeaf_cons h2 h)) hv' out
        generalize render (child i) true (!r.isEmpty) (some v) { s := s, path := r, out := out } = R at h3
        cases hat : (child i).at r s with
        | none =>
          rw [hat] at h3
          dsimp only at h3 ⊢
          cases hrp : runPosts (child i) r s s with
          | error e =>
            rw [hrp] at h3
            cases R with
            | error e' => cases h3; rfl
            | ok st => cases h3
          | ok s' =>
            rw [hrp] at h3
            cases R with
            | error e' => cases h3
            | ok st =>
              simp only [RSt.res, Except.ok.injEq, Prod.mk.injEq] at h3
              dsimp only
              rw [h3.1]
              cases post s' with
              | error e => rfl
              | ok s2 => simp [RSt.res, wrap, addNull, h3.2]
        | some m =>
          rw [hat] at h3
          dsimp only at h3 ⊢
          rw [runPosts, hf]
          dsimp only
          cases hrp : runPosts (child i) r s (leafSet m (some v) s) with
          | error e =>
            rw [hrp] at h3
            cases R with
            | error e' => cases h3; rfl
            | ok st => cases h3
          | ok s' =>
            rw [hrp] at h3
            cases R with
            | error e' => cases h3
            | ok st =>
              simp only [RSt.res, Except.ok.injEq, Prod.mk.injEq] at h3
              dsimp only
              rw [h3.1]
              cases post s' with
              | error e => rfl
              | ok s2 => simp [RSt.res, wrap, addNull, h3.2]
  | arr resize count elem ih =>
    cases p with
    | nil =>
      have hv : v.isLeaf = true := hv
      rw [render]
      simp only [resizeTo_scalar _ _ hv]
      rw [fieldLoop_none _ _ _ _ _ (fun i => by
        cases v <;> first | rfl | (cases hv))]
      rfl
    | cons k r =>
      rw [Node.calm] at hv
      have hrs : resizeTo true (some v) resize s = s := by
        rcases hv.1 with h | h
        · exact resizeTo_scalar _ _ h _ _
        · cases resize with
          | none => rfl
          | some l => cases h
      have hfl := fieldLoop_filtered (descendArr true true (some v))
        (fun i f v st' => render (elem i) true f v st') (List.range (count s))
        { s := s, path := k :: r, out := out } (fun i => pathMatchInt (k :: r) i)
        (!r.isEmpty, some v, { s := s, path := r, out := out })
        (fun i => by simp [descendArr, descend, arrValue])
      rw [render, Node.at, runPosts]
      simp only [List.isEmpty_cons, Bool.not_false, openOut, if_true, hrs]
      rw [hfl]
      cases hf : (List.range (count s)).find? (fun i => pathMatchInt (k :: r) i) with
      | none => rfl
      | some i =>
        dsimp only
        obtain ⟨x, h1, h2⟩ := step_arr (hw.2.2.1 s hi) hd hf
        have hv' : (elem i).calm v r s := by
          rw [hf] at hv; exact hv.2
        have h3 := ih i (hw.1 i) r x h1 (fun h => hp (pastLeaf_cons h2 h)) hv' out
        generalize render (elem i) true (!r.isEmpty) (some v) { s := s, path := r, out := out } = R at h3
        cases hat : (elem i).at r s with
        | none =>
          rw [hat] at h3
          dsimp only at h3 ⊢
          rw [← h3]
          cases R with
          | error e' => rfl
          | ok st => rfl
        | some m =>
          rw [hat] at h3
          dsimp only at h3 ⊢
          rw [runPosts, hf]
          dsimp only
          rw [← h3]
          cases R with
          | error e' => rfl
          | ok st => rfl
  | deref null n ih =>
    rw [dump] at hd
    rw [render, Node.at, runPosts]
    cases hn : null s with
    | true => rw [hn] at hd; cases hd
    | false =>
      rw [hn] at hd
      have := ih hw.1 p d hd hp hv out
      simp only [Bool.false_eq_true, if_false]
      rw [this]
      cases n.at p s with
      | none => rfl
      | some m => rfl
  | oob => cases hd
  | enum c l =>
    cases p with
    | nil => 
      obtain ⟨h1, h2, h3, h4, h5⟩ := hw
      simp only [render, Node.at, List.isEmpty_nil, if_true, runPosts, leafSet, shown, RSt.res]
      have h6 : l.get (l.set (enumSet c (some v) (l.get s)) s) = enumSet c (some v) (l.get s) := by
        rcases enumSet_mem c (some v) (l.get s) with h | ⟨m, hm, h⟩
        · rw [h, h2]
        · rw [h]; exact h3 s m hi hm
      rw [h6, enumOut_nodup h4]
      rfl
    | cons k r => exact absurd (pastLeaf_leaf (dump_leaf (by rfl) hd) k r) hp
  | _ =>
    cases p with
    | nil => rfl
    | cons k r => exact absurd (pastLeaf_leaf (dump_leaf (by rfl) hd) k r) hp

/-! ### Nothing else changes -/

omit [FloatFmt] in
theorem writes_inv {I : σ → Prop} {n : Node σ} (hw : WF I n) {s s' : σ} (hi : I s) (h : Writes n s s') :
    I s' := by
  induction h with
  | u32 l s v => exact (hw s v hi).2
  | flt l s v => exact (hw s v hi).2
  | bool l s v => exact (hw s v hi).2
  | enum c l s v => exact hw.1 s v hi
  | text l s v => exact (hw s v hi).2
  | map i hil _ ih => exact ih (hw.1 i hil) hi
  | post h => exact (hw.2.2 _ _ hi h).1
  | arr i _ ih => exact ih (hw.1 i) hi
  | deref _ ih => exact ih hw.1 hi

omit [FloatFmt] in
/-- Several writes. -/
theorem steps_inv {I : σ → Prop} {n : Node σ} (hw : WF I n) {s s' : σ} (hi : I s)
    (h : Relation.ReflTransGen (Writes n) s s') : I s' := by
  induction h with
  | refl => exact hi
  | tail _ h2 ih => exact writes_inv hw ih h2

omit [FloatFmt] in
theorem steps_eq {I : σ → Prop} {n : Node σ} (hw : WF I n) {α : Type} (F : σ → α)
    (hF : ∀ s s', I s → Writes n s s' → F s' = F s) {s s' : σ} (hi : I s)
    (h : Relation.ReflTransGen (Writes n) s s') : F s' = F s := by
  induction h with
  | refl => rfl
  | tail h1 h2 ih => rw [hF _ _ (steps_inv hw hi h1) h2, ih]

omit [FloatFmt] in
theorem steps_indep {I : σ → Prop} {n m : Node σ} (hw : WF I n) (hm : Indep I n m) {s s' : σ} (hi : I s)
    (h : Relation.ReflTransGen (Writes n) s s') : dump m s' = dump m s := by
  induction h with
  | refl => rfl
  | tail h1 h2 ih => rw [hm _ _ (steps_inv hw hi h1) h2, ih]

omit [FloatFmt] in
theorem collect_replace {f g : Nat → Except Fault Item} {ids : Nat → String} {t : String} {F : Item → Item}
    {is : List Nat} {l : List Item} {i : Nat} {x : Item} (hn : is.Nodup)
    (h : collect (fun i => [.text (ids i)]) f is = .ok l)
    (hf : is.find? (fun i => decide (ids i = t)) = some i) (hx : f i = .ok x) (hg : g i = .ok (F x))
    (ho : ∀ j ∈ is, j ≠ i → g j = f j) :
    collect (fun i => [.text (ids i)]) g is = .ok (replaceKey t F l) := by
  induction is generalizing l with
  | nil => cases hf
  | cons a is ih =>
    rw [List.nodup_cons] at hn
    simp only [collect] at h ⊢
    cases hd : f a with
    | error e => rw [hd] at h; cases h
    | ok d =>
      rw [hd] at h
      dsimp only at h
      cases hc : collect (fun i => [.text (ids i)]) f is with
      | error e => rw [hc] at h; cases h
      | ok l' =>
        rw [hc] at h
        cases h
        rw [List.find?_cons] at hf
        by_cases he : ids a = t
        · simp only [he, decide_true, Option.some.injEq] at hf
          subst hf
          rw [hx] at hd
          cases hd
          rw [hg]
          dsimp only
          rw [collect_congr (f := g) (g := f) fun j hj => ho j (by simp [hj]) (by rintro rfl; exact hn.1 hj), hc]
          simp [replaceKey, he]
        · simp only [he, decide_false] at hf
          have hai : a ≠ i := by
            rintro rfl
            exact hn.1 (List.mem_of_find?_eq_some hf)
          rw [ho a (by simp) hai, hd]
          dsimp only
          rw [ih hn.2 hc hf fun j hj => ho j (by simp [hj])]
          simp [replaceKey, he]

omit [FloatFmt] in
theorem modify_last {α : Type} (l : List α) (x : α) (F : α → α) :
    (l ++ [x]).modify l.length F = l ++ [F x] := by
  induction l with
  | nil => rfl
  | cons a l ih => simp [List.modify_succ_cons, ih]

omit [FloatFmt] in
theorem modify_left {α : Type} (l m : List α) (i : Nat) (F : α → α) (h : i < l.length) :
    (l ++ m).modify i F = l.modify i F ++ m := by
  induction l generalizing i with
  | nil => simp at h
  | cons a l ih =>
    cases i with
    | zero => simp
    | succ i => simp [List.modify_succ_cons, ih i (by simpa using h)]

omit [FloatFmt] in
theorem collect_modify {f g : Nat → Except Fault Item} {F : Item → Item} {n : Nat} {l : List Item} {i : Nat}
    {x : Item} (h : collect (fun _ => []) f (List.range n) = .ok l) (hin : i < n) (hx : f i = .ok x)
    (hg : g i = .ok (F x)) (ho : ∀ j < n, j ≠ i → g j = f j) :
    collect (fun _ => []) g (List.range n) = .ok (l.modify i F) := by
  induction n generalizing l with
  | zero => omega
  | succ n ih =>
    rw [List.range_succ] at h ⊢
    obtain ⟨la, lb, h1, h2, rfl⟩ := collect_append _ _ _ _ _ h
    obtain ⟨h3, _⟩ := collect_get h1
    simp only [collect] at h2
    have key : ∀ a b la' lb', collect (fun _ => []) g a = .ok la' → collect (fun _ => []) g b = .ok lb' →
        collect (fun _ => []) g (a ++ b) = .ok (la' ++ lb') := by
      intro a b
      induction a with
      | nil => intro la' lb' ha hb; cases ha; simpa using hb
      | cons c cs ihc =>
        intro la' lb' ha hb
        simp only [collect, List.cons_append] at ha ⊢
        cases hgc : g c with
        | error e => rw [hgc] at ha; cases ha
        | ok d =>
          rw [hgc] at ha
          dsimp only at ha ⊢
          cases hcc : collect (fun _ => []) g cs with
          | error e => rw [hcc] at ha; cases ha
          | ok l' =>
            rw [hcc] at ha
            cases ha
            rw [ihc l' lb' hcc hb]
            simp
    by_cases hi : i = n
    · subst hi
      rw [hx] at h2
      cases h2
      have e1 : collect (fun _ => []) g (List.range i) = .ok la := by
        rw [← h1]
        exact collect_congr fun j hj => ho j (by have := List.mem_range.mp hj; omega)
          (by have := List.mem_range.mp hj; omega)
      have e2 : collect (fun _ => []) g [i] = .ok [F x] := by simp [collect, hg]
      rw [key _ _ _ _ e1 e2]
      rw [← h3, List.nil_append, modify_last]
    · have e1 := ih h1 (by omega) fun j hj => ho j (by omega)
      have e2 : collect (fun _ => []) g [n] = .ok lb := by
        simp only [collect]
        rw [ho n (by omega) (by omega)]
        exact h2
      rw [key _ _ _ _ e1 e2]
      rw [modify_left _ _ _ _ (by omega)]

/-- Giving the leaf at a path a value changes the dump at this path only. -/
theorem dump_leafSet {I : σ → Prop} (n : Node σ) (hw : WF I n) (s : σ) (hi : I s) (p : List Item) (d : Item)
    (hd : dump n s = .ok d) (m : Node σ) (hat : n.at p s = some m) (hm : m.isLeaf = true) (v : Option Item) :
    Relation.ReflTransGen (Writes n) s (leafSet m v s) ∧
      dump n (leafSet m v s) = .ok (d.replace p (shown m (leafSet m v s))) := by
  induction n generalizing p d with
  | map ids child post ih =>
    cases p with
    | nil => simp only [Node.at] at hat; cases hat; cases hm
    | cons k r =>
      rw [Node.at] at hat
      cases hf : (List.range ids.length).find? (fun i => pathMatchStr (k :: r) (ids.getD i "")) with
      | none => rw [hf] at hat; cases hat
      | some i =>
        rw [hf] at hat
        dsimp only at hat
        have hil := List.mem_range.mp (List.mem_of_find?_eq_some hf)
        obtain ⟨x, h1, h2⟩ := step_map hd hf
        obtain ⟨h3, h4⟩ := ih i (hw.1 i hil) r x h1 hat
        have h5 : Relation.ReflTransGen (Writes (.map ids child post)) s (leafSet m v s) :=
          Relation.ReflTransGen.mono (fun a b h => .map i hil h) _ _ h3
        refine ⟨h5, ?_⟩
        rw [find_hit] at hf
        rw [dump] at hd ⊢
        cases hc : collect (fun i => [.text (ids.getD i "")]) (fun i => dump (child i) s)
          (List.range ids.length) with
        | error e => rw [hc] at hd; cases hd
        | ok l =>
          rw [hc] at hd
          cases hd
          cases k with
          | text t =>
            rw [collect_replace (g := fun i => dump (child i) (leafSet m v s))
              (F := fun y => Item.replace r y (shown m (leafSet m v s))) (List.nodup_range) hc hf h1 h4]
            · rfl
            · intro j hj hji
              exact steps_indep (hw.1 i hil) (hw.2.1 i hil j (List.mem_range.mp hj) (Ne.symm hji)) hi h3
          | _ => cases hf
  | arr resize count elem ih =>
    cases p with
    | nil => simp only [Node.at] at hat; cases hat; cases hm
    | cons k r =>
      rw [Node.at] at hat
      cases hf : (List.range (count s)).find? (fun i => pathMatchInt (k :: r) i) with
      | none => rw [hf] at hat; cases hat
      | some i =>
        rw [hf] at hat
        dsimp only at hat
        obtain ⟨x, h1, h2⟩ := step_arr (hw.2.2.1 s hi) hd hf
        obtain ⟨h3, h4⟩ := ih i (hw.1 i) r x h1 hat
        have h5 : Relation.ReflTransGen (Writes (.arr resize count elem)) s (leafSet m v s) :=
          Relation.ReflTransGen.mono (fun a b h => .arr i h) _ _ h3
        refine ⟨h5, ?_⟩
        have hcnt : count (leafSet m v s) = count s := steps_eq (hw.1 i) count (fun a b => hw.2.2.2 a b i) hi h3
        rw [find_index _ (hw.2.2.1 s hi)] at hf
        rw [dump] at hd ⊢
        cases hc : collect (fun i => []) (fun i => dump (elem i) s) (List.range (count s)) with
        | error e => rw [hc] at hd; cases hd
        | ok l =>
          rw [hc] at hd
          cases hd
          cases k with
          | int j =>
            dsimp only at hf
            split at hf
            · rename_i hj
              cases hf
              rw [hcnt, collect_modify (g := fun i => dump (elem i) (leafSet m v s))
                (F := fun y => Item.replace r y (shown m (leafSet m v s))) hc (by omega) h1 h4]
              · simp [Item.replace, Item.stepMap, hj.1]
              · intro a _ hai
                exact steps_indep (hw.1 _) (hw.2.1 _ a (Ne.symm hai)) hi h3
            · cases hf
          | _ => cases hf
  | deref null n ih =>
    rw [dump] at hd ⊢
    rw [Node.at] at hat
    cases hn : null s with
    | true => rw [hn] at hd; cases hd
    | false =>
      rw [hn] at hd
      obtain ⟨h1, h2⟩ := ih hw.1 p d hd hat
      refine ⟨Relation.ReflTransGen.mono (fun a b h => .deref h) _ _ h1, ?_⟩
      have : null (leafSet m v s) = false := by
        rw [← hn]
        exact steps_eq hw.1 null hw.2 hi h1
      rw [this]
      exact h2
  | oob => cases hd
  | _ =>
    cases p with
    | cons k r => cases hat
    | nil =>
      cases hat
      refine ⟨?_, rfl⟩
      first
      | exact .refl
      | exact .single (.enum _ _ _ _)
      | (simp only [leafSet, setOpt]
         split
         · exact .refl
         · exact .single (by constructor))

omit [FloatFmt] in
/-- The hooks change nothing that is shown. -/
theorem dump_runPosts {I : σ → Prop} (n : Node σ) (hw : WF I n) (s0 s s' : σ) (hi : I s) (p : List Item)
    (h : runPosts n p s0 s = .ok s') :
    Relation.ReflTransGen (Writes n) s s' ∧ dump n s' = dump n s := by
  induction n generalizing p s' with
  | map ids child post ih =>
    have hpost : ∀ a b, I a → post a = .ok b → dump (.map ids child post) b = dump (.map ids child post) a := by
      intro a b ha hb
      rw [dump, dump, collect_congr (g := fun i => dump (child i) a)]
      intro i hi
      exact (hw.2.2 a b ha hb).2 i (List.mem_range.mp hi)
    cases p with
    | nil => exact ⟨.single (.post h), hpost _ _ hi h⟩
    | cons k r =>
      rw [runPosts] at h
      cases hf : (List.range ids.length).find? (fun i => pathMatchStr (k :: r) (ids.getD i "")) with
      | none => rw [hf] at h; exact ⟨.single (.post h), hpost _ _ hi h⟩
      | some i =>
        rw [hf] at h
        dsimp only at h
        have hil := List.mem_range.mp (List.mem_of_find?_eq_some hf)
        cases hr : runPosts (child i) r s0 s with
        | error e => rw [hr] at h; cases h
        | ok s1 =>
          rw [hr] at h
          dsimp only at h
          obtain ⟨h1, h2⟩ := ih i (hw.1 i hil) s1 r hr
          have h3 := steps_inv (hw.1 i hil) hi h1
          refine ⟨(Relation.ReflTransGen.mono (fun a b h => .map i hil h) _ _ h1).tail (.post h), ?_⟩
          rw [hpost _ _ h3 h, dump, dump, collect_congr (g := fun i => dump (child i) s)]
          intro j hj
          by_cases hji : j = i
          · rw [hji, h2]
          · exact steps_indep (hw.1 i hil) (hw.2.1 i hil j (List.mem_range.mp hj) (Ne.symm hji)) hi h1
  | arr resize count elem ih =>
    cases p with
    | nil => cases h; exact ⟨.refl, rfl⟩
    | cons k r =>
      rw [runPosts] at h
      cases hf : (List.range (count s0)).find? (fun i => pathMatchInt (k :: r) i) with
      | none => rw [hf] at h; cases h; exact ⟨.refl, rfl⟩
      | some i =>
        rw [hf] at h
        dsimp only at h
        obtain ⟨h1, h2⟩ := ih i (hw.1 i) s' r h
        refine ⟨Relation.ReflTransGen.mono (fun a b h => .arr i h) _ _ h1, ?_⟩
        have hcnt : count s' = count s := steps_eq (hw.1 i) count (fun a b => hw.2.2.2 a b i) hi h1
        rw [dump, dump, hcnt, collect_congr (g := fun i => dump (elem i) s)]
        intro j _
        by_cases hji : j = i
        · rw [hji, h2]
        · exact steps_indep (hw.1 i) (hw.2.1 i j (Ne.symm hji)) hi h1
  | deref null n ih =>
    obtain ⟨h1, h2⟩ := ih hw.1 s' p h
    refine ⟨Relation.ReflTransGen.mono (fun a b h => .deref h) _ _ h1, ?_⟩
    have : null s' = null s := steps_eq hw.1 null hw.2 hi h1
    rw [dump, dump, this, h2]
  | _ => cases h; exact ⟨.refl, rfl⟩

end

end Verif
