/-
Setting a value through the console: the hooks that run, the lists that change size, and what a request
answers.
-/
import Verif.Proofs.ConsoleTree

namespace Verif

/-! ### Hooks -/

section
variable {σ : Type}

/-- No hook under the node does anything. -/
def Quiet (n : Node σ) : Prop := ∀ p s0 s, runPosts n p s0 s = .ok s

theorem quiet_map {ids : List String} {child : Nat → Node σ} (h : ∀ i < ids.length, Quiet (child i)) :
    Quiet (.map ids child .ok) := by
  intro p s0 s
  cases p with
  | nil => rfl
  | cons k r =>
    rw [runPosts]
    cases hf : (List.range ids.length).find? (fun i => pathMatchStr (k :: r) (ids.getD i "")) with
    | none => rfl
    | some i =>
      have hil := List.mem_range.mp (List.mem_of_find?_eq_some hf)
      dsimp only
      rw [h i hil]

theorem quiet_fields {l : List (String × Node σ)} (h : ∀ x ∈ l, Quiet x.2) : Quiet (.fields l) := by
  refine quiet_map fun i hi => ?_
  rw [List.length_map] at hi
  have : (l.getD i ("", Node.oob)) = l[i] := by simp [List.getD, hi]
  rw [this]
  exact h _ (List.getElem_mem hi)

theorem quiet_arr {resize count} {elem : Nat → Node σ} (h : ∀ i, Quiet (elem i)) :
    Quiet (.arr resize count elem) := by
  intro p s0 s
  cases p with
  | nil => rfl
  | cons k r =>
    rw [runPosts]
    cases (List.range (count s0)).find? (fun i => pathMatchInt (k :: r) i) with
    | none => rfl
    | some i => exact h i r s0 s

theorem quiet_deref {null} {n : Node σ} (h : Quiet n) : Quiet (.deref null n) := by
  intro p s0 s
  rw [runPosts]
  exact h p s0 s

macro "quiet_leaf" : tactic => `(tactic| exact fun _ _ _ => rfl)

theorem quiet_fixedArr {n : Nat} {elem : Fin n → Node σ} (h : ∀ i, Quiet (elem i)) :
    Quiet (fixedArr n elem) := by
  refine quiet_arr fun i => ?_
  split
  · exact h _
  · quiet_leaf

end

theorem quiet_axis (la : Lens Console Axis) (name : Lens Console String) : Quiet (axisNode la name) := by
  unfold axisNode
  apply quiet_fields
  each
  · quiet_leaf
  · refine quiet_arr fun i => ?_
    split <;> quiet_leaf

theorem quiet_table1 (t : Lens Console (Option Table1d)) (k : Fin 10) : Quiet (table1Node t k) := by
  refine quiet_deref ?_
  apply quiet_fields
  each
  · quiet_leaf
  · exact quiet_axis _ _
  · refine quiet_arr fun i => ?_
    split <;> quiet_leaf

theorem quiet_table2 (t : Lens Console (Option Table2d)) (k : Fin 10) : Quiet (table2Node t k) := by
  refine quiet_deref ?_
  apply quiet_fields
  each
  · quiet_leaf
  · exact quiet_axis _ _
  · exact quiet_axis _ _
  · refine quiet_arr fun i => quiet_arr fun j => ?_
    split <;> quiet_leaf

theorem quiet_sensor (l : Lens Console Sensor) : Quiet (sensorNode l) := by
  unfold sensorNode
  apply quiet_fields
  each
  all_goals quiet_leaf

theorem quiet_output (l : Lens Console OEvent) : Quiet (outputNode l) := by
  unfold outputNode
  apply quiet_fields
  each
  all_goals quiet_leaf

theorem quiet_freq (l : Lens Console FreqInput) : Quiet (freqNode l) := by
  unfold freqNode
  apply quiet_fields
  each
  all_goals quiet_leaf

section
variable [FloatFmt] [LibM]

omit [FloatFmt] [LibM] in
theorem find_string {ids : List String} {k : Item} {r : List Item} {i : Nat}
    (h : ((List.range ids.length).find? fun i => pathMatchStr (k :: r) (ids.getD i "")) = some i) :
    i < ids.length ∧ k = .text (ids.getD i "") := by
  refine ⟨List.mem_range.mp (List.mem_of_find?_eq_some h), ?_⟩
  have := List.find?_some h
  unfold pathMatchStr at this
  split at this
  · rename_i t _ he
    cases he
    simp only [decide_eq_true_eq] at this
    rw [this]
  · cases this

theorem posts_sensors (rate : BitVec 32) (p : List Item) (s0 s : Console)
    (h1 : ∀ r, p ≠ .text "knock1" :: r) (h2 : ∀ r, p ≠ .text "knock2" :: r) :
    runPosts (sensorsNode rate) p s0 s = .ok s := by
  unfold sensorsNode
  cases p with
  | nil => rfl
  | cons k r =>
    rw [runPosts]
    cases hf : (List.range (sensorNames ++ ["knock1", "knock2"]).length).find?
        (fun i => pathMatchStr (k :: r) ((sensorNames ++ ["knock1", "knock2"]).getD i "")) with
    | none => rfl
    | some i =>
      obtain ⟨hi, hk⟩ := find_string hf
      have hi : i < 12 := hi
      dsimp only
      by_cases h : i < numSensors
      · rw [dif_pos h, quiet_sensor]
      · have h : ¬ i < 10 := h
        rcases (by omega : i = 10 ∨ i = 11) with rfl | rfl
        · exact absurd (by rw [hk]; rfl) (h1 r)
        · exact absurd (by rw [hk]; rfl) (h2 r)

omit [FloatFmt] [LibM] in
theorem posts_fields {l : List (String × Node Console)} {k : Item} {r : List Item} {s0 s : Console}
    (h : ∀ x ∈ l, k = .text x.1 → runPosts x.2 r s0 s = .ok s) :
    runPosts (.fields l) (k :: r) s0 s = .ok s := by
  unfold Node.fields
  rw [runPosts]
  cases hf : (List.range (l.map Prod.fst).length).find?
      (fun i => pathMatchStr (k :: r) ((l.map Prod.fst).getD i "")) with
  | none => rfl
  | some i =>
    obtain ⟨hi, hk⟩ := find_string hf
    rw [List.length_map] at hi
    have h1 : (l.getD i ("", Node.oob)) = l[i] := by simp [List.getD, hi]
    have h2 : (l.map Prod.fst).getD i "" = l[i].1 := by simp [List.getD, hi]
    dsimp only
    rw [h1, h _ (List.getElem_mem hi) (by rw [hk, h2])]

theorem posts_console (rate : BitVec 32) (version : String) (p : List Item) (s0 s : Console)
    (h : ¬KnockPath p) : runPosts (consoleTree rate version) p s0 s = .ok s := by
  cases p with
  | nil => rfl
  | cons k r =>
    unfold consoleTree
    apply posts_fields
    each
    · intro _
      refine (quiet_fields ?_ : Quiet decoderNode) r s0 s
      each
      all_goals quiet_leaf
    · intro hk
      apply posts_sensors
      · intro q hq; exact h ⟨q, Or.inl (by rw [hk, hq])⟩
      · intro q hq; exact h ⟨q, Or.inr (by rw [hk, hq])⟩
    · exact fun _ => quiet_fixedArr (fun i => quiet_output _) _ _ _
    · intro _
      refine (quiet_fields ?_ : Quiet fuelingNode) r s0 s
      each
      all_goals first
        | quiet_leaf
        | (refine (quiet_fields ?_ : Quiet crankNode)
           each
           all_goals quiet_leaf)
    · intro _
      refine (quiet_fields ?_ : Quiet ignitionNode) r s0 s
      each
      all_goals quiet_leaf
    · intro _
      refine (quiet_fields ?_ : Quiet tablesNode) r s0 s
      each
      all_goals first
        | exact quiet_table2 _ _
        | exact quiet_table1 _ _
    · intro _
      refine (quiet_fields ?_ : Quiet boostNode) r s0 s
      each
      all_goals first
        | exact quiet_table1 _ _
        | quiet_leaf
    · intro _
      refine (quiet_fields ?_ : Quiet celNode) r s0 s
      each
      all_goals quiet_leaf
    · exact fun _ => quiet_fixedArr (fun i => quiet_freq _) _ _ _
    · intro _
      refine (quiet_fields ?_ : Quiet testNode) r s0 s
      each
      all_goals quiet_leaf
    · intro _
      refine (quiet_fields ?_) r s0 s
      each
      quiet_leaf

end

/-! ### Lists that change size -/

section
variable {σ : Type}

/-- A path that does not name the values of an axis is calm up to a leaf. -/
def Calm (n : Node σ) : Prop :=
  ∀ v p s, Item.text "values" ∉ p → (∀ m, n.at p s = some m → m.isLeaf = true) → n.calm v p s

theorem Calm.map {ids : List String} {child : Nat → Node σ} {post}
    (h : ∀ i < ids.length, ids.getD i "" = "values" ∨ Calm (child i)) : Calm (.map ids child post) := by
  intro v p s hp hl
  cases p with
  | nil => exact absurd (hl _ rfl) (by simp [Node.isLeaf])
  | cons k r =>
    rw [Node.calm]
    cases hf : (List.range ids.length).find? (fun i => pathMatchStr (k :: r) (ids.getD i "")) with
    | none => trivial
    | some i =>
      obtain ⟨hi, hk⟩ := find_string hf
      dsimp only
      rcases h i hi with h1 | h1
      · rw [hk, h1] at hp
        exact absurd (List.mem_cons_self) hp
      · refine h1 v r s (fun hm => hp (List.mem_cons_of_mem _ hm)) fun m hm => hl m ?_
        rw [Node.at, hf]
        exact hm

theorem Calm.fields {l : List (String × Node σ)} {post}
    (h : ∀ x ∈ l, x.1 = "values" ∨ Calm x.2) : Calm (.fields l post) := by
  refine Calm.map fun i hi => ?_
  rw [List.length_map] at hi
  have h1 : (l.getD i ("", Node.oob)) = l[i] := by simp [List.getD, hi]
  have h2 : (l.map Prod.fst).getD i "" = l[i].1 := by simp [List.getD, hi]
  rw [h1, h2]
  exact h _ (List.getElem_mem hi)

theorem Calm.arr {count} {elem : Nat → Node σ} (h : ∀ i, Calm (elem i)) : Calm (.arr none count elem) := by
  intro v p s hp hl
  cases p with
  | nil => exact absurd (hl _ rfl) (by simp [Node.isLeaf])
  | cons k r =>
    rw [Node.calm]
    refine ⟨Or.inr rfl, ?_⟩
    cases hf : (List.range (count s)).find? (fun i => pathMatchInt (k :: r) i) with
    | none => trivial
    | some i =>
      refine h i v r s (fun hm => hp (List.mem_cons_of_mem _ hm)) fun m hm => hl m ?_
      rw [Node.at, hf]
      exact hm

theorem Calm.deref {null} {n : Node σ} (h : Calm n) : Calm (.deref null n) := by
  intro v p s hp hl
  rw [Node.calm]
  exact h v p s hp fun m hm => hl m (by rw [Node.at]; exact hm)

theorem Calm.fixedArr {n : Nat} {elem : Fin n → Node σ} (h : ∀ i, Calm (elem i)) :
    Calm (fixedArr n elem) := by
  refine Calm.arr fun i => ?_
  split
  · exact h _
  · exact fun _ _ _ _ _ => trivial

end

macro "calm_leaf" : tactic => `(tactic| exact Or.inr fun _ _ _ _ _ => trivial)

theorem calm_axis (la : Lens Console Axis) (name : Lens Console String) : Calm (axisNode la name) := by
  unfold axisNode
  apply Calm.fields
  each
  · calm_leaf
  · exact Or.inl trivial

theorem calm_table1 (t : Lens Console (Option Table1d)) (k : Fin 10) : Calm (table1Node t k) := by
  refine Calm.deref ?_
  apply Calm.fields
  each
  · calm_leaf
  · exact Or.inr (calm_axis _ _)
  · refine Or.inr (Calm.arr fun i => ?_)
    split <;> exact fun _ _ _ _ _ => trivial

theorem calm_table2 (t : Lens Console (Option Table2d)) (k : Fin 10) : Calm (table2Node t k) := by
  refine Calm.deref ?_
  apply Calm.fields
  each
  · calm_leaf
  · exact Or.inr (calm_axis _ _)
  · exact Or.inr (calm_axis _ _)
  · refine Or.inr (Calm.arr fun i => Calm.arr fun j => ?_)
    split <;> exact fun _ _ _ _ _ => trivial

theorem calm_console [FloatFmt] [LibM] (rate : BitVec 32) (version : String) :
    Calm (consoleTree rate version) := by
  unfold consoleTree
  apply Calm.fields
  each
  · refine Or.inr ?_
    unfold decoderNode; apply Calm.fields; each
    all_goals calm_leaf
  · refine Or.inr (Calm.map fun i hi => Or.inr ?_)
    split
    · unfold sensorNode; apply Calm.fields; each
      all_goals calm_leaf
    · split
      · unfold knockNode; apply Calm.fields; each
        all_goals calm_leaf
      · unfold knockNode; apply Calm.fields; each
        all_goals calm_leaf
  · refine Or.inr (Calm.fixedArr fun i => ?_)
    unfold outputNode; apply Calm.fields; each
    all_goals calm_leaf
  · refine Or.inr ?_
    unfold fuelingNode crankNode; apply Calm.fields; each
    all_goals first
      | calm_leaf
      | (refine Or.inr ?_
         apply Calm.fields; each
         all_goals calm_leaf)
  · refine Or.inr ?_
    unfold ignitionNode; apply Calm.fields; each
    all_goals calm_leaf
  · refine Or.inr ?_
    unfold tablesNode; apply Calm.fields; each
    all_goals first
      | exact Or.inr (calm_table2 _ _)
      | exact Or.inr (calm_table1 _ _)
  · refine Or.inr ?_
    unfold boostNode; apply Calm.fields; each
    all_goals first
      | exact Or.inr (calm_table1 _ _)
      | calm_leaf
  · refine Or.inr ?_
    unfold celNode; apply Calm.fields; each
    all_goals calm_leaf
  · refine Or.inr (Calm.fixedArr fun i => ?_)
    unfold freqNode; apply Calm.fields; each
    all_goals calm_leaf
  · refine Or.inr ?_
    unfold testNode; apply Calm.fields; each
    all_goals calm_leaf
  · refine Or.inr ?_
    apply Calm.fields; each
    calm_leaf

/-! ### Single paths -/

section
variable {σ : Type}

theorem at_fields {l : List (String × Node σ)} {post} (hn : (l.map Prod.fst).Nodup) {t : String}
    {n : Node σ} (h : (t, n) ∈ l) (r : List Item) (s : σ) :
    (Node.fields l post).at (.text t :: r) s = n.at r s := by
  unfold Node.fields
  rw [Node.at]
  obtain ⟨j, hj, hjl⟩ := List.mem_iff_getElem.mp h
  cases hf : (List.range (l.map Prod.fst).length).find?
      (fun i => pathMatchStr (.text t :: r) ((l.map Prod.fst).getD i "")) with
  | none =>
    rw [List.find?_eq_none] at hf
    have := hf j (by simpa using hj)
    simp [pathMatchStr, List.getD, hj, hjl] at this
  | some i =>
    obtain ⟨hi, hk⟩ := find_string hf
    have hij : i = j := by
      have h1 : (l.map Prod.fst).getD i "" = (l.map Prod.fst)[i] := by
        rw [List.getD_eq_getElem?_getD, List.getElem?_eq_getElem hi]; rfl
      rw [h1] at hk
      have h2 : (l.map Prod.fst)[j]'(by simpa using hj) = t := by simp [hjl]
      cases hk
      exact (List.Nodup.getElem_inj_iff hn).mp h2.symm
    subst hij
    dsimp only
    rw [List.getD_eq_getElem?_getD, List.getElem?_eq_getElem hj, hjl]
    rfl

theorem at_fixedArr {n : Nat} (hn : n ≤ 2 ^ 31) {elem : Fin n → Node σ} (i : Nat) (hi : i < n) (r : List Item)
    (s : σ) : (fixedArr n elem).at (.int i :: r) s = (elem ⟨i, hi⟩).at r s := by
  unfold fixedArr
  rw [Node.at, find_index _ hn]
  have : (0 : Int) ≤ i ∧ (i : Int) < n := by omega
  simp only [this, and_self, if_true, Int.toNat_natCast, hi, dif_pos]

/-- Never a pointer: a path leads through it. -/
theorem at_not_deref {n m : Node σ} {p : List Item} {s : σ} (h : n.at p s = some m) : ∀ f k, m ≠ .deref f k := by
  induction n generalizing p with
  | map ids child post ih =>
    cases p with
    | nil => rw [Node.at] at h; cases h; simp
    | cons k r =>
      rw [Node.at] at h
      cases hf : (List.range ids.length).find? (fun i => pathMatchStr (k :: r) (ids.getD i "")) with
      | none => rw [hf] at h; cases h
      | some i => rw [hf] at h; exact ih i h
  | arr resize count elem ih =>
    cases p with
    | nil => rw [Node.at] at h; cases h; simp
    | cons k r =>
      rw [Node.at] at h
      cases hf : (List.range (count s)).find? (fun i => pathMatchInt (k :: r) i) with
      | none => rw [hf] at h; cases h
      | some i => rw [hf] at h; exact ih i h
  | deref f n ih => rw [Node.at] at h; exact ih h
  | _ =>
    cases p with
    | nil => simp only [Node.at, List.isEmpty_nil, if_true, Option.some.injEq] at h; rw [← h]; simp
    | cons k r => simp [Node.at] at h

/-- What is shown as a leaf is a leaf. -/
theorem at_leaf {n m : Node σ} {p : List Item} {s : σ} (h : n.at p s = some m) {x : Item}
    (hx : dump m s = .ok x) (hl : x.isLeaf = true) : m.isLeaf = true := by
  have hd := at_not_deref h
  cases m with
  | map ids child post =>
    rw [dump] at hx
    split at hx
    · cases hx
    · cases hx; cases hl
  | arr resize count elem =>
    rw [dump] at hx
    split at hx
    · cases hx
    · cases hx; cases hl
  | deref f k => exact absurd rfl (hd f k)
  | oob => rw [dump] at hx; cases hx
  | _ => rfl

theorem at_container {m : Node σ} {s : σ} {x : Item}
    (hx : dump m s = .ok x) (hl : x.isLeaf = false) : m.isLeaf = false := by
  cases h : m.isLeaf with
  | false => rfl
  | true => rw [dump_leaf h hx] at hl; cases hl

end

theorem follow_append (q r : List Item) (d : Item) : d.follow (q ++ r) = (d.follow q).bind (Item.follow r) := by
  induction q generalizing d with
  | nil => rfl
  | cons k q ih =>
    simp only [List.cons_append, Item.follow]
    cases Item.step k d with
    | none => rfl
    | some x => exact ih x

theorem not_pastLeaf {p : List Item} {d x : Item} (h : d.follow p = some x) : ¬PastLeaf p d := by
  rintro ⟨q, k, r, y, rfl, h1, h2⟩
  rw [follow_append, h1] at h
  simp only [Option.bind_some, Item.follow] at h
  have : Item.step k y = none := by
    cases y <;> first | rfl | cases h2
  rw [this] at h
  cases h

end Verif
