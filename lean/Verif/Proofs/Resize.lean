/-
Sets of any value: what they write, which lists they resize, and that they stay inside the tables.
-/
import Verif.Proofs.ConsoleSet

namespace Verif

section
variable {σ : Type}

/-- What the list of axis values under a node is changed by when it gets another size. -/
inductive Resizes : Node σ → σ → σ → Prop
  | here (l : Lens σ Nat) (count) (elem : Nat → Node σ) (s : σ) (k : Nat) (hk : k ≤ maxAxis) :
      Resizes (.arr (some l) count elem) s (l.set k s)
  | map {ids : List String} {child : Nat → Node σ} {post} {s s' : σ} (i : Nat) (hi : i < ids.length)
      (h : Resizes (child i) s s') : Resizes (.map ids child post) s s'
  | arr {resize count} {elem : Nat → Node σ} {s s' : σ} (i : Nat) (h : Resizes (elem i) s s') :
      Resizes (.arr resize count elem) s s'
  | deref {null} {n : Node σ} {s s' : σ} (h : Resizes n s s') : Resizes (.deref null n) s s'

/-- One change of a set. -/
def Step (I : σ → Prop) (n : Node σ) (a b : σ) : Prop := I a ∧ (Writes n a b ∨ Resizes n a b)

/-- The changes of a set. -/
def Steps (I : σ → Prop) (n : Node σ) : σ → σ → Prop := Relation.ReflTransGen (Step I n)

/-- Nothing outside an array is rendered, no list gets a size that breaks the invariant, and the hooks
fail with `E` only. -/
def Grow (I : σ → Prop) (E : Fault → Prop) : Node σ → Prop
  | .map ids child post => (∀ i < ids.length, Grow I E (child i)) ∧ ∀ s e, I s → post s = .error e → E e
  | .arr resize count elem => (∀ s i, I s → i < count s → Grow I E (elem i)) ∧
      ∀ l, resize = some l → ∀ s k, I s → k ≤ maxAxis → I (l.set k s)
  | .deref null n => (∀ s, I s → null s = false) ∧ Grow I E n
  | .oob => False
  | _ => True

/-- The outcome of a request: a result that satisfies `P`, or a failure that satisfies `E`. -/
def Out {α : Type} (P : α → Prop) (E : Fault → Prop) : Except Fault α → Prop
  | .ok a => P a
  | .error e => E e

theorem steps_mono {I : σ → Prop} {n m : Node σ} (hw : ∀ s s', Writes n s s' → Writes m s s')
    (hr : ∀ s s', Resizes n s s' → Resizes m s s') {s s' : σ} (h : Steps I n s s') : Steps I m s s' := by
  induction h with
  | refl => exact .refl
  | tail _ hs ih => exact ih.tail ⟨hs.1, hs.2.imp (hw _ _) (hr _ _)⟩

theorem fieldLoop_inv {desc : Nat → RSt σ → Option (Bool × Option Item × RSt σ)} {f body}
    (P : σ → Prop) (E : Fault → Prop)
    (hd : ∀ i st x, desc i st = some x → x.2.2.s = st.s) (is : List Nat)
    (hb : ∀ i ∈ is, ∀ b v st, P st.s → Out (fun st' => P st'.s) E (body i b v st)) (done : Bool) (st : RSt σ)
    (hp : P st.s) : Out (fun x : Bool × RSt σ => P x.2.s) E (fieldLoop desc f body is done st) := by
  induction is generalizing done st with
  | nil => exact hp
  | cons i is ih =>
    have ih := ih fun j hj => hb j (by simp [hj])
    rw [fieldLoop]
    split
    · exact ih _ _ hp
    · split
      · exact ih _ _ hp
      · rename_i b v st' hds
        have h1 : st'.s = st.s := hd _ _ _ hds
        have h2 := hb i (by simp) b v st' (by rw [h1]; exact hp)
        split
        · rename_i e he
          rw [he] at h2
          exact h2
        · rename_i st'' he
          rw [he] at h2
          exact ih _ _ h2

theorem descend_s {hit f v key} {st : RSt σ} {x} (h : descend hit f v key st = some x) : x.2.2.s = st.s := by
  unfold descend at h
  split at h
  · cases h
  · split at h
    · split at h
      · cases h; rfl
      · cases h
    · cases h; rfl

theorem addNull_s (f c : Bool) (st : RSt σ) : (addNull f c st).s = st.s := by
  unfold addNull; split <;> rfl
theorem wrap_s (f : Bool) (mk : List Item → Item) (o : List Item) (st : RSt σ) : (wrap f mk o st).s = st.s := by
  unfold wrap; split <;> rfl
theorem openOut_s (f : Bool) (st : RSt σ) : (openOut f st).s = st.s := by
  unfold openOut; split <;> rfl

theorem resizeTo_cases (b : Bool) (v : Option Item) (resize : Option (Lens σ Nat)) (s : σ) :
    resizeTo b v resize s = s ∨ ∃ l k, resize = some l ∧ k ≤ maxAxis ∧ resizeTo b v resize s = l.set k s := by
  unfold resizeTo
  split
  · split
    · exact Or.inr ⟨_, _, rfl, min_le_right _ _, rfl⟩
    · exact Or.inl rfl
  · exact Or.inl rfl

variable [FloatFmt]

/-- Any request: the configuration is changed by writes and resizes under the node only, and nothing
outside the tables is accessed. -/
theorem render_any {I : σ → Prop} {E : Fault → Prop} (n : Node σ) (hw : WF I n) (hg : Grow I E n)
    (b f : Bool) (v : Option Item) (st : RSt σ) (hi : I st.s) :
    Out (fun st' => I st'.s ∧ Steps I n st.s st'.s) E (render n b f v st) := by
  induction n generalizing f v st with
  | u32 l =>
    rw [render]
    cases b
    · exact ⟨hi, .refl⟩
    · cases u32Of v with
      | none => exact ⟨hi, .refl⟩
      | some w => exact ⟨(hw _ w hi).2, .single ⟨hi, .inl (.u32 l _ w)⟩⟩
  | flt l =>
    rw [render]
    cases b
    · exact ⟨hi, .refl⟩
    · cases floatOf v with
      | none => exact ⟨hi, .refl⟩
      | some w => exact ⟨(hw _ w hi).2, .single ⟨hi, .inl (.flt l _ w)⟩⟩
  | bool l =>
    rw [render]
    cases b
    · exact ⟨hi, .refl⟩
    · cases boolOf v with
      | none => exact ⟨hi, .refl⟩
      | some w => exact ⟨(hw _ w hi).2, .single ⟨hi, .inl (.bool l _ w)⟩⟩
  | text l =>
    rw [render]
    cases b
    · exact ⟨hi, .refl⟩
    · cases titleOf v with
      | none => exact ⟨hi, .refl⟩
      | some w => exact ⟨(hw _ w hi).2, .single ⟨hi, .inl (.text l _ w)⟩⟩
  | enum c l =>
    rw [render]
    exact ⟨hw.1 _ _ hi, .single ⟨hi, .inl (.enum c l _ _)⟩⟩
  | const t => exact ⟨hi, .refl⟩
  | map ids child post ih =>
    obtain ⟨hw1, hw2, hw3⟩ := hw
    obtain ⟨hg1, hg2⟩ := hg
    rw [render]
    have hloop := fieldLoop_inv (desc := fun i => descendMap b f v (ids.getD i "")) (f := f)
      (body := fun i f v st' => render (child i) b f v st')
      (fun s => I s ∧ Steps I (.map ids child post) st.s s) E (fun i st x h => descend_s h)
      (List.range ids.length) (fun i him f' v' st' hp => by
        have hil := List.mem_range.mp him
        have := ih i (hw1 i hil) (hg1 i hil) f' v' st' hp.1
        revert this
        cases render (child i) b f' v' st' with
        | error e => exact id
        | ok st'' => exact fun h => ⟨h.1, hp.2.trans
            (steps_mono (fun _ _ h => .map i hil h) (fun _ _ h => .map i hil h) h.2)⟩)
      false (openOut f st) (by rw [openOut_s]; exact ⟨hi, .refl⟩)
    revert hloop
    cases fieldLoop (fun i => descendMap b f v (ids.getD i "")) f (fun i f v st' => render (child i) b f v st')
      (List.range ids.length) false (openOut f st) with
    | error e => exact id
    | ok x =>
      obtain ⟨done, st1⟩ := x
      intro hl
      obtain ⟨hl1, hl2⟩ : I st1.s ∧ Steps I (.map ids child post) st.s st1.s := hl
      dsimp only
      cases b
      · simp only [Bool.false_eq_true, if_false, Out, wrap_s, addNull_s]
        exact ⟨hl1, hl2⟩
      · simp only [if_true]
        cases hp : post st1.s with
        | error e => exact hg2 _ _ hl1 hp
        | ok s2 =>
          simp only [Out, wrap_s, addNull_s]
          exact ⟨(hw3 _ _ hl1 hp).1, hl2.tail ⟨hl1, .inl (.post hp)⟩⟩
  | arr resize count elem ih =>
    obtain ⟨hw1, hw2, hw3, hw4⟩ := hw
    obtain ⟨hg1, hg2⟩ := hg
    rw [render]
    obtain ⟨h0, h0'⟩ : I (resizeTo b v resize st.s) ∧
        Steps I (.arr resize count elem) st.s (resizeTo b v resize st.s) := by
      rcases resizeTo_cases b v resize st.s with h | ⟨l, k, rfl, hk, h⟩
      · rw [h]; exact ⟨hi, .refl⟩
      · rw [h]; exact ⟨hg2 l rfl _ _ hi hk, .single ⟨hi, .inr (.here l count elem _ k hk)⟩⟩
    generalize resizeTo b v resize st.s = s0 at h0 h0'
    have hloop := fieldLoop_inv (desc := descendArr b f v) (f := f)
      (body := fun i f v st' => render (elem i) b f v st')
      (fun s => I s ∧ Steps I (.arr resize count elem) st.s s) E (fun i st x h => descend_s h)
      (List.range (count (openOut f { st with s := s0 }).s)) (fun i him f' v' st' hp => by
        have hil := List.mem_range.mp him
        rw [openOut_s] at hil
        have := ih i (hw1 i) (hg1 _ i h0 hil) f' v' st' hp.1
        revert this
        cases render (elem i) b f' v' st' with
        | error e => exact id
        | ok st'' => exact fun h => ⟨h.1, hp.2.trans
            (steps_mono (fun _ _ h => .arr i h) (fun _ _ h => .arr i h) h.2)⟩)
      false (openOut f { st with s := s0 }) (by rw [openOut_s]; exact ⟨h0, h0'⟩)
    revert hloop
    cases fieldLoop (descendArr b f v) f (fun i f v st' => render (elem i) b f v st')
      (List.range (count (openOut f { st with s := s0 }).s)) false (openOut f { st with s := s0 }) with
    | error e => exact id
    | ok x =>
      obtain ⟨done, st1⟩ := x
      intro hl
      obtain ⟨hl1, hl2⟩ : I st1.s ∧ Steps I (.arr resize count elem) st.s st1.s := hl
      simp only [Out, wrap_s, addNull_s]
      exact ⟨hl1, hl2⟩
  | deref null n ih =>
    rw [render, hg.1 _ hi]
    have := ih hw.1 hg.2 f v st hi
    revert this
    simp only [Bool.false_eq_true, if_false]
    cases render n b f v st with
    | error e => exact id
    | ok st' => exact fun h => ⟨h.1, steps_mono (fun _ _ h => .deref h) (fun _ _ h => .deref h) h.2⟩
  | oob => exact hg.elim

/-- Resizing under `n` leaves `r` alone. -/
def KeepsR {ρ : Type} (I : σ → Prop) (r : σ → ρ) (n : Node σ) : Prop :=
  ∀ s s', I s → Resizes n s s' → r s' = r s

omit [FloatFmt] in
theorem steps_keep {ρ : Type} {I : σ → Prop} {r : σ → ρ} {n : Node σ} (hk : Keeps I r n) (hr : KeepsR I r n)
    {s s' : σ} (h : Steps I n s s') : r s' = r s := by
  induction h with
  | refl => rfl
  | tail _ hs ih =>
    rw [← ih]
    rcases hs.2 with h | h
    · exact hk _ _ hs.1 h
    · exact hr _ _ hs.1 h

end

/-! ### The console's tree -/

section
variable {I : Console → Prop}

/-- No list under the node has a size that can be set. -/
def Fixed {σ : Type} (n : Node σ) : Prop := ∀ s s', ¬Resizes n s s'

theorem Fixed.keeps {σ ρ : Type} {I : σ → Prop} {r : σ → ρ} {n : Node σ} (h : Fixed n) : KeepsR I r n :=
  fun s s' _ hr => (h s s' hr).elim

theorem fixed_fields {σ : Type} {l : List (String × Node σ)} {post} (h : ∀ x ∈ l, Fixed x.2) :
    Fixed (.fields l post) := by
  intro s s' hr
  cases hr with
  | map i hil hr =>
    rw [List.length_map] at hil
    have : (l.getD i ("", Node.oob)) = l[i] := by simp [List.getD, hil]
    dsimp only at hr
    rw [this] at hr
    exact h _ (List.getElem_mem hil) _ _ hr

theorem fixed_fixedArr {σ : Type} {n : Nat} {elem : Fin n → Node σ} (h : ∀ i, Fixed (elem i)) :
    Fixed (fixedArr n elem) := by
  intro s s' hr
  cases hr with
  | arr i hr =>
    dsimp only at hr
    split at hr
    · exact h _ _ _ hr
    · cases hr

theorem keepsR_fields {σ ρ : Type} {I : σ → Prop} {r : σ → ρ} {l : List (String × Node σ)} {post}
    (h : ∀ x ∈ l, KeepsR I r x.2) : KeepsR I r (.fields l post) := by
  intro s s' hs hw
  cases hw with
  | map i hil hw =>
    rw [List.length_map] at hil
    have : (l.getD i ("", Node.oob)) = l[i] := by simp [List.getD, hil]
    dsimp only at hw
    rw [this] at hw
    exact h _ (List.getElem_mem hil) s s' hs hw

theorem grow_fields {σ : Type} {I : σ → Prop} {E : Fault → Prop} {l : List (String × Node σ)} {post}
    (h : ∀ x ∈ l, Grow I E x.2) (hp : ∀ s e, I s → post s = .error e → E e) : Grow I E (.fields l post) := by
  refine ⟨fun i hil => ?_, hp⟩
  rw [List.length_map] at hil
  have : (l.getD i ("", Node.oob)) = l[i] := by simp [List.getD, hil]
  dsimp only
  rw [this]
  exact h _ (List.getElem_mem hil)

theorem grow_fixedArr {σ : Type} {I : σ → Prop} {E : Fault → Prop} {n : Nat} {elem : Fin n → Node σ}
    (h : ∀ i, Grow I E (elem i)) : Grow I E (fixedArr n elem) := by
  refine ⟨fun s i _ hil => ?_, fun l hl => by cases hl⟩
  have hil : i < n := hil
  simp only [hil, dif_pos]
  exact h _

theorem no_error {σ : Type} {I : σ → Prop} {E : Fault → Prop} (s : σ) (e : Fault) (_ : I s)
    (h : (Except.ok s : Except Fault σ) = .error e) : E e := by cases h

macro "fixed_leaf" : tactic => `(tactic| exact fun _ _ h => by cases h)
macro "fixed_plain" : tactic => `(tactic| (apply fixed_fields; each; all_goals fixed_leaf))

theorem fixed_output (l : Lens Console OEvent) : Fixed (outputNode l) := by unfold outputNode; fixed_plain
theorem fixed_sensor (l : Lens Console Sensor) : Fixed (sensorNode l) := by unfold sensorNode; fixed_plain
theorem fixed_freq (l : Lens Console FreqInput) : Fixed (freqNode l) := by unfold freqNode; fixed_plain
theorem fixed_decoder : Fixed decoderNode := by unfold decoderNode; fixed_plain
theorem fixed_crank : Fixed crankNode := by unfold crankNode; fixed_plain
theorem fixed_fueling : Fixed fuelingNode := by
  unfold fuelingNode; apply fixed_fields; each
  all_goals first
    | exact fixed_crank
    | fixed_leaf
theorem fixed_ignition : Fixed ignitionNode := by unfold ignitionNode; fixed_plain
theorem fixed_cel : Fixed celNode := by unfold celNode; fixed_plain
theorem fixed_test : Fixed testNode := by unfold testNode; fixed_plain
theorem fixed_outputs : Fixed outputsNode := fixed_fixedArr fun _ => fixed_output _
theorem fixed_freqList : Fixed freqListNode := fixed_fixedArr fun _ => fixed_freq _
theorem fixed_info (v : String) : Fixed (σ := Console) (.fields [("version", .const v)]) := by fixed_plain

section
variable [FloatFmt] [LibM]
theorem fixed_knock (rate : BitVec 32) (l : Lens Console Knock) : Fixed (knockNode rate l) := by
  unfold knockNode; fixed_plain
theorem fixed_sensors (rate : BitVec 32) : Fixed (sensorsNode rate) := by
  intro s s' hr
  cases hr with
  | map i hil hr =>
    dsimp only at hr
    split at hr
    · exact fixed_sensor _ _ _ hr
    · split at hr <;> exact fixed_knock _ _ _ _ hr
end

/-- The values of an axis get another number. -/
theorem resizes_axis {la : Lens Console Axis} {name : Lens Console String} {s s' : Console}
    (h : Resizes (axisNode la name) s s') : ∃ k ≤ maxAxis, s' = la.set { la.get s with num := k } s := by
  unfold axisNode at h
  cases h with
  | map i hil h =>
    have hil : i < 2 := hil
    interval_cases i
    · cases h
    · cases h with
      | here l count elem s k hk => exact ⟨k, hk, rfl⟩
      | arr i h =>
        dsimp only at h
        split at h <;> cases h

theorem keepsR_axis {ρ : Type} {r : Console → ρ} {la : Lens Console Axis} {name : Lens Console String}
    (h : ∀ s a, I s → r (la.set a s) = r s) : KeepsR I r (axisNode la name) := by
  intro s s' hs hr
  obtain ⟨k, _, rfl⟩ := resizes_axis hr
  exact h _ _ hs

theorem fixed_data1 {t : Lens Console (Option Table1d)} :
    Fixed (.arr none (fun c => ((t.comp (Lens.some noTable1)).get c).cols.num) fun i =>
      if h : i < maxAxis then
        .flt ((t.comp (Lens.some noTable1)).comp (Lens.comp (fld% data) (Lens.ix ⟨i, h⟩))) else .oob) := by
  intro s s' h
  cases h with
  | arr i h =>
    dsimp only at h
    split at h <;> cases h

theorem fixed_data2 {t : Lens Console (Option Table2d)} : Fixed (data2Node t) := by
  intro s s' h
  unfold data2Node at h
  cases h with
  | arr i h =>
    unfold data2Row at h
    cases h with
    | arr j h =>
      dsimp only at h
      split at h <;> cases h

theorem keepsR_table1 {ρ : Type} {r : Console → ρ} {t : Lens Console (Option Table1d)} {k : Fin 10}
    (hr : ∀ s a, r (t.set a s) = r s) : KeepsR I r (table1Node t k) := by
  intro s s' hs hw
  cases hw with
  | deref hw =>
    revert s s'
    apply keepsR_fields
    each
    · exact Fixed.keeps (by fixed_leaf)
    · exact keepsR_axis fun s a _ => hr _ _
    · exact fixed_data1.keeps

theorem keepsR_table2 {ρ : Type} {r : Console → ρ} {t : Lens Console (Option Table2d)} {k : Fin 10}
    (hr : ∀ s a, r (t.set a s) = r s) : KeepsR I r (table2Node t k) := by
  intro s s' hs hw
  rw [table2Node_eq] at hw
  cases hw with
  | deref hw =>
    revert s s'
    apply keepsR_fields
    each
    · exact Fixed.keeps (by fixed_leaf)
    · exact keepsR_axis fun s a _ => hr _ _
    · exact keepsR_axis fun s a _ => hr _ _
    · exact fixed_data2.keeps

theorem keepsR_tables {ρ : Type} {r : Console → ρ} (h0 : ∀ s a, r ((fld% cfg.ve).set a s) = r s)
    (h1 : ∀ s a, r ((fld% cfg.lambda).set a s) = r s) (h2 : ∀ s a, r ((fld% cfg.dwell).set a s) = r s)
    (h3 : ∀ s a, r ((fld% cfg.timing).set a s) = r s) (h4 : ∀ s a, r ((fld% cfg.deadtime).set a s) = r s)
    (h5 : ∀ s a, r ((fld% cfg.pwCorrection).set a s) = r s)
    (h6 : ∀ s a, r ((fld% cfg.tempEnrich).set a s) = r s)
    (h7 : ∀ s a, r ((fld% cfg.tipinAmount).set a s) = r s)
    (h8 : ∀ s a, r ((fld% cfg.tipinDuration).set a s) = r s) : KeepsR I r tablesNode := by
  unfold tablesNode
  apply keepsR_fields
  each
  all_goals first
    | exact keepsR_table1 (by assumption)
    | exact keepsR_table2 (by assumption)

theorem keepsR_boost {ρ : Type} {r : Console → ρ} (h : ∀ s a, r ((fld% cfg.boost.duty).set a s) = r s) :
    KeepsR I r boostNode := by
  unfold boostNode
  apply keepsR_fields
  each
  all_goals first
    | exact keepsR_table1 h
    | exact Fixed.keeps (by fixed_leaf)

/-- An axis that may have any size up to 24. -/
theorem grow_axis {E : Fault → Prop} {la : Lens Console Axis} {name : Lens Console String}
    (h : ∀ s k, Loaded s → k ≤ maxAxis → Loaded (la.set { la.get s with num := k } s)) :
    Grow Loaded E (axisNode la name) := by
  unfold axisNode
  refine grow_fields ?_ no_error
  each
  · trivial
  · refine ⟨fun s i _ hi => ?_, fun l hl s k hs hk => ?_⟩
    · have : i < maxAxis := lt_of_lt_of_le hi (min_le_right _ _)
      simp only [this, dif_pos]
      trivial
    · cases hl
      exact h s k hs hk

theorem grow_table1 {E : Fault → Prop} {t : Lens Console (Option Table1d)} (h : TabL Has1 t) (k : Fin 10) :
    Grow Loaded E (table1Node t k) := by
  refine ⟨fun s hs => ?_, ?_⟩
  · obtain ⟨T, hT, _⟩ := h.has s hs
    simp [hT]
  · refine grow_fields ?_ no_error
    each
    · trivial
    · refine grow_axis fun s k hs hk => h.inv _ _ hs ?_
      obtain ⟨T, hT, _⟩ := h.has s hs
      simp only [Lens.comp, Lens.some, hT, Option.getD_some, Option.map_some]
      exact ⟨_, rfl, hk⟩
    · refine ⟨fun s i hs hi => ?_, fun l hl => by cases hl⟩
      obtain ⟨T, hT, hn⟩ := h.has s hs
      simp only [Lens.comp, Lens.some, hT, Option.getD_some] at hi
      have : i < maxAxis := by omega
      simp only [this, dif_pos]
      trivial

theorem grow_table2 {E : Fault → Prop} {t : Lens Console (Option Table2d)} (h : TabL Has2 t) (k : Fin 10) :
    Grow Loaded E (table2Node t k) := by
  rw [table2Node_eq]
  refine ⟨fun s hs => ?_, ?_⟩
  · obtain ⟨T, hT, _⟩ := h.has s hs
    simp [hT]
  · refine grow_fields ?_ no_error
    each
    · trivial
    · refine grow_axis fun s k hs hk => h.inv _ _ hs ?_
      obtain ⟨T, hT, h1, h2⟩ := h.has s hs
      simp only [Lens.comp, Lens.some, hT, Option.getD_some, Option.map_some]
      exact ⟨_, rfl, h1, hk⟩
    · refine grow_axis fun s k hs hk => h.inv _ _ hs ?_
      obtain ⟨T, hT, h1, h2⟩ := h.has s hs
      simp only [Lens.comp, Lens.some, hT, Option.getD_some, Option.map_some]
      exact ⟨_, rfl, hk, h2⟩
    · refine ⟨fun s i hs hi => ⟨fun s' j hs' hj => ?_, fun l hl => by cases hl⟩, fun l hl => by cases hl⟩
      obtain ⟨T, hT, hn, hm⟩ := h.has s hs
      obtain ⟨T', hT', hn', hm'⟩ := h.has s' hs'
      simp only [Lens.comp, Lens.some, hT, Option.getD_some] at hi
      simp only [Lens.comp, Lens.some, hT', Option.getD_some] at hj
      have h1 : i < maxAxis := by omega
      have h2 : j < maxAxis := by omega
      simp only [h1, h2, and_self, dif_pos]
      trivial

macro "grow_plain" : tactic => `(tactic| (refine grow_fields ?_ no_error; each; all_goals trivial))

variable [FloatFmt] [LibM]

/-- The failures of a knock sensor's frequency. -/
def KnockFails (rate : BitVec 32) (e : Fault) : Prop := ∃ k, knockConfigure rate k = .error e

theorem knockPost_fails {rate : BitVec 32} {s : Console} {e : Fault} (h : knockPost rate s = .error e) :
    KnockFails rate e := by
  unfold knockPost at h
  cases h0 : knockConfigure rate (s.cfg.knock 0) with
  | error e' => rw [h0] at h; cases h; exact ⟨_, h0⟩
  | ok k0 =>
    cases h1 : knockConfigure rate (s.cfg.knock 1) with
    | error e' => rw [h0, except_bind_ok, h1] at h; cases h; exact ⟨_, h1⟩
    | ok k1 => rw [h0, except_bind_ok, h1] at h; cases h

theorem grow_console (rate : BitVec 32) (version : String) :
    Grow Loaded (KnockFails rate) (consoleTree rate version) := by
  unfold consoleTree
  refine grow_fields ?_ no_error
  each
  · unfold decoderNode; grow_plain
  · refine ⟨fun i hi => ?_, no_error⟩
    dsimp only
    split
    · unfold sensorNode; grow_plain
    · split
      all_goals
        refine grow_fields ?_ fun s e _ h => knockPost_fails h
        each
        all_goals trivial
  · exact grow_fixedArr fun i => by unfold outputNode; grow_plain
  · unfold fuelingNode crankNode; refine grow_fields ?_ no_error; each
    all_goals first
      | trivial
      | grow_plain
  · unfold ignitionNode; grow_plain
  · unfold tablesNode; refine grow_fields ?_ no_error; each
    all_goals first
      | exact grow_table2 (by tab_any) _
      | exact grow_table1 (by tab_any) _
  · unfold boostNode; refine grow_fields ?_ no_error; each
    all_goals first
      | exact grow_table1 tab_duty _
      | trivial
  · unfold celNode; grow_plain
  · exact grow_fixedArr fun i => by unfold freqNode; grow_plain
  · unfold testNode; grow_plain
  · grow_plain

theorem keepsR_hidden (rate : BitVec 32) (version : String) :
    KeepsR I Console.hidden (consoleTree rate version) := by
  unfold consoleTree
  apply keepsR_fields
  each
  · exact fixed_decoder.keeps
  · exact (fixed_sensors rate).keeps
  · exact fixed_outputs.keeps
  · exact fixed_fueling.keeps
  · exact fixed_ignition.keeps
  · refine keepsR_tables ?_ ?_ ?_ ?_ ?_ ?_ ?_ ?_ ?_ <;> (intros; rfl)
  · exact keepsR_boost (by intros; rfl)
  · exact fixed_cel.keeps
  · exact fixed_freqList.keeps
  · exact fixed_test.keeps
  · exact (fixed_info version).keeps

end

end Verif
