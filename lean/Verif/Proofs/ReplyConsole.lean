/-
Bounds for the length of what each part of the console's tree answers.
-/
import Mathlib.Tactic.IntervalCases
import Verif.Proofs.ReplySize

namespace Verif

section
variable [FloatFmt]

/-- What a list of fields takes. -/
def fieldsBound : List (String × Nat) → Nat
  | [] => 0
  | x :: l => (Item.text x.1).size + x.2 + fieldsBound l

omit [FloatFmt] in
theorem sum_fields : ∀ (ids : List String) (ks : List Nat), ids.length = ks.length →
    ((List.range ids.length).map fun i => (Item.text (ids.getD i "")).size + ks.getD i 0).sum = fieldsBound (ids.zip ks)
  | [], [], _ => rfl
  | id :: ids, k :: ks, h => by
    have := sum_fields ids ks (by simpa using h)
    rw [List.length_cons, List.range_succ_eq_map, List.map_cons, List.map_map, List.sum_cons]
    simp only [List.zip_cons_cons, fieldsBound, ← this]
    rfl
  | [], _ :: _, h => by cases h
  | _ :: _, [], h => by cases h

theorem small_getD {σ : Type} {b : Bool} {I : σ → Prop} {l : List (String × Node σ)} {ks : List Nat}
    (h : List.Forall₂ (fun x k => Small b I x.2 k) l ks) {i : Nat} (hi : i < l.length) :
    Small b I (l.getD i ("", .oob)).2 (ks.getD i 0) := by
  have hlen := h.length_eq
  have := List.Forall₂.get h hi (by omega)
  simpa [List.getD, hi, hlen ▸ hi] using this

theorem small_fields {σ : Type} {b : Bool} {I : σ → Prop} {l : List (String × Node σ)} {post} (ks : List Nat)
    (h : List.Forall₂ (fun x k => Small b I x.2 k) l ks) (hp : ∀ s s', I s → post s = .ok s' → I s') :
    Small b I (.fields l post) (2 + fieldsBound ((l.map Prod.fst).zip ks)) := by
  have h1 : Small b I (.fields l post) (fieldsSize (l.map Prod.fst) fun i => ks.getD i 0) :=
    small_map (fun i hi => small_getD h (by simpa using hi)) hp
  refine h1.mono ?_
  unfold fieldsSize
  rw [sum_fields _ _ (by simpa using h.length_eq)]

omit [FloatFmt] in
theorem keep_ok {σ : Type} {I : σ → Prop} : ∀ s s', I s → (Except.ok s : Except Fault σ) = .ok s' → I s' := by
  intro s s' h h1
  cases h1
  exact h

variable {b : Bool} {rows cols : Fin 10 → Nat}

/-- Leaves that are neither tables nor texts. -/
macro "leaves" : tactic => `(tactic| repeat' first
  | exact List.Forall₂.nil
  | refine List.Forall₂.cons ?_ ?_
  | exact small_flt (fun _ _ h => { h with })
  | exact small_u32 (fun _ _ h => { h with })
  | exact small_bool (fun _ _ h => { h with })
  | exact small_enum (fun _ _ h => { h with }) (by decide) (by decide) (by decide))

/-- The names of the fields, then the numbers. -/
macro "names" : tactic => `(tactic| (simp only [List.map_cons, List.map_nil]; decide))

theorem small_decoder : Small b (Sized rows cols) decoderNode 201 :=
  (small_fields [5, 5, 5, 5, 5, 16, 5, 5, 5, 5] (by leaves) keep_ok).mono (by names)

/-- Leaves inside a member of which any value will do. -/
macro "inner" hl:term : tactic => `(tactic| repeat' first
  | exact List.Forall₂.nil
  | refine List.Forall₂.cons ?_ ?_
  | exact small_flt (fun _ _ h => $hl _ _ h)
  | exact small_u32 (fun _ _ h => $hl _ _ h)
  | exact small_bool (fun _ _ h => $hl _ _ h)
  | exact small_enum (fun _ _ h => $hl _ _ h) (by decide) (by decide) (by decide))

theorem small_output (l : Lens Console OEvent) (hl : l.Free (Sized rows cols)) :
    Small b (Sized rows cols) (outputNode l) 46 :=
  (small_fields [5, 1, 5, 9] (by inner hl) keep_ok).mono (by names)

theorem small_fixed {σ : Type} {I : σ → Prop} {n k : Nat} {elem : Fin n → Node σ} (h : ∀ i, Small b I (elem i) k) :
    Small b I (fixedArr n elem) (2 + n * k) := by
  refine small_arr (fun l hl => by cases hl) (fun _ _ => le_refl _) fun i hi => ?_
  rw [dif_pos hi]
  exact h _

theorem small_outputs : Small b (Sized rows cols) outputsNode 738 :=
  small_fixed (k := 46) fun _ => small_output _ fun _ _ h => { h with }

theorem small_sensor (l : Lens Console Sensor) (hl : l.Free (Sized rows cols)) :
    Small b (Sized rows cols) (sensorNode l) 303 :=
  (small_fields [5, 5, 11, 14, 5, 5, 5, 5, 5, 5, 5, 5, 5, 5, 5, 5, 5, 5, 5] (by inner hl) keep_ok).mono (by names)

variable [LibM] (rate : BitVec 32) (version : String)

omit [FloatFmt] [LibM] in
theorem keep_knock [FloatFmt] [LibM] : ∀ s s', Sized rows cols s → knockPost rate s = .ok s' → Sized rows cols s' := by
  intro s s' h h1
  unfold knockPost at h1
  cases h2 : knockConfigure rate (s.cfg.knock 0) with
  | error e => rw [h2] at h1; cases h1
  | ok k0 =>
    cases h3 : knockConfigure rate (s.cfg.knock 1) with
    | error e => rw [h2, h3] at h1; cases h1
    | ok k1 =>
      rw [h2, h3] at h1
      cases h1
      exact { h with }

theorem small_knock (l : Lens Console Knock) (hl : l.Free (Sized rows cols)) :
    Small b (Sized rows cols) (knockNode rate l) 32 :=
  (small_fields [5, 5] (by inner hl) (keep_knock rate)).mono (by names)

theorem small_sensors : Small b (Sized rows cols) (sensorsNode rate) 3150 := by
  have h := small_map (b := b) (I := Sized rows cols) (ids := sensorNames ++ ["knock1", "knock2"]) (post := .ok)
    (child := fun i =>
      if h : i < numSensors then sensorNode (Lens.comp (fld% cfg.sensors) (Lens.ix ⟨i, h⟩))
      else if i = 10 then knockNode rate (Lens.comp (fld% cfg.knock) (Lens.ix 0))
      else knockNode rate (Lens.comp (fld% cfg.knock) (Lens.ix 1)))
    (k := fun i => if i < 10 then 303 else 32)
    (by
      intro i _
      by_cases h1 : i < numSensors
      · rw [dif_pos h1, if_pos h1]
        exact small_sensor _ fun _ _ h => { h with }
      · rw [dif_neg h1, if_neg h1]
        split
        · exact small_knock rate _ fun _ _ h => { h with }
        · exact small_knock rate _ fun _ _ h => { h with })
    keep_ok
  exact h.mono (by decide)

end

/-! ### Tables -/

section
variable [FloatFmt] {b : Bool} {rows cols : Fin 10 → Nat}

/-- The title of a table and the names of its axes. -/
theorem small_titleText (k : Fin 10) :
    Small b (Sized rows cols) (.text (Lens.comp (fld% title) (Lens.ix k)) : Node Console) 26 := by
  refine small_text (fun s h => h.title k) fun v s hv h => { h with title := ?_ }
  intro j
  simp only [Lens.comp, Lens.ix]
  split
  · exact hv
  · exact h.title j

theorem small_colText (k : Fin 10) :
    Small b (Sized rows cols) (.text (Lens.comp (fld% colName) (Lens.ix k)) : Node Console) 26 := by
  refine small_text (fun s h => h.colName k) fun v s hv h => { h with colName := ?_ }
  intro j
  simp only [Lens.comp, Lens.ix]
  split
  · exact hv
  · exact h.colName j

theorem small_rowText (k : Fin 10) :
    Small b (Sized rows cols) (.text (Lens.comp (fld% rowName) (Lens.ix k)) : Node Console) 26 := by
  refine small_text (fun s h => h.rowName k) fun v s hv h => { h with rowName := ?_ }
  intro j
  simp only [Lens.comp, Lens.ix]
  split
  · exact hv
  · exact h.rowName j

theorem small_axis {I : Console → Prop} {l : Lens Console Axis} {name : Lens Console String} {n : Nat}
    (hname : Small b I (.text name) 26) (hn : ∀ s, I s → (l.get s).num ≤ n)
    (hv : ∀ s vs, I s → I (l.set { l.get s with values := vs } s))
    (hr : b = true → ∀ s j, j ≤ 24 → I s → I (l.set { l.get s with num := j } s)) :
    Small b I (axisNode l name) (42 + 5 * n) := by
  have h := small_fields (b := b) (I := I) (post := .ok) (l := [
    ("name", .text name),
    ("values", .arr (some (l.comp (fld% num))) (fun c => min (l.get c).num maxAxis) fun i =>
      if h : i < maxAxis then .flt (l.comp (Lens.comp (fld% values) (Lens.ix ⟨i, h⟩))) else .oob)])
    [26, 2 + n * 5] (.cons hname (.cons (small_arr (fun l' hl hb j s hj hs => ?_)
      (fun s hs => (Nat.min_le_left _ _).trans (hn s hs)) fun i _ => ?_) .nil)) keep_ok
  · refine h.mono ?_
    simp only [List.map_cons, List.map_nil, List.zip_cons_cons, List.zip_nil_right, fieldsBound]
    rw [show (Item.text "name").size = 5 from rfl, show (Item.text "values").size = 7 from rfl]
    omega
  · cases hl
    exact hr hb s j hj hs
  · split
    · exact small_flt fun v s hs => hv s _ hs
    · exact small_oob

theorem small_table1 (t : Lens Console (Option Table1d)) (k : Fin 10)
    (hg : ∀ s, Sized rows cols s → ∀ T, t.get s = some T → T.cols.num ≤ cols k)
    (hs : ∀ s o, Sized rows cols s → (∀ T, o = some T → T.cols.num ≤ cols k) → Sized rows cols (t.set o s))
    (hb : b = true → 24 ≤ cols k) :
    Small b (Sized rows cols) (table1Node t k) (99 + 10 * cols k) := by
  have hset : ∀ (s : Console) (f : Table1d → Table1d), Sized rows cols s →
      (∀ T, t.get s = some T → (f T).cols.num ≤ cols k) →
      Sized rows cols ((t.comp (Lens.some noTable1)).set (f ((t.comp (Lens.some noTable1)).get s)) s) := by
    intro s f h hf
    refine hs _ _ h fun T hT => ?_
    cases ht : t.get s with
    | none => rw [ht] at hT; cases hT
    | some T0 =>
      rw [ht] at hT
      cases hT
      simp only [Lens.comp, Lens.some, ht, Option.getD_some]
      exact hf T0 ht
  have hget : ∀ s, Sized rows cols s → ((t.comp (Lens.some noTable1)).get s).cols.num ≤ cols k := by
    intro s h
    simp only [Lens.comp, Lens.some]
    cases ht : t.get s with
    | none => exact Nat.zero_le _
    | some T => exact hg s h T ht
  unfold table1Node
  refine small_deref ?_
  have h := small_fields (b := b) (I := Sized rows cols) (post := .ok) (l := [
    ("title", .text (Lens.comp (fld% title) (Lens.ix k))),
    ("horizontal-axis", axisNode ((t.comp (Lens.some noTable1)).comp (fld% cols)) (Lens.comp (fld% colName) (Lens.ix k))),
    ("data", .arr none (fun c => ((t.comp (Lens.some noTable1)).get c).cols.num) fun i =>
      if h : i < maxAxis then
        .flt ((t.comp (Lens.some noTable1)).comp (Lens.comp (fld% data) (Lens.ix ⟨i, h⟩))) else .oob)])
    [26, 42 + 5 * cols k, 2 + cols k * 5]
    (.cons (small_titleText k) (.cons (small_axis (small_colText k) hget
      (fun s vs h => hset s (fun T => { T with cols := { T.cols with values := vs } }) h (hg s h))
      (fun hbt s j hj h => hset s (fun T => { T with cols := { T.cols with num := j } }) h
        fun _ _ => hj.trans (hb hbt)))
      (.cons (small_arr (fun _ hl => by cases hl) hget fun i _ => ?_) .nil))) keep_ok
  · refine h.mono ?_
    simp only [List.map_cons, List.map_nil, List.zip_cons_cons, List.zip_nil_right, fieldsBound]
    rw [show (Item.text "title").size = 6 from rfl, show (Item.text "horizontal-axis").size = 16 from rfl,
      show (Item.text "data").size = 5 from rfl]
    omega
  · split
    · rename_i hi
      refine small_flt fun v s h => ?_
      have := hset s (fun T => { T with data := (Lens.ix ⟨i, hi⟩).set v T.data }) h (hg s h)
      exact this
    · exact small_oob

theorem small_table2 (t : Lens Console (Option Table2d)) (k : Fin 10)
    (hg : ∀ s, Sized rows cols s → ∀ T, t.get s = some T → T.rows.num ≤ rows k ∧ T.cols.num ≤ cols k)
    (hs : ∀ s o, Sized rows cols s → (∀ T, o = some T → T.rows.num ≤ rows k ∧ T.cols.num ≤ cols k) →
      Sized rows cols (t.set o s))
    (hb : b = true → 24 ≤ rows k ∧ 24 ≤ cols k) :
    Small b (Sized rows cols) (table2Node t k) (155 + 5 * (rows k + cols k) + rows k * (2 + cols k * 5)) := by
  have hset : ∀ (s : Console) (f : Table2d → Table2d), Sized rows cols s →
      (∀ T, t.get s = some T → (f T).rows.num ≤ rows k ∧ (f T).cols.num ≤ cols k) →
      Sized rows cols ((t.comp (Lens.some noTable2)).set (f ((t.comp (Lens.some noTable2)).get s)) s) := by
    intro s f h hf
    refine hs _ _ h fun T hT => ?_
    cases ht : t.get s with
    | none => rw [ht] at hT; cases hT
    | some T0 =>
      rw [ht] at hT
      cases hT
      simp only [Lens.comp, Lens.some, ht, Option.getD_some]
      exact hf T0 ht
  have hget : ∀ s, Sized rows cols s → ((t.comp (Lens.some noTable2)).get s).rows.num ≤ rows k ∧
      ((t.comp (Lens.some noTable2)).get s).cols.num ≤ cols k := by
    intro s h
    simp only [Lens.comp, Lens.some]
    cases ht : t.get s with
    | none => exact ⟨Nat.zero_le _, Nat.zero_le _⟩
    | some T => exact hg s h T ht
  unfold table2Node
  refine small_deref ?_
  have h := small_fields (b := b) (I := Sized rows cols) (post := .ok) (l := [
    ("title", .text (Lens.comp (fld% title) (Lens.ix k))),
    ("horizontal-axis", axisNode ((t.comp (Lens.some noTable2)).comp (fld% cols)) (Lens.comp (fld% colName) (Lens.ix k))),
    ("vertical-axis", axisNode ((t.comp (Lens.some noTable2)).comp (fld% rows)) (Lens.comp (fld% rowName) (Lens.ix k))),
    ("data", .arr none (fun c => ((t.comp (Lens.some noTable2)).get c).rows.num) fun r =>
      .arr none (fun c => ((t.comp (Lens.some noTable2)).get c).cols.num) fun i =>
        if h : r < maxAxis ∧ i < maxAxis then
          .flt ((t.comp (Lens.some noTable2)).comp
            (Lens.comp (fld% data) (Lens.comp (Lens.ix ⟨r, h.1⟩) (Lens.ix ⟨i, h.2⟩))))
        else .oob)])
    [26, 42 + 5 * cols k, 42 + 5 * rows k, 2 + rows k * (2 + cols k * 5)]
    (.cons (small_titleText k) (.cons (small_axis (small_colText k) (fun s h => (hget s h).2)
      (fun s vs h => hset s (fun T => { T with cols := { T.cols with values := vs } }) h (hg s h))
      (fun hbt s j hj h => hset s (fun T => { T with cols := { T.cols with num := j } }) h
        fun T hT => ⟨(hg s h T hT).1, hj.trans (hb hbt).2⟩))
      (.cons (small_axis (small_rowText k) (fun s h => (hget s h).1)
        (fun s vs h => hset s (fun T => { T with rows := { T.rows with values := vs } }) h (hg s h))
        (fun hbt s j hj h => hset s (fun T => { T with rows := { T.rows with num := j } }) h
          fun T hT => ⟨hj.trans (hb hbt).1, (hg s h T hT).2⟩))
      (.cons (small_arr (fun _ hl => by cases hl) (fun s h => (hget s h).1) fun r _ =>
        small_arr (fun _ hl => by cases hl) (fun s h => (hget s h).2) fun i _ => ?_) .nil)))) keep_ok
  · refine h.mono ?_
    simp only [List.map_cons, List.map_nil, List.zip_cons_cons, List.zip_nil_right, fieldsBound]
    rw [show (Item.text "title").size = 6 from rfl, show (Item.text "horizontal-axis").size = 16 from rfl,
      show (Item.text "vertical-axis").size = 14 from rfl, show (Item.text "data").size = 5 from rfl]
    omega
  · split
    · rename_i hri
      refine small_flt fun v s h => ?_
      have := hset s (fun T => { T with data := (Lens.comp (Lens.ix ⟨r, hri.1⟩) (Lens.ix ⟨i, hri.2⟩)).set v T.data }) h
        (hg s h)
      exact this
    · exact small_oob

/-- What a table with one axis of `c` values takes. -/
def table1Bound (c : Nat) : Nat := 99 + 10 * c

/-- What a table with `r` rows and `c` columns takes. -/
def table2Bound (r c : Nat) : Nat := 155 + 5 * (r + c) + r * (2 + c * 5)

/-- What the nine tables under "tables" take. -/
def tablesBound (rows cols : Fin 10 → Nat) : Nat :=
  103 + table2Bound (rows 0) (cols 0) + table2Bound (rows 1) (cols 1) + table1Bound (cols 2) +
    table2Bound (rows 3) (cols 3) + table1Bound (cols 4) + table1Bound (cols 5) + table2Bound (rows 6) (cols 6) +
    table2Bound (rows 7) (cols 7) + table1Bound (cols 8)

/-- The tables of `tablesNode` one by one. -/
theorem small_eachTable (hb : b = true → ∀ k, 24 ≤ rows k ∧ 24 ≤ cols k) :
    List.Forall₂ (fun (x : String × Node Console) k => Small b (Sized rows cols) x.2 k) [
      ("ve", table2Node (fld% cfg.ve) 0),
      ("lambda", table2Node (fld% cfg.lambda) 1),
      ("dwell", table1Node (fld% cfg.dwell) 2),
      ("timing", table2Node (fld% cfg.timing) 3),
      ("injector_dead_time", table1Node (fld% cfg.deadtime) 4),
      ("injector_pw_correction", table1Node (fld% cfg.pwCorrection) 5),
      ("temp-enrich", table2Node (fld% cfg.tempEnrich) 6),
      ("tipin-amount", table2Node (fld% cfg.tipinAmount) 7),
      ("tipin-time", table1Node (fld% cfg.tipinDuration) 8)]
    [table2Bound (rows 0) (cols 0), table2Bound (rows 1) (cols 1), table1Bound (cols 2),
      table2Bound (rows 3) (cols 3), table1Bound (cols 4), table1Bound (cols 5), table2Bound (rows 6) (cols 6),
      table2Bound (rows 7) (cols 7), table1Bound (cols 8)] :=
  .cons (small_table2 _ 0 (fun _ h => h.ve) (fun _ _ h ho => { h with ve := ho }) fun h => hb h _)
  (.cons (small_table2 _ 1 (fun _ h => h.lambda) (fun _ _ h ho => { h with lambda := ho }) fun h => hb h _)
  (.cons (small_table1 _ 2 (fun _ h => h.dwell) (fun _ _ h ho => { h with dwell := ho }) fun h => (hb h _).2)
  (.cons (small_table2 _ 3 (fun _ h => h.timing) (fun _ _ h ho => { h with timing := ho }) fun h => hb h _)
  (.cons (small_table1 _ 4 (fun _ h => h.deadtime) (fun _ _ h ho => { h with deadtime := ho }) fun h => (hb h _).2)
  (.cons (small_table1 _ 5 (fun _ h => h.pwCorrection) (fun _ _ h ho => { h with pwCorrection := ho })
    fun h => (hb h _).2)
  (.cons (small_table2 _ 6 (fun _ h => h.tempEnrich) (fun _ _ h ho => { h with tempEnrich := ho }) fun h => hb h _)
  (.cons (small_table2 _ 7 (fun _ h => h.tipinAmount) (fun _ _ h ho => { h with tipinAmount := ho }) fun h => hb h _)
  (.cons (small_table1 _ 8 (fun _ h => h.tipinDuration) (fun _ _ h ho => { h with tipinDuration := ho })
    fun h => (hb h _).2) .nil))))))))

theorem small_tables (hb : b = true → ∀ k, 24 ≤ rows k ∧ 24 ≤ cols k) :
    Small b (Sized rows cols) tablesNode (tablesBound rows cols) := by
  refine (small_fields _ (small_eachTable hb) keep_ok).mono ?_
  simp only [List.map_cons, List.map_nil, List.zip_cons_cons, List.zip_nil_right, fieldsBound, tablesBound]
  rw [show (Item.text "ve").size = 3 from rfl, show (Item.text "lambda").size = 7 from rfl,
    show (Item.text "dwell").size = 6 from rfl, show (Item.text "timing").size = 7 from rfl,
    show (Item.text "injector_dead_time").size = 19 from rfl,
    show (Item.text "injector_pw_correction").size = 23 from rfl, show (Item.text "temp-enrich").size = 12 from rfl,
    show (Item.text "tipin-amount").size = 13 from rfl, show (Item.text "tipin-time").size = 11 from rfl]
  omega

theorem small_fueling : Small b (Sized rows cols) fuelingNode 184 :=
  (small_fields [5, 5, 5, 5, 5, 5, 49] (by
    leaves
    exact (small_fields [5, 5, 5] (by leaves) keep_ok).mono (by names)) keep_ok).mono (by names)

theorem small_ignition : Small b (Sized rows cols) ignitionNode 37 :=
  (small_fields [5, 5] (by leaves) keep_ok).mono (by names)

theorem small_boost (hb : b = true → 24 ≤ cols 9) :
    Small b (Sized rows cols) boostNode (106 + table1Bound (cols 9)) := by
  refine (small_fields [5, 5, 5, 5, 5, table1Bound (cols 9)] (by
    leaves
    exact small_table1 _ 9 (fun _ h => h.duty) (fun _ _ h ho => { h with duty := ho }) hb) keep_ok).mono ?_
  simp only [List.map_cons, List.map_nil, List.zip_cons_cons, List.zip_nil_right, fieldsBound]
  rw [show (Item.text "pin").size = 4 from rfl, show (Item.text "enable-threshold").size = 17 from rfl,
    show (Item.text "control-threshold").size = 18 from rfl,
    show (Item.text "control-threshold-tps").size = 22 from rfl, show (Item.text "overboost").size = 10 from rfl,
    show (Item.text "pwm").size = 4 from rfl]
  omega

theorem small_cel : Small b (Sized rows cols) celNode 51 :=
  (small_fields [5, 5, 5] (by leaves) keep_ok).mono (by names)

theorem small_freq : Small b (Sized rows cols) freqListNode 114 :=
  small_fixed (k := 28) fun _ => (small_fields [8, 8] (by leaves) keep_ok).mono (by names)

theorem small_test : Small b (Sized rows cols) testNode 39 :=
  (small_fields [1, 5] (by leaves) keep_ok).mono (by names)

variable [LibM] (rate : BitVec 32) {version : String}

omit [LibM] in
theorem small_info (hv : version.utf8ByteSize ≤ 255) :
    Small b (Sized rows cols) (.fields [("version", .const version)] : Node Console) 267 :=
  (small_fields [257] (.cons (small_const.mono (text_size hv)) .nil) keep_ok).mono (by names)

/-- The parts of the tree one by one. -/
theorem small_each (hv : version.utf8ByteSize ≤ 255) (hb : b = true → ∀ k, 24 ≤ rows k ∧ 24 ≤ cols k) :
    List.Forall₂ (fun (x : String × Node Console) k => Small b (Sized rows cols) x.2 k) [
      ("decoder", decoderNode),
      ("sensors", sensorsNode rate),
      ("outputs", outputsNode),
      ("fueling", fuelingNode),
      ("ignition", ignitionNode),
      ("tables", tablesNode),
      ("boost-control", boostNode),
      ("check-engine-light", celNode),
      ("freq", freqListNode),
      ("test", testNode),
      ("info", .fields [("version", .const version)])]
    [201, 3150, 738, 184, 37, tablesBound rows cols, 106 + table1Bound (cols 9), 51, 114, 39, 267] :=
  .cons small_decoder (.cons (small_sensors rate) (.cons small_outputs (.cons small_fueling (.cons small_ignition
    (.cons (small_tables hb) (.cons (small_boost fun h => (hb h _).2) (.cons small_cel (.cons small_freq
    (.cons small_test (.cons (small_info hv) .nil))))))))))

/-- The whole tree. -/
theorem small_console (hv : version.utf8ByteSize ≤ 255) (hb : b = true → ∀ k, 24 ≤ rows k ∧ 24 ≤ cols k) :
    Small b (Sized rows cols) (consoleTree rate version) (4985 + tablesBound rows cols + table1Bound (cols 9)) := by
  refine (small_fields _ (small_each rate hv hb) keep_ok).mono ?_
  simp only [List.map_cons, List.map_nil, List.zip_cons_cons, List.zip_nil_right, fieldsBound]
  rw [show (Item.text "decoder").size = 8 from rfl, show (Item.text "sensors").size = 8 from rfl,
    show (Item.text "outputs").size = 8 from rfl, show (Item.text "fueling").size = 8 from rfl,
    show (Item.text "ignition").size = 9 from rfl, show (Item.text "tables").size = 7 from rfl,
    show (Item.text "boost-control").size = 14 from rfl, show (Item.text "check-engine-light").size = 19 from rfl,
    show (Item.text "freq").size = 5 from rfl, show (Item.text "test").size = 5 from rfl,
    show (Item.text "info").size = 5 from rfl]
  omega

/-- A request with a path that names neither everything nor all tables together. -/
theorem small_path (hv : version.utf8ByteSize ≤ 255) (hb : b = true → ∀ k, 24 ≤ rows k ∧ 24 ≤ cols k) {p : List Item}
    {value : Option Item} {c c' : Console} {r : List Item} (hc : Sized rows cols c) {K : Nat}
    (hK : ∀ k, table2Bound (rows k) (cols k) ≤ K ∧ 106 + table1Bound (cols k) ≤ K) (hK' : 3150 ≤ K)
    (hp : p ≠ []) (hp' : p ≠ [.text "tables"]) (h : request (consoleTree rate version) b p value c = .ok (c', r)) :
    ∃ x, r = [x] ∧ x.size ≤ K := by
  unfold request at h
  have hf : (!p.isEmpty) = true := by cases p <;> simp_all
  rw [hf] at h
  split at h
  · cases h
  · rename_i st hst
    cases h
    rcases map_filtered hst with ⟨h1, -⟩ | ⟨i, hi, hm, w, st1, h2, h3, -⟩
    · exact ⟨.null, h1, by simp [Item.size]; omega⟩
    · have hall := small_each (b := b) rate hv hb
      simp only [List.length_map, List.length_cons, List.length_nil] at hi
      rw [h3]
      by_cases h5 : i = 5
      · subst h5
        have ht : ∃ q, p = .text "tables" :: q ∧ q ≠ [] := by
          cases p with
          | nil => exact absurd rfl hp
          | cons a q =>
            cases a <;> simp [pathMatchStr] at hm
            subst hm
            exact ⟨q, rfl, fun h => hp' (by rw [h])⟩
        obtain ⟨q, rfl, hq⟩ := ht
        have hq' : (!q.isEmpty) = true := by cases q <;> simp_all
        simp only [List.tail_cons, hq'] at h2
        rcases map_filtered h2 with ⟨h6, -⟩ | ⟨j, hj, -, w', st2, h7, h8, -⟩
        · exact ⟨.null, h6, by simp [Item.size]; omega⟩
        · simp only [List.length_map, List.length_cons, List.length_nil] at hj
          rw [h8]
          have ht := small_eachTable (rows := rows) (cols := cols) hb
          obtain ⟨-, x, h10, h11⟩ := small_getD ht hj _ _ _ st2 (by exact hc) h7
          refine ⟨x, h10, h11.trans ?_⟩
          have hK0 := hK 0
          have hK1 := hK 1
          have hK2 := hK 2
          have hK3 := hK 3
          have hK4 := hK 4
          have hK5 := hK 5
          have hK6 := hK 6
          have hK7 := hK 7
          have hK8 := hK 8
          clear h7 h8 h10 h11 ht hst h2 h3 hall
          interval_cases j <;> simp only [List.getD_cons_zero, List.getD_cons_succ] <;> omega
      · obtain ⟨-, x, h10, h11⟩ := small_getD hall hi _ _ _ st1 (by exact hc) h2
        refine ⟨x, h10, h11.trans ?_⟩
        have hK9 := hK 9
        clear h2 h3 h10 h11 hst hall hm
        interval_cases i <;> first | (exact absurd rfl h5) | (simp only [List.getD_cons_zero, List.getD_cons_succ]; omega)

end
end Verif
