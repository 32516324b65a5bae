/-
C84: every name of the console and of the feed is the quantity it is said to be.
-/
import Verif.Spec.Named
import Verif.Props.Request
import Verif.Props.Feed
import Verif.Props.Tasks

namespace Verif

section
variable [FloatFmt] [LibM] (rate : BitVec 32) (version : String) (struct : List Item)

/-- What the dump has at a path is what the node there shows. -/
theorem follow_at {c : Console} (hc : Loaded c) {full : Item} (hd : dump (consoleTree rate version) c = .ok full)
    {p : List Item} {m : Node Console} {y : Item} (h : (consoleTree rate version).at p c = some m)
    (hm : dump m c = .ok y) : full.follow p = some y := by
  have := follow_dump _ (wf_console rate version) c hc p full hd
  rw [h] at this
  obtain ⟨x, hx, hf⟩ := this
  rw [hm] at hx
  rw [hf, Except.ok.inj hx]

theorem follow_at_none {c : Console} (hc : Loaded c) {full : Item} (hd : dump (consoleTree rate version) c = .ok full)
    {p : List Item} (h : (consoleTree rate version).at p c = none) : full.follow p = none := by
  have := follow_dump _ (wf_console rate version) c hc p full hd
  rwa [h] at this

/-- The sensors by their names. -/
theorem at_sensor (c : Console) {n : String} {i : Fin numSensors} (h : (n, i) ∈ sensorIndex) (r : List Item) :
    (consoleTree rate version).at (.text "sensors" :: .text n :: r) c =
      (sensorNode (Lens.comp (fld% cfg.sensors) (Lens.ix i))).at r c := by
  simp only [sensorIndex, List.mem_cons, Prod.mk.injEq, List.not_mem_nil, or_false] at h
  rcases h with ⟨rfl, rfl⟩ | ⟨rfl, rfl⟩ | ⟨rfl, rfl⟩ | ⟨rfl, rfl⟩ | ⟨rfl, rfl⟩ | ⟨rfl, rfl⟩ | ⟨rfl, rfl⟩ |
    ⟨rfl, rfl⟩ | ⟨rfl, rfl⟩ | ⟨rfl, rfl⟩ <;> rfl

theorem at_output (c : Console) (i : Fin maxEvents) (r : List Item) :
    (consoleTree rate version).at (.text "outputs" :: .int i :: r) c =
      (outputNode (Lens.comp (fld% cfg.events) (Lens.ix i))).at r c := by
  fin_cases i <;> rfl

theorem at_freq (c : Console) (i : Fin 4) (r : List Item) :
    (consoleTree rate version).at (.text "freq" :: .int i :: r) c =
      (freqNode (Lens.comp (fld% freq) (Lens.ix i))).at r c := by
  fin_cases i <;> rfl

/-- The element of a list at a place. -/
theorem at_arr {resize} {count : Console → Nat} {elem : Nat → Node Console} {c : Console} (hn : count c ≤ 2 ^ 31)
    (i : Nat) (r : List Item) : (Node.arr resize count elem).at (.int i :: r) c =
      if i < count c then (elem i).at r c else none := by
  rw [Node.at, find_index _ hn]
  dsimp only
  by_cases h : i < count c
  · rw [if_pos h, if_pos (by omega)]
    simp
  · rw [if_neg h, if_neg (by omega)]

/-- The entries of a list of settings that are all there. -/
theorem named_shown {α : Type} {c : Console} {l : List (String × (α → Item))} {s : α} {pre : List Item}
    (h : ∀ kf ∈ l, ∃ m, (consoleTree rate version).at (pre ++ [.text kf.1]) c = some m ∧ dump m c = .ok (kf.2 s))
    (hc : Loaded c) {full : Item} (hd : dump (consoleTree rate version) c = .ok full) {k : String} {f : α → Item}
    (hkf : (k, f) ∈ l) : full.follow (pre ++ [.text k]) = some (f s) := by
  obtain ⟨m, h1, h2⟩ := h _ hkf
  exact follow_at rate version hc hd h1 h2


/-- A table with one axis is where its path says. -/
theorem at_table1 (c : Console) {p : List Item} {t : Config → Option Table1d} (h : (p, t) ∈ tables1) :
    ∃ (l : Lens Console (Option Table1d)) (k : Fin 10), l.get c = t c.cfg ∧
      ∀ r, (consoleTree rate version).at (p ++ r) c = (table1Node l k).at r c := by
  simp only [tables1, List.mem_cons, Prod.mk.injEq, List.not_mem_nil, or_false] at h
  rcases h with ⟨rfl, rfl⟩ | ⟨rfl, rfl⟩ | ⟨rfl, rfl⟩ | ⟨rfl, rfl⟩ | ⟨rfl, rfl⟩
  · exact ⟨fld% cfg.dwell, 2, rfl, fun _ => rfl⟩
  · exact ⟨fld% cfg.deadtime, 4, rfl, fun _ => rfl⟩
  · exact ⟨fld% cfg.pwCorrection, 5, rfl, fun _ => rfl⟩
  · exact ⟨fld% cfg.tipinDuration, 8, rfl, fun _ => rfl⟩
  · exact ⟨fld% cfg.boost.duty, 9, rfl, fun _ => rfl⟩

theorem at_table2 (c : Console) {p : List Item} {t : Config → Option Table2d} (h : (p, t) ∈ tables2) :
    ∃ (l : Lens Console (Option Table2d)) (k : Fin 10), l.get c = t c.cfg ∧
      ∀ r, (consoleTree rate version).at (p ++ r) c = (table2Node l k).at r c := by
  simp only [tables2, List.mem_cons, Prod.mk.injEq, List.not_mem_nil, or_false] at h
  rcases h with ⟨rfl, rfl⟩ | ⟨rfl, rfl⟩ | ⟨rfl, rfl⟩ | ⟨rfl, rfl⟩ | ⟨rfl, rfl⟩
  · exact ⟨fld% cfg.ve, 0, rfl, fun _ => rfl⟩
  · exact ⟨fld% cfg.lambda, 1, rfl, fun _ => rfl⟩
  · exact ⟨fld% cfg.timing, 3, rfl, fun _ => rfl⟩
  · exact ⟨fld% cfg.tempEnrich, 6, rfl, fun _ => rfl⟩
  · exact ⟨fld% cfg.tipinAmount, 7, rfl, fun _ => rfl⟩

theorem has1_of {c : Console} (hc : Loaded c) {p : List Item} {t : Config → Option Table1d} (h : (p, t) ∈ tables1) :
    Has1 (t c.cfg) := by
  obtain ⟨h1, h2, h3, h4, h5, h6, h7, h8, h9, h10⟩ := hc
  simp only [tables1, List.mem_cons, Prod.mk.injEq, List.not_mem_nil, or_false] at h
  rcases h with ⟨rfl, rfl⟩ | ⟨rfl, rfl⟩ | ⟨rfl, rfl⟩ | ⟨rfl, rfl⟩ | ⟨rfl, rfl⟩ <;> assumption

theorem has2_of {c : Console} (hc : Loaded c) {p : List Item} {t : Config → Option Table2d} (h : (p, t) ∈ tables2) :
    Has2 (t c.cfg) := by
  obtain ⟨h1, h2, h3, h4, h5, h6, h7, h8, h9, h10⟩ := hc
  simp only [tables2, List.mem_cons, Prod.mk.injEq, List.not_mem_nil, or_false] at h
  rcases h with ⟨rfl, rfl⟩ | ⟨rfl, rfl⟩ | ⟨rfl, rfl⟩ | ⟨rfl, rfl⟩ | ⟨rfl, rfl⟩ <;> assumption

/-- What the dump shows of an element that is there for as long as a list is. -/
theorem follow_elem {c : Console} (hc : Loaded c) {full : Item} (hd : dump (consoleTree rate version) c = .ok full)
    {p : List Item} {P : Prop} [Decidable P] {m : Node Console} {y : Item}
    (h : (consoleTree rate version).at p c = if P then some m else none) (hm : P → dump m c = .ok y) :
    full.follow p = if P then some y else none := by
  by_cases hp : P
  · rw [if_pos hp] at h ⊢
    exact follow_at rate version hc hd h (hm hp)
  · rw [if_neg hp] at h ⊢
    exact follow_at_none rate version hc hd h

theorem at_axis (l : Lens Console Axis) (n : Lens Console String) (c : Console) (i : Fin maxAxis)
    (hn : (l.get c).num ≤ maxAxis) :
    (axisNode l n).at [.text "values", .int i] c = if i < (l.get c).num then
      some (.flt (l.comp (Lens.comp (fld% values) (Lens.ix i)))) else none := by
  have h1 := at_arr (resize := some (l.comp (fld% num))) (count := fun c => min (l.get c).num maxAxis)
    (elem := fun i => if h : i < maxAxis then .flt (l.comp (Lens.comp (fld% values) (Lens.ix ⟨i, h⟩))) else .oob)
    (c := c) (by show min _ _ ≤ _; have : maxAxis = 24 := rfl; omega) i []
  refine Eq.trans h1 ?_
  rw [Nat.min_eq_left hn, dif_pos i.2]
  rfl

/-- The quantities the names stand for are in the full dump. -/
theorem named_dump {c : Console} (hc : Loaded c) {full : Item} (hd : dump (consoleTree rate version) c = .ok full)
    {p : List Item} {f : Console → Option Item} (h : Names p f) : full.follow p = f c := by
  cases h with
  | decoder h =>
    refine named_shown rate version (pre := [.text "decoder"]) ?_ hc hd h
    simp only [decoderSettings, List.forall_mem_cons]
    and_intros
    all_goals first
      | exact ⟨_, rfl, rfl⟩
      | exact fun _ h => absurd h List.not_mem_nil
      | refine ⟨_, rfl, ?_⟩
        show Except.ok ((enumOut _ c.cfg.decoder.type.code).headD .null) = _
        cases c.cfg.decoder.type <;> rfl
  | output i h =>
    refine named_shown rate version (pre := [.text "outputs", .int i]) ?_ hc hd h
    simp only [List.cons_append, List.nil_append, at_output]
    simp only [outputSettings, List.forall_mem_cons]
    and_intros
    all_goals first
      | exact ⟨_, rfl, rfl⟩
      | exact fun _ h => absurd h List.not_mem_nil
      | refine ⟨_, rfl, ?_⟩
        show Except.ok ((enumOut _ (c.cfg.events i).type.code).headD .null) = _
        cases (c.cfg.events i).type <;> rfl
  | @sensor n i hn k f h =>
    refine named_shown rate version (pre := [.text "sensors", .text n]) ?_ hc hd h
    simp only [List.cons_append, List.nil_append, at_sensor rate version c hn]
    simp only [sensorSettings, List.forall_mem_cons]
    and_intros
    all_goals first
      | exact ⟨_, rfl, rfl⟩
      | exact fun _ h => absurd h List.not_mem_nil
      | refine ⟨_, rfl, ?_⟩
        show Except.ok ((enumOut _ (c.cfg.sensors i).source.code).headD .null) = _
        cases (c.cfg.sensors i).source <;> rfl
      | refine ⟨_, rfl, ?_⟩
        show Except.ok ((enumOut _ (c.cfg.sensors i).method.code).headD .null) = _
        cases (c.cfg.sensors i).method <;> rfl
  | knock1 h =>
    refine named_shown rate version (pre := [.text "sensors", .text "knock1"]) ?_ hc hd h
    simp only [knockSettings, List.forall_mem_cons]
    exact ⟨⟨_, rfl, rfl⟩, ⟨_, rfl, rfl⟩, fun _ h => absurd h List.not_mem_nil⟩
  | knock2 h =>
    refine named_shown rate version (pre := [.text "sensors", .text "knock2"]) ?_ hc hd h
    simp only [knockSettings, List.forall_mem_cons]
    exact ⟨⟨_, rfl, rfl⟩, ⟨_, rfl, rfl⟩, fun _ h => absurd h List.not_mem_nil⟩
  | fueling h =>
    refine named_shown rate version (pre := [.text "fueling"]) ?_ hc hd h
    simp only [fuelingSettings, List.forall_mem_cons]
    and_intros
    all_goals first
      | exact ⟨_, rfl, rfl⟩
      | exact fun _ h => absurd h List.not_mem_nil
  | crank h =>
    refine named_shown rate version (pre := [.text "fueling", .text "crank-enrich"]) ?_ hc hd h
    simp only [crankSettings, List.forall_mem_cons]
    and_intros
    all_goals first
      | exact ⟨_, rfl, rfl⟩
      | exact fun _ h => absurd h List.not_mem_nil
  | ignition h =>
    refine named_shown rate version (pre := [.text "ignition"]) ?_ hc hd h
    simp only [ignitionSettings, List.forall_mem_cons]
    and_intros
    all_goals first
      | exact ⟨_, rfl, rfl⟩
      | exact fun _ h => absurd h List.not_mem_nil
  | boost h =>
    refine named_shown rate version (pre := [.text "boost-control"]) ?_ hc hd h
    simp only [boostSettings, List.forall_mem_cons]
    and_intros
    all_goals first
      | exact ⟨_, rfl, rfl⟩
      | exact fun _ h => absurd h List.not_mem_nil
  | cel h =>
    refine named_shown rate version (pre := [.text "check-engine-light"]) ?_ hc hd h
    simp only [celSettings, List.forall_mem_cons]
    and_intros
    all_goals first
      | exact ⟨_, rfl, rfl⟩
      | exact fun _ h => absurd h List.not_mem_nil
  | freq i h =>
    refine named_shown rate version (pre := [.text "freq", .int i]) ?_ hc hd h
    simp only [List.cons_append, List.nil_append, at_freq]
    simp only [freqSettings, List.forall_mem_cons]
    and_intros
    · refine ⟨_, rfl, ?_⟩
      show Except.ok ((enumOut _ (c.freq i).edge.code).headD .null) = _
      cases (c.freq i).edge <;> rfl
    · refine ⟨_, rfl, ?_⟩
      show Except.ok ((enumOut _ (c.freq i).type.code).headD .null) = _
      cases (c.freq i).type <;> rfl
    · exact fun _ h => absurd h List.not_mem_nil
  | logging => exact follow_at rate version hc hd rfl rfl
  | testRpm => exact follow_at rate version hc hd rfl rfl
  | axis1 h i =>
    obtain ⟨l, k, hl, hr⟩ := at_table1 rate version c h
    obtain ⟨T, hT, hn⟩ := has1_of hc h
    rw [hT] at hl
    dsimp only
    rw [hT]
    have hg : (((l.comp (Lens.some noTable1)).comp (fld% cols)).get c) = T.cols := by
      show ((l.get c).getD noTable1).cols = _
      rw [hl]; rfl
    have h1 : (table1Node l k).at [.text "horizontal-axis", .text "values", .int i] c =
      (axisNode ((l.comp (Lens.some noTable1)).comp (fld% cols)) (Lens.comp (fld% colName) (Lens.ix k))).at
        [.text "values", .int i] c := rfl
    have h2 := hr [.text "horizontal-axis", .text "values", .int i]
    rw [h1, at_axis _ _ c i (by rw [hg]; exact hn), hg] at h2
    refine follow_elem rate version hc hd h2 fun _ => ?_
    show Except.ok (Item.flt ((((l.comp (Lens.some noTable1)).comp (fld% cols)).get c).values i)) = _
    rw [hg]
  | data1 h i =>
    obtain ⟨l, k, hl, hr⟩ := at_table1 rate version c h
    obtain ⟨T, hT, hn⟩ := has1_of hc h
    rw [hT] at hl
    dsimp only
    rw [hT]
    have hg : (l.comp (Lens.some noTable1)).get c = T := by
      show (l.get c).getD noTable1 = _
      rw [hl]; rfl
    have h1 := at_arr (resize := none) (count := fun c => ((l.comp (Lens.some noTable1)).get c).cols.num)
      (elem := fun i => if h : i < maxAxis then
        .flt ((l.comp (Lens.some noTable1)).comp (Lens.comp (fld% data) (Lens.ix ⟨i, h⟩))) else .oob)
      (c := c) (by rw [hg]; exact le_trans hn (by decide)) i []
    have h2 := (hr [.text "data", .int i]).trans h1
    rw [hg, dif_pos i.2] at h2
    refine follow_elem rate version hc hd h2 fun _ => ?_
    show Except.ok (Item.flt (((l.comp (Lens.some noTable1)).get c).data i)) = _
    rw [hg]
  | cols2 h i =>
    obtain ⟨l, k, hl, hr⟩ := at_table2 rate version c h
    obtain ⟨T, hT, hn⟩ := has2_of hc h
    rw [hT] at hl
    dsimp only
    rw [hT]
    have hg : (((l.comp (Lens.some noTable2)).comp (fld% cols)).get c) = T.cols := by
      show ((l.get c).getD noTable2).cols = _
      rw [hl]; rfl
    have h1 : (table2Node l k).at [.text "horizontal-axis", .text "values", .int i] c =
      (axisNode ((l.comp (Lens.some noTable2)).comp (fld% cols)) (Lens.comp (fld% colName) (Lens.ix k))).at
        [.text "values", .int i] c := rfl
    have h2 := hr [.text "horizontal-axis", .text "values", .int i]
    rw [h1, at_axis _ _ c i (by rw [hg]; exact hn.2), hg] at h2
    refine follow_elem rate version hc hd h2 fun _ => ?_
    show Except.ok (Item.flt ((((l.comp (Lens.some noTable2)).comp (fld% cols)).get c).values i)) = _
    rw [hg]
  | rows2 h i =>
    obtain ⟨l, k, hl, hr⟩ := at_table2 rate version c h
    obtain ⟨T, hT, hn⟩ := has2_of hc h
    rw [hT] at hl
    dsimp only
    rw [hT]
    have hg : (((l.comp (Lens.some noTable2)).comp (fld% rows)).get c) = T.rows := by
      show ((l.get c).getD noTable2).rows = _
      rw [hl]; rfl
    have h1 : (table2Node l k).at [.text "vertical-axis", .text "values", .int i] c =
      (axisNode ((l.comp (Lens.some noTable2)).comp (fld% rows)) (Lens.comp (fld% rowName) (Lens.ix k))).at
        [.text "values", .int i] c := rfl
    have h2 := hr [.text "vertical-axis", .text "values", .int i]
    rw [h1, at_axis _ _ c i (by rw [hg]; exact hn.1), hg] at h2
    refine follow_elem rate version hc hd h2 fun _ => ?_
    show Except.ok (Item.flt ((((l.comp (Lens.some noTable2)).comp (fld% rows)).get c).values i)) = _
    rw [hg]
  | @data2 p t h r i =>
    obtain ⟨l, k, hl, hr⟩ := at_table2 rate version c h
    obtain ⟨T, hT, hn⟩ := has2_of hc h
    rw [hT] at hl
    dsimp only
    rw [hT]
    have hg : (l.comp (Lens.some noTable2)).get c = T := by
      show (l.get c).getD noTable2 = _
      rw [hl]; rfl
    have h1 := at_arr (resize := none) (count := fun c => ((l.comp (Lens.some noTable2)).get c).cols.num)
      (elem := fun i => if h : r.val < maxAxis ∧ i < maxAxis then
        .flt ((l.comp (Lens.some noTable2)).comp
          (Lens.comp (fld% data) (Lens.comp (Lens.ix ⟨r, h.1⟩) (Lens.ix ⟨i, h.2⟩)))) else .oob)
      (c := c) (by rw [hg]; exact le_trans hn.2 (by decide)) i []
    have h3 := at_arr (resize := none) (count := fun c => ((l.comp (Lens.some noTable2)).get c).rows.num)
      (elem := fun r => .arr none (fun c => ((l.comp (Lens.some noTable2)).get c).cols.num) fun i =>
        if h : r < maxAxis ∧ i < maxAxis then
          .flt ((l.comp (Lens.some noTable2)).comp
            (Lens.comp (fld% data) (Lens.comp (Lens.ix ⟨r, h.1⟩) (Lens.ix ⟨i, h.2⟩)))) else .oob)
      (c := c) (by rw [hg]; exact le_trans hn.1 (by decide)) r [.int i]
    have h2 := (hr [.text "data", .int r, .int i]).trans h3
    rw [h1, hg, dif_pos ⟨r.2, i.2⟩] at h2
    have h4 : (consoleTree rate version).at (p ++ [.text "data", .int r, .int i]) c =
        if r < T.rows.num ∧ i < T.cols.num then some (.flt ((l.comp (Lens.some noTable2)).comp
          (Lens.comp (fld% data) (Lens.comp (Lens.ix r) (Lens.ix i))))) else none := by
      rw [h2]
      by_cases ha : r < T.rows.num <;> by_cases hb : i < T.cols.num <;> simp [ha, hb, Node.at]
    refine follow_elem rate version hc hd h4 fun _ => ?_
    show Except.ok (Item.flt (((l.comp (Lens.some noTable2)).get c).data r i)) = _
    rw [hg]

omit [LibM] [FloatFmt] in
/-- No quantity is a map or a list. -/
theorem named_leaf {p : List Item} {f : Console → Option Item} (h : Names p f) (c : Console) {x : Item}
    (hx : f c = some x) : x.isLeaf = true := by
  have key : ∀ {α : Type} {l : List (String × (α → Item))} {s : α} {k : String} {g : α → Item},
      (∀ kf ∈ l, (kf.2 s).isLeaf = true) → (k, g) ∈ l → some (g s) = some x → x.isLeaf = true :=
    fun h1 h2 h3 => by cases h3; exact h1 _ h2
  have opt : ∀ {α : Type} {t : Option α} {P : α → Prop} [∀ a, Decidable (P a)] {g : α → Fl},
      (t.bind fun t => if P t then some (.flt (g t)) else none) = some x → x.isLeaf = true := by
    intro α t P _ g h
    cases t with
    | none => cases h
    | some a =>
      simp only [Option.bind_some] at h
      split at h
      · cases h; rfl
      · cases h
  cases h with
  | decoder h => exact key (by simp [decoderSettings, num32, Item.isLeaf]) h hx
  | output i h => exact key (by simp [outputSettings, num32, Item.isLeaf]) h hx
  | sensor hn h => exact key (by simp [sensorSettings, num32, Item.isLeaf]) h hx
  | knock1 h => exact key (by simp [knockSettings, Item.isLeaf]) h hx
  | knock2 h => exact key (by simp [knockSettings, Item.isLeaf]) h hx
  | fueling h => exact key (by simp [fuelingSettings, num32, Item.isLeaf]) h hx
  | crank h => exact key (by simp [crankSettings, Item.isLeaf]) h hx
  | ignition h => exact key (by simp [ignitionSettings, num32, Item.isLeaf]) h hx
  | boost h => exact key (by simp [boostSettings, num32, Item.isLeaf]) h hx
  | cel h => exact key (by simp [celSettings, num32, Item.isLeaf]) h hx
  | freq i h => exact key (by simp [freqSettings, Item.isLeaf]) h hx
  | logging => cases hx; rfl
  | testRpm => cases hx; rfl
  | axis1 h i => exact opt hx
  | data1 h i => exact opt hx
  | cols2 h i => exact opt hx
  | rows2 h i => exact opt hx
  | data2 h r i => exact opt hx

omit [LibM] [FloatFmt] in
theorem lookup_replaceKey_ne {t t' : String} (hne : t' ≠ t) {f : Item → Item} :
    ∀ l, lookupKey t' (replaceKey t f l) = lookupKey t' l
  | [] => rfl
  | [a] => by cases a <;> rfl
  | a :: v :: rest => by
    have ih := lookup_replaceKey_ne hne (f := f) rest
    cases a with
    | text u =>
      by_cases ht : u = t
      · simp [lookupKey, replaceKey, ht, hne.symm]
      · by_cases hu : u = t'
        · simp [lookupKey, replaceKey, hu, hne]
        · simp [lookupKey, replaceKey, ht, hu, ih]
    | _ => exact ih

omit [LibM] [FloatFmt] in
theorem step_stepMap {k : Item} {f : Item → Item} {d y : Item} (hs : Item.step k d = some y) :
    Item.step k (Item.stepMap k f d) = some (f y) := by
  cases d with
  | map l =>
    cases k with
    | text t => exact lookup_replaceKey l hs
    | _ => cases hs
  | arr b l =>
    cases k with
    | int n =>
      simp only [Item.step, Item.stepMap] at hs ⊢
      by_cases hn : 0 ≤ n
      · simp only [hn, if_true] at hs ⊢
        simp [hs]
      · simp [hn] at hs
    | _ => cases hs
  | _ => cases hs

omit [LibM] [FloatFmt] in
theorem step_stepMap_ne {k k' : Item} (hne : k' ≠ k) (f : Item → Item) (d : Item) :
    Item.step k' (Item.stepMap k f d) = Item.step k' d := by
  cases d with
  | map l =>
    cases k with
    | text t =>
      cases k' with
      | text t' => exact lookup_replaceKey_ne (fun h => hne (by rw [h])) l
      | _ => rfl
    | _ => rfl
  | arr b l =>
    cases k with
    | int n =>
      simp only [Item.stepMap]
      by_cases hn : 0 ≤ n
      · rw [if_pos hn]
        cases k' with
        | int n' =>
          simp only [Item.step]
          by_cases hn' : 0 ≤ n'
          · rw [if_pos hn', if_pos hn', List.getElem?_modify]
            have : n.toNat ≠ n'.toNat := fun h => hne (by congr 1; omega)
            simp [this]
          · rw [if_neg hn', if_neg hn']
        | _ => rfl
      · rw [if_neg hn]
    | _ => rfl
  | _ => rfl

omit [LibM] [FloatFmt] in
theorem leaf_step {y : Item} (hy : y.isLeaf = true) (k : Item) : Item.step k y = none := by
  cases y <;> first | rfl | cases hy

omit [LibM] [FloatFmt] in
/-- Replacing one value leaves the others. -/
theorem follow_replace_ne {p q : List Item} {d x r : Item} (hp : d.follow p = some x) (hx : x.isLeaf = true)
    (hr : r.isLeaf = true) (hq : ∀ y, d.follow q = some y → y.isLeaf = true) (hne : q ≠ p) :
    (d.replace p r).follow q = d.follow q := by
  induction p generalizing d q with
  | nil =>
    cases q with
    | nil => exact absurd rfl hne
    | cons k q =>
      cases hp
      show (Item.step k r).bind _ = (Item.step k x).bind _
      rw [leaf_step hr, leaf_step hx]
  | cons k p ih =>
    simp only [Item.follow] at hp
    cases hs : Item.step k d with
    | none => rw [hs] at hp; cases hp
    | some y =>
      rw [hs] at hp
      cases q with
      | nil =>
        rw [leaf_step (hq d rfl)] at hs
        cases hs
      | cons k' q =>
        simp only [Item.replace, Item.follow]
        by_cases hk : k' = k
        · subst hk
          rw [step_stepMap hs, hs]
          exact ih hp (fun z hz => hq z (by simp only [Item.follow]; rw [hs]; exact hz)) (fun h => hne (by rw [h]))
        · rw [step_stepMap_ne hk]

/-- C84, gets: what the full dump has at a path, and what a get of the path answers, is the quantity the path
names. -/
theorem C84_get {c : Console} (hc : Loaded c) {p : List Item} {f : Console → Option Item} (h : Names p f)
    {req0 : List Item} (hr0 : IsGet req0 []) {full : Item}
    (hfull : Answers (processRequest rate version struct req0 c) c full) :
    full.follow p = f c ∧
      ∀ x, f c = some x → ∀ req, IsGet req p → Answers (processRequest rate version struct req c) c x := by
  have hd := dump_of_answers rate version struct hc hr0 hfull
  have hf := named_dump rate version hc hd h
  refine ⟨hf, fun x hx req hr => ?_⟩
  rw [hx] at hf
  have := get_answers rate version struct hc hd hr (not_pastLeaf hf)
  rwa [hf] at this

/-- C84, sets: after a set of a path the quantity it names is what was answered, and all others are what they
were. -/
theorem C84_set {c c' : Console} (hc : Loaded c) {p : List Item} {f : Console → Option Item} (h : Names p f)
    {x : Item} (hx : f c = some x) {v : Item} (hv : v.isLeaf = true) {req : List Item} (hr : IsSet req p v) {r : Item}
    (ha : Answers (processRequest rate version struct req c) c' r) :
    f c' = some r ∧ ∀ q g, Names q g → q ≠ p → g c' = g c := by
  obtain ⟨full, h0, -⟩ := C50_get_partial rate version struct hc
  have hg := h0 _ (isGet_getReq _)
  have hd := dump_of_answers rate version struct hc (isGet_getReq _) hg
  have hf := named_dump rate version hc hd h
  rw [hx] at hf
  obtain ⟨-, hl, -, h1, -⟩ := C49_set_partial rate version struct hc (isGet_getReq _) hg hf (named_leaf h c hx)
    (Or.inl hv) hr ha
  have hd' := dump_of_answers rate version struct hl (isGet_getReq _) h1
  have hf' := named_dump rate version hl hd' h
  rw [follow_replace hf] at hf'
  refine ⟨hf'.symm, fun q g hq hne => ?_⟩
  rw [← named_dump rate version hl hd' hq, ← named_dump rate version hc hd hq]
  exact follow_replace_ne hf (named_leaf h c hx) (named_leaf h c' hf'.symm)
    (fun y hy => named_leaf hq c (by rw [← hy, named_dump rate version hc hd hq])) hne

/-- The hypotheses are met: the angle of the third output of the shipped configuration is set. -/
example : ∃ c' r, Answers (processRequest rate version struct
      (setReq [.text "outputs", .int 2, .text "angle"] (.flt (.fin 45))) dfltConsole) c' r ∧
    (c'.cfg.events 2).angle = .fin 45 ∧ (c'.cfg.events 2).pin = (dfltConfig.events 2).pin := by
  obtain ⟨full, h0, -⟩ := C50_get_partial rate version struct dfltConsole_loaded
  have hg := h0 _ (isGet_getReq _)
  have hn : Names [.text "outputs", .int (2 : Fin maxEvents).val, .text "angle"] _ :=
    .output 2 (List.mem_cons_of_mem _ (List.mem_cons_of_mem _ List.mem_cons_self))
  have hf := (C84_get rate version struct dfltConsole_loaded hn (isGet_getReq _) hg).1
  obtain ⟨c', r, ha⟩ := C49_answered_partial rate version struct dfltConsole_loaded (isGet_getReq _) hg
    (not_pastLeaf hf) (by rintro ⟨r, h | h⟩ <;> simp at h) (v := .flt (.fin 45)) rfl (isSet_setReq _ _)
  have hs := (C49_set_partial rate version struct dfltConsole_loaded (isGet_getReq _) hg hf rfl (Or.inl rfl)
    (isSet_setReq _ _) ha).1
  have hs : r = .flt (.fin 45) := hs
  subst hs
  have h := C84_set rate version struct dfltConsole_loaded hn rfl rfl (isSet_setReq _ _) ha
  have h1 : Item.flt (c'.cfg.events 2).angle = .flt (.fin 45) := Option.some.inj h.1
  have h2 := h.2 _ _ (.output 2 List.mem_cons_self) (by simp)
  refine ⟨c', _, ha, by injection h1, ?_⟩
  have h3 : num32 (c'.cfg.events 2).pin = num32 (dfltConfig.events 2).pin := Option.some.inj h2
  simpa [num32, BitVec.toNat_inj] using h3

/-- C84, the feed: the value that stands in a feed message where the description has a name is the quantity
of that name; bit `j` of `sensor_faults` tells whether sensor `j` is faulty. -/
theorem C84_feed (s : FeedState) (now now' : Time) :
    ∃ ks vs, feedDescription feedNodes now =
        .ok (.map [.text "type", .text "description", .text "time", .int now.toNat, .text "keys", .arr false ks]) ∧
      feedLine feedNodes now' s =
        .ok (.map [.text "type", .text "feed", .text "time", .int now'.toNat, .text "values", .arr false vs]) ∧
      (∀ q ∈ feedQuantities, ∃ i : Nat, ks[i]? = some (.text q.1) ∧ vs[i]? = some (q.2 s)) ∧
      (∃ (i n : Nat), ks[i]? = some (.text "sensor_faults") ∧ vs[i]? = some (.int n) ∧
        ∀ j : Fin numSensors, n.testBit j = decide ((s.cfg.sensors j).fault ≠ .none)) ∧
      ks.length = feedQuantities.length + 1 := by
  refine ⟨_, _, rfl, rfl, ?_, ⟨27, (faultStatus s.cfg.sensors).toNat, rfl, rfl, fun j => ?_⟩, rfl⟩
  · simp only [feedQuantities, List.forall_mem_cons]
    refine ⟨⟨0, rfl, ?_⟩, ⟨1, rfl, ?_⟩, ⟨2, rfl, ?_⟩, ⟨3, rfl, ?_⟩, ⟨4, rfl, ?_⟩, ⟨5, rfl, ?_⟩, ⟨6, rfl, ?_⟩, ⟨7, rfl, ?_⟩, ⟨8, rfl, ?_⟩, ⟨9, rfl, ?_⟩, ⟨10, rfl, ?_⟩, ⟨11, rfl, ?_⟩, ⟨12, rfl, ?_⟩, ⟨13, rfl, ?_⟩, ⟨14, rfl, ?_⟩, ⟨15, rfl, ?_⟩, ⟨16, rfl, ?_⟩, ⟨17, rfl, ?_⟩, ⟨18, rfl, ?_⟩, ⟨19, rfl, ?_⟩, ⟨20, rfl, ?_⟩, ⟨21, rfl, ?_⟩, ⟨22, rfl, ?_⟩, ⟨23, rfl, ?_⟩, ⟨26, rfl, ?_⟩, ⟨24, rfl, ?_⟩, ⟨25, rfl, ?_⟩, ⟨28, rfl, ?_⟩, ⟨29, rfl, ?_⟩, ⟨30, rfl, ?_⟩, ⟨31, rfl, ?_⟩, ⟨32, rfl, ?_⟩, ⟨33, rfl, ?_⟩, ⟨34, rfl, ?_⟩, ⟨35, rfl, ?_⟩, fun _ h => absurd h List.not_mem_nil⟩
    all_goals first
      | rfl
      | (refine congrArg (fun n => some (Item.int n)) ?_
         first
          | (show ((flagU32 s.vals.rpmLimitCut).toNat : Int) = _; cases s.vals.rpmLimitCut <;> rfl)
          | (show ((flagU32 s.vals.boostCut).toNat : Int) = _; cases s.vals.boostCut <;> rfl)
          | (show ((flagU32 s.vals.overdutyCut).toNat : Int) = _; cases s.vals.overdutyCut <;> rfl)
          | (show ((flagU32 s.cfg.decoder.valid).toNat : Int) = _; cases s.cfg.decoder.valid <;> rfl)
          | (show (s.cfg.decoder.loss.code.toNat : Int) = _; cases s.cfg.decoder.loss <;> rfl))
  · rw [← faultStatus_bit]
    rfl

end

end Verif
