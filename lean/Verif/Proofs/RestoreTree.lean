/-
The console's tree of settings can be sent back.
-/
import Verif.Proofs.Restore

namespace Verif

theorem back_fields {σ : Type} {I J K : σ → Prop} {l : List (String × Node σ)} {post}
    (h : ∀ x ∈ l, Back I J K x.2) (hn : (l.map Prod.fst).Nodup)
    (hr : l.Pairwise fun a b => ∀ s s', I s → Resizes b.2 s s' → dump a.2 s' = dump a.2 s)
    (hf : ∀ j (hj : j < l.length), ∀ s0 s, J s0 → I s →
      (∀ i (hi : i < j), dump (l[i]'(by omega)).2 s = dump (l[i]'(by omega)).2 s0) → Takes l[j].2 s0 s)
    (hp : ∀ s, I s → K s → ∃ s', post s = .ok s' ∧ K s') : Back I J K (.fields l post) := by
  have hmem : ∀ i, i < (l.map Prod.fst).length → ∃ h : i < l.length, (l.getD i ("", Node.oob)) = l[i] := by
    intro i hi
    rw [List.length_map] at hi
    exact ⟨hi, by simp [List.getD, hi]⟩
  refine ⟨fun i hi => ?_, hn, fun i j hij hjl s s' hs hres => ?_, fun j hjl s0 s hj hs hd => ?_, hp⟩
  · obtain ⟨h1, h2⟩ := hmem i hi
    dsimp only
    rw [h2]
    exact h _ (List.getElem_mem h1)
  · obtain ⟨h1, h2⟩ := hmem i (by omega)
    obtain ⟨h3, h4⟩ := hmem j hjl
    dsimp only at hres ⊢
    rw [h4] at hres
    rw [h2]
    rw [List.pairwise_iff_getElem] at hr
    exact hr i j h1 h3 hij s s' hs hres
  · obtain ⟨h3, h4⟩ := hmem j hjl
    dsimp only
    rw [h4]
    refine hf j h3 s0 s hj hs fun i hi => ?_
    obtain ⟨h1, h2⟩ := hmem i (by omega)
    have := hd i hi
    dsimp only at this
    rwa [h2] at this

/-- Fields none of which is a list whose size depends on another. -/
theorem back_loose {σ : Type} {I J K : σ → Prop} {l : List (String × Node σ)} {post}
    (h : ∀ x ∈ l, Back I J K x.2) (hn : (l.map Prod.fst).Nodup)
    (hr : l.Pairwise fun a b => ∀ s s', I s → Resizes b.2 s s' → dump a.2 s' = dump a.2 s)
    (hf : ∀ x ∈ l, ∀ s0 s, Takes x.2 s0 s)
    (hp : ∀ s, I s → K s → ∃ s', post s = .ok s' ∧ K s') : Back I J K (.fields l post) :=
  back_fields h hn hr (fun j hj s0 s _ _ _ => hf _ (List.getElem_mem hj) s0 s) hp

theorem post_back {σ : Type} {I K : σ → Prop} (s : σ) (_ : I s) (h : K s) :
    ∃ s', (Except.ok s : Except Fault σ) = .ok s' ∧ K s' := ⟨s, rfl, h⟩

theorem back_fixedArr {σ : Type} {I J K : σ → Prop} {n : Nat} {elem : Fin n → Node σ}
    (h : ∀ i, Back I J K (elem i)) (hr : ∀ i, Fixed (elem i)) (hf : ∀ i s0 s, Takes (elem i) s0 s) :
    Back I J K (fixedArr n elem) := by
  refine ⟨fun i => ?_, fun i s s' hw => ?_, fun i j s0 s s' _ _ _ => ?_, fun l hl => by cases hl⟩
  · dsimp only
    split
    · exact h _
    · trivial
  · dsimp only at hw
    split at hw
    · exact hr _ _ _ hw
    · cases hw
  · dsimp only
    split
    · exact hf _ _ _
    · trivial

theorem fits_fixedArr {σ : Type} {n : Nat} {elem : Fin n → Node σ} (hf : ∀ i s0 s, Takes (elem i) s0 s)
    (s0 s : σ) : Takes (fixedArr n elem) s0 s := by
  refine ⟨rfl, fun i => ?_⟩
  dsimp only
  split
  · exact hf _ _ _
  · trivial

section
variable [FloatFmt] [LibM]

/-- What is assumed of the configuration that was read. -/
def Source (rate : BitVec 32) (c : Console) : Prop := Loaded c ∧ Titled c ∧ KnockReady rate c

abbrev BackC (rate : BitVec 32) (n : Node Console) : Prop := Back Loaded (Source rate) (KnockReady rate) n

variable (rate : BitVec 32)

omit [FloatFmt] in
theorem resize_fixed {a b : Node Console} (h : Fixed b) (s s' : Console) (_ : Loaded s) (hr : Resizes b s s') :
    dump a s' = dump a s := (h s s' hr).elim

macro "back_pair" : tactic => `(tactic| exact resize_fixed (by fixed_leaf))
macro "fits_leaf" : tactic => `(tactic| exact fun _ _ => trivial)

theorem dec_mem (x : DecType) : x.code ∈ [(0 : Int), 1, 2, 3] := by cases x <;> decide
theorem ev_mem (x : EvType) : x.code ∈ [(0 : Int), 1, 2] := by cases x <;> decide
theorem source_mem (x : SensorSource) : x.code ∈ [(0 : Int), 1, 2, 3, 4] := by cases x <;> decide
theorem method_mem (x : SensorMethod) : x.code ∈ [(0 : Int), 1, 2] := by cases x <;> decide
theorem edge_mem (x : TrigEdge) : x.code ∈ [(0 : Int), 1, 2] := by cases x <;> decide
theorem freq_mem (x : FreqType) : x.code ∈ [(0 : Int), 1, 2] := by cases x <;> decide

macro "back_any" : tactic => `(tactic| first
  | exact fun s0 s _ h => h
  | exact ⟨fun s0 _ => dec_mem _, fun s0 s _ h => h⟩
  | exact ⟨fun s0 _ => ev_mem _, fun s0 s _ h => h⟩
  | exact ⟨fun s0 _ => source_mem _, fun s0 s _ h => h⟩
  | exact ⟨fun s0 _ => method_mem _, fun s0 s _ h => h⟩
  | exact ⟨fun s0 _ => edge_mem _, fun s0 s _ h => h⟩
  | exact ⟨fun s0 _ => freq_mem _, fun s0 s _ h => h⟩)

macro "back_plain" : tactic => `(tactic| (
  refine back_loose ?_ (by simp only [List.map_cons, List.map_nil]; decide) ?_ ?_ post_back
  · each
    all_goals back_any
  · each
    all_goals back_pair
  · each
    all_goals fits_leaf))

theorem back_decoder : BackC rate decoderNode := by unfold decoderNode; back_plain
theorem back_output (i : Fin maxEvents) : BackC rate (outputNode (Lens.comp (fld% cfg.events) (Lens.ix i))) := by
  unfold outputNode; back_plain
theorem back_outputs : BackC rate outputsNode :=
  back_fixedArr (fun i => back_output rate i) (fun _ => fixed_output _) fun _ _ _ => trivial
theorem back_freq (i : Fin 4) : BackC rate (freqNode (Lens.comp (fld% freq) (Lens.ix i))) := by
  unfold freqNode; back_plain
theorem back_freqList : BackC rate freqListNode :=
  back_fixedArr (fun i => back_freq rate i) (fun _ => fixed_freq _) fun _ _ _ => trivial
theorem back_crank : BackC rate crankNode := by unfold crankNode; back_plain
theorem back_fueling : BackC rate fuelingNode := by
  unfold fuelingNode
  refine back_loose ?_ (by simp only [List.map_cons, List.map_nil]; decide) ?_ ?_ post_back
  · each
    all_goals first
      | exact back_crank rate
      | back_any
  · each
    all_goals first
      | exact resize_fixed fixed_crank
      | back_pair
  · each
    all_goals fits_leaf
theorem back_ignition : BackC rate ignitionNode := by unfold ignitionNode; back_plain
theorem back_cel : BackC rate celNode := by unfold celNode; back_plain
theorem back_test : BackC rate testNode := by unfold testNode; back_plain
theorem back_sensor (i : Fin numSensors) :
    BackC rate (sensorNode (Lens.comp (fld% cfg.sensors) (Lens.ix i))) := by
  unfold sensorNode; back_plain

/-! ### knock sensors -/

theorem knock_ready {k k' : Knock} (h : k'.frequency = k.frequency) (hk : ∃ x, knockConfigure rate k = .ok x) :
    ∃ x, knockConfigure rate k' = .ok x := by
  obtain ⟨x, hx⟩ := hk
  unfold knockConfigure at hx ⊢
  obtain ⟨b, hb, _⟩ := bind_eq_ok.mp hx
  rw [h]
  dsimp only
  rw [hb]
  exact ⟨_, rfl⟩

theorem back_knock (i : Fin 2) : BackC rate (knockNode rate (Lens.comp (fld% cfg.knock) (Lens.ix i))) := by
  unfold knockNode
  refine back_loose ?_ (by simp only [List.map_cons, List.map_nil]; decide) ?_ ?_ ?_
  · each
    · intro s0 s hj hk j
      by_cases h : j = i
      · subst h
        exact knock_ready rate (k := s0.cfg.knock j) (by simp [Lens.comp, Lens.ix]) (hj.2.2 j)
      · exact knock_ready rate (k := s.cfg.knock j) (by simp [Lens.comp, Lens.ix, h]) (hk j)
    · intro s0 s hj hk j
      refine knock_ready rate (k := s.cfg.knock j) ?_ (hk j)
      by_cases h : j = i
      · subst h
        simp [Lens.comp, Lens.ix]
      · simp [Lens.comp, Lens.ix, h]
  · each
    all_goals back_pair
  · each
    all_goals fits_leaf
  · intro s _ hk
    obtain ⟨k0, h0⟩ := hk 0
    obtain ⟨k1, h1⟩ := hk 1
    have : ∃ s', knockPost rate s = .ok s' := by
      unfold knockPost
      rw [h0, except_bind_ok, h1, except_bind_ok]
      exact ⟨_, rfl⟩
    obtain ⟨s', h⟩ := this
    refine ⟨s', h, fun i => ?_⟩
    obtain ⟨k, -, h2⟩ := knockPost_same h
    have := h2 i
    simp only [knockSeen, Prod.mk.injEq] at this
    exact knock_ready rate this.1 (hk i)

theorem back_sensors : BackC rate (sensorsNode rate) := by
  refine ⟨fun i hi => ?_, by decide, fun i j _ _ s s' _ hr => ?_, fun j _ s0 s _ _ _ => ?_, post_back⟩
  · dsimp only
    split
    · exact back_sensor rate _
    · split
      · exact back_knock rate 0
      · exact back_knock rate 1
  · exfalso
    dsimp only at hr
    split at hr
    · exact fixed_sensor _ _ _ hr
    · split at hr <;> exact fixed_knock _ _ _ _ hr
  · dsimp only
    split
    · trivial
    · split <;> trivial

/-! ### tables -/

/-- Axes that show the same have the same number of values. -/
theorem axis_num {la : Lens Console Axis} {name : Lens Console String} (h : AxisL la name) {s0 s : Console}
    (h0 : Loaded s0) (hs : Loaded s) (he : dump (axisNode la name) s = dump (axisNode la name) s0) :
    (la.get s).num = (la.get s0).num := by
  have key : ∀ c, Loaded c → ∃ d l, dump (axisNode la name) c = .ok d ∧
      Item.step (.text "values") d = some (.arr false l) ∧ l.length = (la.get c).num := by
    intro c hc
    have hn := h.small c hc
    obtain ⟨d, hd⟩ := shows_axis c hc
    have hf : ((List.range 2).find? fun i => pathMatchStr [.text "values"] (["name", "values"].getD i "")) =
      some 1 := by decide
    obtain ⟨x, h1, h2⟩ := step_map hd hf
    simp only [List.getD_cons_succ, List.getD_cons_zero, dump] at h1
    split at h1
    · cases h1
    · rename_i l hl
      cases h1
      refine ⟨d, l, hd, h2, ?_⟩
      rw [(collect_get hl).1, Nat.min_eq_left hn]
  obtain ⟨d, l, h1, h2, h3⟩ := key s hs
  obtain ⟨d0, l0, h4, h5, h6⟩ := key s0 h0
  rw [h1, h4] at he
  cases he
  rw [h2] at h5
  cases h5
  rw [← h3, ← h6]

theorem back_axis {la : Lens Console Axis} {name : Lens Console String} (h : AxisL la name)
    (hsize : ∀ s k, Loaded s → k ≤ maxAxis → Loaded (la.set { la.get s with num := k } s))
    (ht : ∀ s, Source rate s → IsTitle (name.get s))
    (hk : ∀ s a, KnockReady rate s → KnockReady rate (la.set a s))
    (hk' : ∀ s v, KnockReady rate s → KnockReady rate (name.set v s)) : BackC rate (axisNode la name) := by
  unfold axisNode
  refine back_loose ?_ (by simp only [List.map_cons, List.map_nil]; decide) ?_ ?_ post_back
  · each
    · exact ⟨ht, fun s0 s _ h => hk' _ _ h⟩
    · refine ⟨fun i => ?_, fun i s s' hr => ?_, fun i j s0 s s' _ _ _ => ?_, fun l hl => ?_⟩
      · dsimp only
        split
        · exact fun s0 s _ h => hk _ _ h
        · trivial
      · dsimp only at hr
        split at hr <;> cases hr
      · dsimp only
        split <;> trivial
      · cases hl
        refine ⟨fun s k hs hkm => ⟨hsize s k hs hkm, ?_, fun h => hk _ _ h⟩, fun s hs => min_le_right _ _,
          fun i s0 s => ?_⟩
        · simp only [Lens.comp, h.gs _ _ hs]
          exact Nat.min_eq_left hkm
        · dsimp only
          split <;> trivial
  · each
    intro s s' hs hr
    cases hr with
    | here l count elem s k hk => simp only [dump, Lens.comp, h.nl]
    | arr i hr =>
      dsimp only at hr
      split at hr <;> cases hr
  · each
    · fits_leaf
    · fits_leaf

theorem back_data1 {t : Lens Console (Option Table1d)} 
    (hk : ∀ s a, KnockReady rate s → KnockReady rate (t.set a s)) :
    BackC rate (.arr none (fun c => ((t.comp (Lens.some noTable1)).get c).cols.num) fun i =>
      if h : i < maxAxis then
        .flt ((t.comp (Lens.some noTable1)).comp (Lens.comp (fld% data) (Lens.ix ⟨i, h⟩))) else .oob) := by
  refine ⟨fun i => ?_, fun i s s' hr => ?_, fun i j s0 s s' _ _ _ => ?_, fun l hl => by cases hl⟩
  · dsimp only
    split
    · exact fun s0 s _ h => hk _ _ h
    · trivial
  · dsimp only at hr
    split at hr <;> cases hr
  · dsimp only
    split <;> trivial

theorem back_table1 {t : Lens Console (Option Table1d)} (h : TabL Has1 t) (k : Fin 10)
    (hk : ∀ s a, KnockReady rate s → KnockReady rate (t.set a s)) : BackC rate (table1Node t k) := by
  refine ⟨back_fields ?_ (by simp only [List.map_cons, List.map_nil]; decide) ?_ ?_ post_back, fun s hs => ?_⟩
  · each
    · exact ⟨fun s hs => (hs.2.1 k).1, fun s0 s _ h => h⟩
    · refine back_axis rate (h.cols1 k) (fun s n hs hn => h.inv _ _ hs ?_) (fun s hs => (hs.2.1 k).2.1)
        (fun s a h => hk _ _ h) (fun s v h => h)
      obtain ⟨T, hT, _⟩ := h.has s hs
      simp only [Lens.comp, Lens.some, hT, Option.getD_some, Option.map_some]
      exact ⟨_, rfl, hn⟩
    · exact back_data1 rate hk
  · each
    · intro s s' hs hr
      exact (reads_name (r := fun c => c.title k) fun s s' he => he) _ _
        (keepsR_axis (I := Loaded) (r := fun c => c.title k) (fun s a _ => by simp [Lens.comp, h.title]) s s' hs hr)
    · exact resize_fixed fixed_data1
    · exact resize_fixed fixed_data1
  · intro j hj s0 s hJ hs hd
    have hj : j < 3 := hj
    interval_cases j
    · trivial
    · trivial
    · refine ⟨?_, fun i => ?_⟩
      · exact axis_num (h.cols1 k) hJ.1 hs (hd 1 (by decide))
      · dsimp only
        split <;> trivial
  · obtain ⟨T, hT, _⟩ := h.has s hs
    simp [hT]

theorem back_data2 {t : Lens Console (Option Table2d)} (h : TabL Has2 t)
    (hk : ∀ s a, KnockReady rate s → KnockReady rate (t.set a s)) : BackC rate (data2Node t) := by
  have hfe : ∀ r i s0 s, Takes (if h : r < maxAxis ∧ i < maxAxis then
      Node.flt ((t.comp (Lens.some noTable2)).comp
        (Lens.comp (fld% data) (Lens.comp (Lens.ix ⟨r, h.1⟩) (Lens.ix ⟨i, h.2⟩)))) else .oob) s0 s := by
    intro r i s0 s
    split <;> trivial
  refine ⟨fun r => ⟨fun i => ?_, fun i s s' hr => ?_, fun i j s0 s s' _ _ _ => hfe r i s0 s', fun l hl => by cases hl⟩,
    fun r s s' hr => ?_, fun r r' s0 s s' hs hw hf => ?_, fun l hl => by cases hl⟩
  · dsimp only
    split
    · exact fun s0 s _ h => hk _ _ h
    · trivial
  · dsimp only at hr
    split at hr <;> cases hr
  · unfold data2Row at hr
    cases hr with
    | arr i hr =>
      dsimp only at hr
      split at hr <;> cases hr
  · obtain ⟨T, T', hT, rfl, hc, _, _⟩ := writes_row2 h hs hw
    refine ⟨?_, fun i => hfe r i s0 _⟩
    rw [← hf.1]
    simp [Lens.comp, Lens.some, h.gs, hT, hc]

theorem back_table2 {t : Lens Console (Option Table2d)} (h : TabL Has2 t) (k : Fin 10)
    (hk : ∀ s a, KnockReady rate s → KnockReady rate (t.set a s)) : BackC rate (table2Node t k) := by
  rw [table2Node_eq]
  refine ⟨back_fields ?_ (by simp only [List.map_cons, List.map_nil]; decide) ?_ ?_ post_back, fun s hs => ?_⟩
  · each
    · exact ⟨fun s hs => (hs.2.1 k).1, fun s0 s _ h => h⟩
    · refine back_axis rate (h.cols2 k) (fun s n hs hn => h.inv _ _ hs ?_) (fun s hs => (hs.2.1 k).2.1)
        (fun s a h => hk _ _ h) (fun s v h => h)
      obtain ⟨T, hT, h1, h2⟩ := h.has s hs
      simp only [Lens.comp, Lens.some, hT, Option.getD_some, Option.map_some]
      exact ⟨_, rfl, h1, hn⟩
    · refine back_axis rate (h.rows2 k) (fun s n hs hn => h.inv _ _ hs ?_) (fun s hs => (hs.2.1 k).2.2)
        (fun s a h => hk _ _ h) (fun s v h => h)
      obtain ⟨T, hT, h1, h2⟩ := h.has s hs
      simp only [Lens.comp, Lens.some, hT, Option.getD_some, Option.map_some]
      exact ⟨_, rfl, hn, h2⟩
    · exact back_data2 rate h hk
  · each
    · intro s s' hs hr
      exact (reads_name (r := fun c => c.title k) fun s s' he => he) _ _
        (keepsR_axis (I := Loaded) (r := fun c => c.title k) (fun s a _ => by simp [Lens.comp, h.title]) s s' hs hr)
    · intro s s' hs hr
      exact (reads_name (r := fun c => c.title k) fun s s' he => he) _ _
        (keepsR_axis (I := Loaded) (r := fun c => c.title k) (fun s a _ => by simp [Lens.comp, h.title]) s s' hs hr)
    · exact resize_fixed fixed_data2
    · intro s s' hs hr
      exact (reads_axis (r := fun c => (((t.get c).getD noTable2).cols, c.colName k))
          (fun s s' he => by simp at he; simp [Lens.comp, Lens.some, he.1])
          (fun s s' he => by simp at he; simp [Lens.comp, Lens.ix, he.2])) _ _
        (keepsR_axis (I := Loaded) (r := fun c => (((t.get c).getD noTable2).cols, c.colName k)) (fun s a _ => by
          cases hT : t.get s <;> simp [Lens.comp, Lens.some, h.gs, hT, h.col]) s s' hs hr)
    · exact resize_fixed fixed_data2
    · exact resize_fixed fixed_data2
  · intro j hj s0 s hJ hs hd
    have hj : j < 4 := hj
    interval_cases j
    · trivial
    · trivial
    · trivial
    · have h1 := axis_num (h.cols2 k) hJ.1 hs (hd 1 (by decide))
      have h2 := axis_num (h.rows2 k) hJ.1 hs (hd 2 (by decide))
      refine ⟨h2, fun r => ⟨h1, fun i => ?_⟩⟩
      dsimp only
      split <;> trivial
  · obtain ⟨T, hT, _⟩ := h.has s hs
    simp [hT]

theorem resizes11 {t : Lens Console (Option Table1d)} {t' : Lens Console (Option Table1d)} {k k' : Fin 10}
    (h : TabL Has1 t) (h' : TabL Has1 t') (hk : k ≠ k') (ht : ∀ s a, t.get (t'.set a s) = t.get s) (s s' : Console)
    (hs : Loaded s) (hr : Resizes (table1Node t' k') s s') :
    dump (table1Node t k) s' = dump (table1Node t k) s :=
  seen1 t k _ _ (keepsR_table1 (I := Loaded) (off_seen h h' hk ht).tab s s' hs hr)
theorem resizes12 {t : Lens Console (Option Table1d)} {t' : Lens Console (Option Table2d)} {k k' : Fin 10}
    (h : TabL Has1 t) (h' : TabL Has2 t') (hk : k ≠ k') (ht : ∀ s a, t.get (t'.set a s) = t.get s) (s s' : Console)
    (hs : Loaded s) (hr : Resizes (table2Node t' k') s s') :
    dump (table1Node t k) s' = dump (table1Node t k) s :=
  seen1 t k _ _ (keepsR_table2 (I := Loaded) (off_seen h h' hk ht).tab s s' hs hr)
theorem resizes21 {t : Lens Console (Option Table2d)} {t' : Lens Console (Option Table1d)} {k k' : Fin 10}
    (h : TabL Has2 t) (h' : TabL Has1 t') (hk : k ≠ k') (ht : ∀ s a, t.get (t'.set a s) = t.get s) (s s' : Console)
    (hs : Loaded s) (hr : Resizes (table1Node t' k') s s') :
    dump (table2Node t k) s' = dump (table2Node t k) s :=
  seen2 t k _ _ (keepsR_table1 (I := Loaded) (off_seen h h' hk ht).tab s s' hs hr)
theorem resizes22 {t : Lens Console (Option Table2d)} {t' : Lens Console (Option Table2d)} {k k' : Fin 10}
    (h : TabL Has2 t) (h' : TabL Has2 t') (hk : k ≠ k') (ht : ∀ s a, t.get (t'.set a s) = t.get s) (s s' : Console)
    (hs : Loaded s) (hr : Resizes (table2Node t' k') s s') :
    dump (table2Node t k) s' = dump (table2Node t k) s :=
  seen2 t k _ _ (keepsR_table2 (I := Loaded) (off_seen h h' hk ht).tab s s' hs hr)

theorem back_tables : BackC rate tablesNode := by
  unfold tablesNode
  refine back_loose ?_ (by simp only [List.map_cons, List.map_nil]; decide) ?_ ?_ post_back
  · each
    all_goals first
      | exact back_table2 rate (by tab_any) _ (by intro s a h; exact h)
      | exact back_table1 rate (by tab_any) _ (by intro s a h; exact h)
  · each
    all_goals first
      | exact resizes11 (by tab_any) (by tab_any) (by decide) (fun _ _ => rfl)
      | exact resizes12 (by tab_any) (by tab_any) (by decide) (fun _ _ => rfl)
      | exact resizes21 (by tab_any) (by tab_any) (by decide) (fun _ _ => rfl)
      | exact resizes22 (by tab_any) (by tab_any) (by decide) (fun _ _ => rfl)
  · each
    all_goals fits_leaf

theorem back_boost : BackC rate boostNode := by
  unfold boostNode
  refine back_loose ?_ (by simp only [List.map_cons, List.map_nil]; decide) ?_ ?_ post_back
  · each
    all_goals first
      | exact back_table1 rate tab_duty _ (fun _ _ h => h)
      | back_any
  · each
    all_goals first
      | (intro s s' hs hr
         have := keepsR_table1 (I := Loaded) (r := boostScalars) (fun _ _ => rfl) s s' hs hr
         simp only [boostScalars, Prod.mk.injEq] at this
         simp only [dump, this]
         done)
      | back_pair
  · each
    all_goals fits_leaf

omit [FloatFmt] [LibM] in
theorem resizes_boost {ρ : Type} {r : Console → ρ} {m : Node Console} (hm : Sees r m)
    (h : ∀ s a, r ((fld% cfg.boost.duty).set a s) = r s) (s s' : Console) (hs : Loaded s)
    (hr : Resizes boostNode s s') : dump m s' = dump m s :=
  hm _ _ (keepsR_boost (I := Loaded) h s s' hs hr)

/-- Changing the tables leaves `r` alone. -/
def OffTables {ρ : Type} (r : Console → ρ) : Prop :=
  (∀ s a, r ((fld% cfg.ve).set a s) = r s) ∧ (∀ s a, r ((fld% cfg.lambda).set a s) = r s) ∧
  (∀ s a, r ((fld% cfg.dwell).set a s) = r s) ∧ (∀ s a, r ((fld% cfg.timing).set a s) = r s) ∧
  (∀ s a, r ((fld% cfg.deadtime).set a s) = r s) ∧ (∀ s a, r ((fld% cfg.pwCorrection).set a s) = r s) ∧
  (∀ s a, r ((fld% cfg.tempEnrich).set a s) = r s) ∧ (∀ s a, r ((fld% cfg.tipinAmount).set a s) = r s) ∧
  (∀ s a, r ((fld% cfg.tipinDuration).set a s) = r s)

omit [FloatFmt] [LibM] in
theorem resizes_tables {ρ : Type} {r : Console → ρ} {m : Node Console} (hm : Sees r m) (h : OffTables r)
    (s s' : Console) (hs : Loaded s) (hr : Resizes tablesNode s s') : dump m s' = dump m s := by
  obtain ⟨h0, h1, h2, h3, h4, h5, h6, h7, h8⟩ := h
  exact hm _ _ (keepsR_tables (I := Loaded) h0 h1 h2 h3 h4 h5 h6 h7 h8 s s' hs hr)

theorem back_console (version : String) : BackC rate (consoleTree rate version) := by
  unfold consoleTree
  refine back_loose ?_ (by simp only [List.map_cons, List.map_nil]; decide) ?_ ?_ post_back
  · each
    · exact back_decoder rate
    · exact back_sensors rate
    · exact back_outputs rate
    · exact back_fueling rate
    · exact back_ignition rate
    · exact back_tables rate
    · exact back_boost rate
    · exact back_cel rate
    · exact back_freqList rate
    · exact back_test rate
    · refine back_loose ?_ (by simp) ?_ ?_ post_back
      · each
        trivial
      · each
      · each
        fits_leaf
  · each
    all_goals first
      | exact resize_fixed (fixed_sensors rate)
      | exact resize_fixed fixed_outputs
      | exact resize_fixed fixed_fueling
      | exact resize_fixed fixed_ignition
      | exact resize_fixed fixed_cel
      | exact resize_fixed fixed_freqList
      | exact resize_fixed fixed_test
      | exact resize_fixed (fixed_info version)
      | exact resizes_boost foot_decoder.1 (by intros; rfl)
      | exact resizes_boost (reads_sensors rate) (by intros; rfl)
      | exact resizes_boost foot_outputs.1 (by intros; rfl)
      | exact resizes_boost foot_fueling.1 (by intros; rfl)
      | exact resizes_boost foot_ignition.1 (by intros; rfl)
      | exact resizes_boost reads_tables (by intros; rfl)
      | exact resizes_tables foot_decoder.1 (by refine ⟨?_, ?_, ?_, ?_, ?_, ?_, ?_, ?_, ?_⟩ <;> (intros; rfl))
      | exact resizes_tables (reads_sensors rate) (by refine ⟨?_, ?_, ?_, ?_, ?_, ?_, ?_, ?_, ?_⟩ <;> (intros; rfl))
      | exact resizes_tables foot_outputs.1 (by refine ⟨?_, ?_, ?_, ?_, ?_, ?_, ?_, ?_, ?_⟩ <;> (intros; rfl))
      | exact resizes_tables foot_fueling.1 (by refine ⟨?_, ?_, ?_, ?_, ?_, ?_, ?_, ?_, ?_⟩ <;> (intros; rfl))
      | exact resizes_tables foot_ignition.1 (by refine ⟨?_, ?_, ?_, ?_, ?_, ?_, ?_, ?_, ?_⟩ <;> (intros; rfl))
  · each
    all_goals first
      | fits_leaf
      | exact fits_fixedArr fun _ _ _ => trivial

/-! ### paths -/

omit [FloatFmt] [LibM]

theorem PartPath.tail {k : Item} {r : List Item} (h : PartPath (k :: r)) : PartPath r := by
  refine ⟨fun hm => h.1 (by simp [hm]), fun q r' he => h.2 (k :: q) r' ?_⟩
  rw [he]; rfl

theorem leads_fields {σ : Type} {l : List (String × Node σ)} {post} {p : List Item} (hp : PartPath p)
    (h : ∀ x ∈ l, ∀ r, p = .text x.1 :: r → PartPath r → Leads x.2 r) : Leads (.fields l post) p := by
  cases p with
  | nil => trivial
  | cons k r =>
    intro i hil hk
    rw [List.length_map] at hil
    have : (l.getD i ("", Node.oob)) = l[i] := by simp [List.getD, hil]
    dsimp only
    rw [this]
    refine h _ (List.getElem_mem hil) r ?_ hp.tail
    rw [hk]
    simp [List.getD, hil]

theorem leads_leaf {σ : Type} {l : List (String × Node σ)} {post} {p : List Item} (hp : PartPath p)
    (h : ∀ x ∈ l, ∀ r, Leads x.2 r) : Leads (.fields l post) p :=
  leads_fields hp fun x hx r _ _ => h x hx r

macro "leads_plain" hp:term : tactic => `(tactic| (
  refine leads_leaf $hp ?_
  each
  all_goals exact fun _ => trivial))

theorem leads_fixedArr {σ : Type} {n : Nat} {elem : Fin n → Node σ} (hf : ∀ i s0 s, Takes (elem i) s0 s)
    {p : List Item} (hp : PartPath p) (h : ∀ i r, PartPath r → Leads (elem i) r) : Leads (fixedArr n elem) p := by
  cases p with
  | nil => exact fun s0 s => fits_fixedArr hf s0 s
  | cons k r =>
    refine ⟨fun _ _ => rfl, fun i => ?_⟩
    dsimp only
    split
    · exact h _ _ hp.tail
    · trivial

theorem leads_axis (la : Lens Console Axis) (name : Lens Console String) {p : List Item} (hp : PartPath p) :
    Leads (axisNode la name) p := by
  unfold axisNode
  refine leads_fields hp ?_
  each
  · exact fun _ _ _ => trivial
  · intro r he _
    exact hp.2 [] r he

theorem not_data {σ : Type} {n : Node σ} {p : List Item} (hp : PartPath p) (r : List Item)
    (he : p = .text "data" :: r) (_ : PartPath r) : Leads n r := by
  subst he
  exact (hp.1 (by simp)).elim

theorem leads_table1 (t : Lens Console (Option Table1d)) (k : Fin 10) {p : List Item} (hp : PartPath p) :
    Leads (table1Node t k) p := by
  refine leads_fields (l := _) hp ?_
  each
  · exact fun _ _ _ => trivial
  · exact fun r _ hr => leads_axis _ _ hr
  · exact not_data hp

theorem leads_table2 (t : Lens Console (Option Table2d)) (k : Fin 10) {p : List Item} (hp : PartPath p) :
    Leads (table2Node t k) p := by
  rw [table2Node_eq]
  refine leads_fields (l := _) hp ?_
  each
  · exact fun _ _ _ => trivial
  · exact fun r _ hr => leads_axis _ _ hr
  · exact fun r _ hr => leads_axis _ _ hr
  · exact not_data hp

theorem leads_console [FloatFmt] [LibM] (version : String) {p : List Item} (hp : PartPath p) :
    Leads (consoleTree rate version) p := by
  unfold consoleTree
  refine leads_fields hp ?_
  each
  · intro r _ hr; unfold decoderNode; leads_plain hr
  · intro r _ hr
    cases r with
    | nil => trivial
    | cons k r =>
      intro i hi _
      dsimp only
      split
      · unfold sensorNode; leads_plain hr.tail
      · split
        · unfold knockNode; leads_plain hr.tail
        · unfold knockNode; leads_plain hr.tail
  · intro r _ hr
    unfold outputsNode
    refine leads_fixedArr ?_ hr ?_
    · exact fun _ _ _ => trivial
    · intro i r hr; unfold outputNode; leads_plain hr
  · intro r _ hr
    unfold fuelingNode
    refine leads_fields hr ?_
    each
    all_goals first
      | exact fun _ _ _ => trivial
      | (intro r _ hr
         unfold crankNode
         leads_plain hr)
  · intro r _ hr; unfold ignitionNode; leads_plain hr
  · intro r _ hr
    unfold tablesNode
    refine leads_fields hr ?_
    each
    all_goals first
      | exact fun r _ hr => leads_table2 _ _ hr
      | exact fun r _ hr => leads_table1 _ _ hr
  · intro r _ hr
    unfold boostNode
    refine leads_fields hr ?_
    each
    all_goals first
      | exact fun r _ hr => leads_table1 _ _ hr
      | exact fun _ _ _ => trivial
  · intro r _ hr; unfold celNode; leads_plain hr
  · intro r _ hr
    unfold freqListNode
    refine leads_fixedArr ?_ hr ?_
    · exact fun _ _ _ => trivial
    · intro i r hr; unfold freqNode; leads_plain hr
  · intro r _ hr; unfold testNode; leads_plain hr
  · intro r _ hr; leads_plain hr

end

end Verif
