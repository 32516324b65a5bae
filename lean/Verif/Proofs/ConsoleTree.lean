/-
The console's own tree of fields consists of separate pieces of memory (`WF`).
-/
import Mathlib.Tactic.IntervalCases
import Verif.Proofs.Request

namespace Verif

section
variable {σ τ : Type}

/-! ### Footprints -/

/-- What is shown of `n` depends on `r` only. -/
def Sees {ρ : Type} (r : σ → ρ) (n : Node σ) : Prop := ∀ s s', r s = r s' → dump n s = dump n s'

/-- Writing under `n` leaves `r` alone. -/
def Keeps {ρ : Type} (I : σ → Prop) (r : σ → ρ) (n : Node σ) : Prop :=
  ∀ s s', I s → Writes n s s' → r s' = r s

theorem indep_of {ρ : Type} {I : σ → Prop} {r : σ → ρ} {n m : Node σ} (hk : Keeps I r n) (hr : Sees r m) :
    Indep I n m := fun s s' hi hw => hr _ _ (hk s s' hi hw)

/-- Everything under `n` is inside the piece `k`. -/
def Foot (I : σ → Prop) (k : Lens σ τ) (n : Node σ) : Prop :=
  Sees k.get n ∧ ∀ s s', I s → Writes n s s' → s' = k.set (k.get s') s

theorem Foot.keeps {ρ : Type} {I : σ → Prop} {k : Lens σ τ} {n : Node σ} (h : Foot I k n) {r : σ → ρ}
    (hr : ∀ a s, r (k.set a s) = r s) : Keeps I r n := by
  intro s s' hi hw
  rw [h.2 s s' hi hw, hr]

theorem Foot.indep {τ' : Type} {I : σ → Prop} {k : Lens σ τ} {k' : Lens σ τ'} {n m : Node σ} (h : Foot I k n)
    (h' : Foot I k' m) (hr : ∀ a s, k'.get (k.set a s) = k'.get s) : Indep I n m :=
  indep_of (h.keeps hr) h'.1

theorem Foot.mono {τ' : Type} {I : σ → Prop} {k : Lens σ τ} {k' : Lens σ τ'} {n : Node σ} (h : Foot I k n)
    (hg : ∀ s s', k'.get s = k'.get s' → k.get s = k.get s')
    (hs : ∀ a s, k.set a s = k'.set (k'.get (k.set a s)) s) : Foot I k' n := by
  refine ⟨fun s s' he => h.1 s s' (hg s s' he), fun s s' hi hw => ?_⟩
  have h1 := h.2 s s' hi hw
  rw [h1] 
  exact hs _ _

/-- A leaf inside a piece. -/
def Inside {α : Type} (I : σ → Prop) (k : Lens σ τ) (l : Lens σ α) : Prop :=
  (∀ s s', k.get s = k.get s' → l.get s = l.get s') ∧ ∀ v s, I s → l.set v s = k.set (k.get (l.set v s)) s

theorem foot_u32 {I : σ → Prop} {k : Lens σ τ} {l} (h : Inside I k l) : Foot I k (.u32 l) :=
  ⟨fun s s' he => by rw [dump, dump, h.1 s s' he], fun s s' hi hw => by cases hw; exact h.2 _ _ hi⟩
theorem foot_flt {I : σ → Prop} {k : Lens σ τ} {l} (h : Inside I k l) : Foot I k (.flt l) :=
  ⟨fun s s' he => by rw [dump, dump, h.1 s s' he], fun s s' hi hw => by cases hw; exact h.2 _ _ hi⟩
theorem foot_bool {I : σ → Prop} {k : Lens σ τ} {l} (h : Inside I k l) : Foot I k (.bool l) :=
  ⟨fun s s' he => by rw [dump, dump, h.1 s s' he], fun s s' hi hw => by cases hw; exact h.2 _ _ hi⟩
theorem foot_enum {I : σ → Prop} {k : Lens σ τ} {c l} (h : Inside I k l) : Foot I k (.enum c l) :=
  ⟨fun s s' he => by rw [dump, dump, h.1 s s' he], fun s s' hi hw => by cases hw; exact h.2 _ _ hi⟩
theorem foot_text {I : σ → Prop} {k : Lens σ τ} {l} (h : Inside I k l) : Foot I k (.text l) :=
  ⟨fun s s' he => by rw [dump, dump, h.1 s s' he], fun s s' hi hw => by cases hw; exact h.2 _ _ hi⟩
theorem foot_const {I : σ → Prop} {k : Lens σ τ} {t} : Foot I k (.const t) :=
  ⟨fun s s' he => by rw [dump, dump], fun s s' hi hw => by cases hw⟩
theorem foot_oob {I : σ → Prop} {k : Lens σ τ} : Foot I k (.oob) :=
  ⟨fun s s' he => by rw [dump, dump], fun s s' hi hw => by cases hw⟩

theorem reads_map {ρ : Type} {r : σ → ρ} {ids child post} (h : ∀ i < ids.length, Sees r (child i)) :
    Sees r (.map ids child post) := by
  intro s s' he
  rw [dump, dump, collect_congr (g := fun i => dump (child i) s')]
  intro i hi
  exact h i (List.mem_range.mp hi) s s' he

theorem foot_map {I : σ → Prop} {k : Lens σ τ} {ids child post} (h : ∀ i < ids.length, Foot I k (child i))
    (hp : ∀ s s', I s → post s = .ok s' → s' = k.set (k.get s') s) : Foot I k (.map ids child post) := by
  refine ⟨reads_map fun i hi => (h i hi).1, ?_⟩
  intro s s' hi hw
  cases hw with
  | map i hil hw => exact (h i hil).2 s s' hi hw
  | post hw => exact hp s s' hi hw

theorem reads_arr {ρ : Type} {r : σ → ρ} {resize count elem} (hc : ∀ s s', r s = r s' → count s = count s')
    (h : ∀ i, Sees r (elem i)) : Sees r (.arr resize count elem) := by
  intro s s' he
  rw [dump, dump, hc s s' he, collect_congr (g := fun i => dump (elem i) s')]
  intro i _
  exact h i s s' he

theorem foot_arr {I : σ → Prop} {k : Lens σ τ} {resize count elem}
    (hc : ∀ s s', k.get s = k.get s' → count s = count s') (h : ∀ i, Foot I k (elem i)) :
    Foot I k (.arr resize count elem) := by
  refine ⟨reads_arr hc fun i => (h i).1, ?_⟩
  intro s s' hi hw
  cases hw with
  | arr i hw => exact (h i).2 s s' hi hw

theorem foot_deref {I : σ → Prop} {k : Lens σ τ} {null n}
    (hc : ∀ s s', k.get s = k.get s' → null s = null s') (h : Foot I k n) :
    Foot I k (.deref null n) := by
  refine ⟨?_, ?_⟩
  · intro s s' he
    rw [dump, dump, hc s s' he, h.1 s s' he]
  · intro s s' hi hw
    cases hw with
    | deref hw => exact h.2 s s' hi hw

/-- A list of fields. -/
theorem wf_fields {I : σ → Prop} {l : List (String × Node σ)} {post}
    (h : ∀ x ∈ l, WF I x.2)
    (hi : l.Pairwise fun a b => Indep I a.2 b.2 ∧ Indep I b.2 a.2)
    (hp : ∀ s s', I s → post s = .ok s' → I s' ∧ ∀ x ∈ l, dump x.2 s' = dump x.2 s) :
    WF I (.fields l post) := by
  have hmem : ∀ i, i < (l.map Prod.fst).length → ∃ h : i < l.length, (l.getD i ("", Node.oob)) = l[i] := by
    intro i hi
    rw [List.length_map] at hi
    exact ⟨hi, by simp [List.getD, hi]⟩
  refine ⟨?_, ?_, ?_⟩
  · intro i hi
    obtain ⟨h1, h2⟩ := hmem i hi
    dsimp only
    rw [h2]
    exact h _ (List.getElem_mem h1)
  · intro i hil j hjl hij
    obtain ⟨h1, h2⟩ := hmem i hil
    obtain ⟨h3, h4⟩ := hmem j hjl
    dsimp only
    rw [h2, h4]
    rw [List.pairwise_iff_getElem] at hi
    rcases Nat.lt_or_gt_of_ne hij with h5 | h5
    · exact (hi i j h1 h3 h5).1
    · exact (hi j i h3 h1 h5).2
  · intro s s' hs hps
    obtain ⟨h1, h2⟩ := hp s s' hs hps
    refine ⟨h1, fun i hil => ?_⟩
    obtain ⟨h3, h4⟩ := hmem i hil
    dsimp only
    rw [h4]
    exact h2 _ (List.getElem_mem h3)

theorem foot_fields {I : σ → Prop} {k : Lens σ τ} {l : List (String × Node σ)} {post}
    (h : ∀ x ∈ l, Foot I k x.2) (hp : ∀ s s', I s → post s = .ok s' → s' = k.set (k.get s') s) :
    Foot I k (.fields l post) := by
  refine foot_map (fun i hi => ?_) hp
  rw [List.length_map] at hi
  have : (l.getD i ("", Node.oob)) = l[i] := by simp [List.getD, hi]
  rw [this]
  exact h _ (List.getElem_mem hi)

theorem reads_fields {ρ : Type} {r : σ → ρ} {l : List (String × Node σ)} {post}
    (h : ∀ x ∈ l, Sees r x.2) : Sees r (.fields l post) := by
  refine reads_map (fun i hi => ?_)
  rw [List.length_map] at hi
  have : (l.getD i ("", Node.oob)) = l[i] := by simp [List.getD, hi]
  rw [this]
  exact h _ (List.getElem_mem hi)

theorem keeps_fields {ρ : Type} {I : σ → Prop} {r : σ → ρ} {l : List (String × Node σ)}
    (h : ∀ x ∈ l, Keeps I r x.2) : Keeps I r (.fields l) := by
  intro s s' hs hw
  cases hw with
  | map i hil hw =>
    rw [List.length_map] at hil
    have : (l.getD i ("", Node.oob)) = l[i] := by simp [List.getD, hil]
    dsimp only at hw
    rw [this] at hw
    exact h _ (List.getElem_mem hil) s s' hs hw
  | post hw => cases hw; rfl

/-- The hook that does nothing. -/
theorem post_ok {I : σ → Prop} {l : List (String × Node σ)} (s s' : σ) (hs : I s)
    (h : (Except.ok s : Except Fault σ) = .ok s') : I s' ∧ ∀ x ∈ l, dump x.2 s' = dump x.2 s := by
  cases h; exact ⟨hs, fun _ _ => rfl⟩

end

/-! ### The console's tree -/

/-- A member that is there, with the usual laws. -/
structure Lens.Lawful {α : Type} (I : Console → Prop) (l : Lens Console α) : Prop where
  get_set : ∀ s a, l.get (l.set a s) = a
  set_get : ∀ s, l.set (l.get s) s = s
  inv : ∀ s a, I s → I (l.set a s)

theorem DecType.of_code (x : DecType) : DecType.ofCode x.code = x := by cases x <;> rfl
theorem EvType.of_code (x : EvType) : EvType.ofCode x.code = x := by cases x <;> rfl
theorem SensorSource.of_code (x : SensorSource) : SensorSource.ofCode x.code = x := by cases x <;> rfl
theorem SensorMethod.of_code (x : SensorMethod) : SensorMethod.ofCode x.code = x := by cases x <;> rfl
theorem TrigEdge.of_code (x : TrigEdge) : TrigEdge.ofCode x.code = x := by cases x <;> rfl
theorem FreqType.of_code (x : FreqType) : FreqType.ofCode x.code = x := by cases x <;> rfl

/-- Splits statements about every entry of a literal list, and about every pair. -/
macro "each" : tactic => `(tactic| (
  simp only [List.pairwise_cons, List.forall_mem_cons, List.not_mem_nil, false_implies, implies_true,
    and_true, List.Pairwise.nil]
  with_reducible (repeat' apply And.intro)))

/-- The footprint of a leaf. -/
macro "foot_leaf" : tactic => `(tactic| first
  | apply foot_flt
  | apply foot_u32
  | apply foot_bool
  | apply foot_enum
  | apply foot_text)

/-- A leaf of a member with laws `hl` is well-formed. -/
macro "wf_leaf" hl:term : tactic => `(tactic| (
  first
  | exact fun s v h => ⟨by simp [Lens.comp, ($hl).get_set], ($hl).inv _ _ h⟩
  | (refine ⟨fun s v h => ($hl).inv _ _ h, fun s => ?_, fun s m _ => ?_, by decide, by decide⟩
     · simp [Lens.comp, codeLens, DecType.of_code, EvType.of_code, SensorSource.of_code,
         SensorMethod.of_code, TrigEdge.of_code, FreqType.of_code, ($hl).set_get]
     · simp only [Lens.comp, codeLens, ($hl).get_set]
       revert m
       each
       all_goals rfl)))

/-- Two leaves of a member with laws `hl` are independent. -/
macro "indep_leaf" hl:term : tactic => `(tactic| (
  intro s s' _ h
  cases h
  simp [dump, Lens.comp, codeLens, ($hl).get_set]))

/-- A leaf of a member is inside it. -/
macro "inside_leaf" hl:term : tactic => `(tactic| (
  refine ⟨fun s s' h => ?_, fun v s _ => ?_⟩
  · simp [Lens.comp, h]
  · simp [Lens.comp, ($hl).get_set]))

/-! #### decoder -/

def decL : Lens Console (Decoder × BitVec 32 × BitVec 32) :=
  ⟨fun c => (c.cfg.decoder, c.cfg.rpmStop, c.cfg.rpmStart),
   fun v c => { c with cfg.decoder := v.1, cfg.rpmStop := v.2.1, cfg.rpmStart := v.2.2 }⟩

theorem foot_decoder : Foot Loaded decL decoderNode := by
  unfold decoderNode
  apply foot_fields
  · each
    all_goals foot_leaf
    all_goals
      refine ⟨fun s s' h => ?_, fun v s _ => rfl⟩
      simp only [decL, Prod.mk.injEq] at h
      simp [Lens.comp, codeLens, h.1, h.2.1, h.2.2]
  · intro s s' _ h
    cases h; rfl

theorem wf_decoder : WF Loaded decoderNode := by
  unfold decoderNode
  apply wf_fields
  · each
    all_goals
      first
      | exact fun s v h => ⟨rfl, h⟩
      | refine ⟨fun s v h => h, fun s => ?_, fun s m _ hm => ?_, by decide, by decide⟩
    · simp [Lens.comp, codeLens, DecType.of_code]
    · simp only [List.mem_cons, List.not_mem_nil, or_false] at hm
      rcases hm with rfl | rfl | rfl | rfl <;> rfl
  · each
    all_goals
      intro s s' _ h
      cases h
      rfl
  · exact post_ok

/-! #### outputs -/

theorem lawful_event (i : Fin maxEvents) :
    Lens.Lawful Loaded (Lens.comp (fld% cfg.events) (Lens.ix i)) := by
  refine ⟨fun s a => by simp [Lens.comp, Lens.ix], fun s => ?_, fun s a h => h⟩
  have : (fun j => if j = i then s.cfg.events i else s.cfg.events j) = s.cfg.events := by
    funext j; split
    · rename_i h; rw [h]
    · rfl
  simp [Lens.comp, Lens.ix, this]

theorem foot_output {l : Lens Console OEvent} (hl : l.Lawful Loaded) : Foot Loaded l (outputNode l) := by
  unfold outputNode
  apply foot_fields
  · each
    all_goals foot_leaf
    all_goals inside_leaf hl
  · intro s s' _ h
    cases h; exact (hl.set_get _).symm

theorem wf_output {l : Lens Console OEvent} (hl : l.Lawful Loaded) : WF Loaded (outputNode l) := by
  unfold outputNode
  apply wf_fields
  · each
    all_goals wf_leaf hl
  · each
    all_goals indep_leaf hl
  · exact post_ok

/-! #### arrays of a fixed size -/

theorem wf_fixedArr {σ : Type} {I : σ → Prop} {n : Nat} (hn : n ≤ 2 ^ 31) {elem : Fin n → Node σ}
    (h : ∀ i, WF I (elem i)) (hi : ∀ i j, i ≠ j → Indep I (elem i) (elem j)) : WF I (fixedArr n elem) := by
  refine ⟨fun i => ?_, fun i j hij => ?_, fun _ _ => hn, fun _ _ _ _ _ => rfl⟩
  · dsimp only
    split
    · exact h _
    · trivial
  · dsimp only
    split
    · rename_i h1
      split
      · rename_i h2
        exact hi _ _ (by simpa using hij)
      · intro s s' _ _; rfl
    · intro s s' _ hw; cases hw

theorem foot_fixedArr {σ τ : Type} {I : σ → Prop} {k : Lens σ τ} {n : Nat} {elem : Fin n → Node σ}
    (h : ∀ i, Foot I k (elem i)) : Foot I k (fixedArr n elem) := by
  refine foot_arr (fun _ _ _ => rfl) fun i => ?_
  split
  · exact h _
  · exact foot_oob

def evL : Lens Console (Fin maxEvents → OEvent) := fld% cfg.events

theorem foot_outputs : Foot Loaded evL outputsNode :=
  foot_fixedArr fun i => (foot_output (lawful_event i)).mono
    (fun s s' h => by
      have h : s.cfg.events = s'.cfg.events := h
      simp [Lens.comp, Lens.ix, h]) (fun a s => rfl)

theorem wf_outputs : WF Loaded outputsNode := by
  refine wf_fixedArr (by decide) (fun i => wf_output (lawful_event i)) fun i j hij => ?_
  exact (foot_output (lawful_event i)).indep (foot_output (lawful_event j)) (fun a s => by
    simp [Lens.comp, Lens.ix, Ne.symm hij])

/-! #### frequency inputs -/

theorem lawful_freq (i : Fin 4) : Lens.Lawful Loaded (Lens.comp (fld% freq) (Lens.ix i)) := by
  refine ⟨fun s a => by simp [Lens.comp, Lens.ix], fun s => ?_, fun s a h => h⟩
  have : (fun j => if j = i then s.freq i else s.freq j) = s.freq := by
    funext j; split
    · rename_i h; rw [h]
    · rfl
  simp [Lens.comp, Lens.ix, this]

theorem foot_freq {l : Lens Console FreqInput} (hl : l.Lawful Loaded) : Foot Loaded l (freqNode l) := by
  unfold freqNode
  apply foot_fields
  · each
    all_goals foot_leaf
    all_goals inside_leaf hl
  · intro s s' _ h
    cases h; exact (hl.set_get _).symm

theorem wf_freq {l : Lens Console FreqInput} (hl : l.Lawful Loaded) : WF Loaded (freqNode l) := by
  unfold freqNode
  apply wf_fields
  · each
    all_goals wf_leaf hl
  · each
    all_goals indep_leaf hl
  · exact post_ok

def freqL : Lens Console (Fin 4 → FreqInput) := fld% freq

theorem foot_freqList : Foot Loaded freqL freqListNode :=
  foot_fixedArr fun i => (foot_freq (lawful_freq i)).mono
    (fun s s' h => by
      have h : s.freq = s'.freq := h
      simp [Lens.comp, Lens.ix, h]) (fun a s => rfl)

theorem wf_freqList : WF Loaded freqListNode := by
  refine wf_fixedArr (by decide) (fun i => wf_freq (lawful_freq i)) fun i j hij => ?_
  exact (foot_freq (lawful_freq i)).indep (foot_freq (lawful_freq j)) (fun a s => by
    simp [Lens.comp, Lens.ix, Ne.symm hij])

/-! #### maps of plain members -/

macro "wf_plain" : tactic => `(tactic| (
  apply wf_fields
  · each
    all_goals exact fun s v h => ⟨rfl, h⟩
  · each
    all_goals
      intro s s' _ h
      cases h
      rfl
  · exact post_ok))

macro "foot_plain" : tactic => `(tactic| (
  apply foot_fields
  · each
    all_goals foot_leaf
    all_goals
      refine ⟨fun s s' h => ?_, fun v s _ => rfl⟩
      simp_all
  · intro s s' _ h
    cases h; rfl))

def fuelL : Lens Console FuelingCfg := fld% cfg.fueling
def ignL : Lens Console IgnitionCfg := fld% cfg.ignition
def celL : Lens Console CelCfg := fld% cfg.cel
def testL : Lens Console (Bool × BitVec 32 × Bool) :=
  ⟨fun c => (c.logging, c.testRpm, c.testArmed),
   fun v c => { c with logging := v.1, testRpm := v.2.1, testArmed := v.2.2 }⟩

theorem foot_crank : Foot Loaded fuelL crankNode := by
  unfold crankNode fuelL
  foot_plain

theorem foot_fueling : Foot Loaded fuelL fuelingNode := by
  unfold fuelingNode
  apply foot_fields
  · each
    all_goals first
      | exact foot_crank
      | foot_leaf
    all_goals
      refine ⟨fun s s' h => ?_, fun v s _ => rfl⟩
      simp_all [fuelL]
  · intro s s' _ h
    cases h; rfl

theorem wf_crank : WF Loaded crankNode := by unfold crankNode; wf_plain

theorem wf_fueling : WF Loaded fuelingNode := by
  unfold fuelingNode
  apply wf_fields
  · each
    all_goals first
      | exact wf_crank
      | exact fun s v h => ⟨rfl, h⟩
  · each
    all_goals first
      | (intro s s' _ h
         cases h
         rfl)
      | (intro s s' _ h
         cases h with
         | map i hi h =>
           have hi : i < 3 := hi
           interval_cases i <;> (cases h; rfl)
         | post h => cases h; rfl)
  · exact post_ok

theorem foot_ignition : Foot Loaded ignL ignitionNode := by unfold ignitionNode ignL; foot_plain
theorem wf_ignition : WF Loaded ignitionNode := by unfold ignitionNode; wf_plain
theorem foot_cel : Foot Loaded celL celNode := by unfold celNode celL; foot_plain
theorem wf_cel : WF Loaded celNode := by unfold celNode; wf_plain
theorem foot_test : Foot Loaded testL testNode := by unfold testNode testL; foot_plain
theorem wf_test : WF Loaded testNode := by unfold testNode; wf_plain

/-! #### sensors -/

theorem lawful_sensor (i : Fin numSensors) :
    Lens.Lawful Loaded (Lens.comp (fld% cfg.sensors) (Lens.ix i)) := by
  refine ⟨fun s a => by simp [Lens.comp, Lens.ix], fun s => ?_, fun s a h => h⟩
  have : (fun j => if j = i then s.cfg.sensors i else s.cfg.sensors j) = s.cfg.sensors := by
    funext j; split
    · rename_i h; rw [h]
    · rfl
  simp [Lens.comp, Lens.ix, this]

theorem foot_sensor {l : Lens Console Sensor} (hl : l.Lawful Loaded) : Foot Loaded l (sensorNode l) := by
  unfold sensorNode
  apply foot_fields
  · each
    all_goals foot_leaf
    all_goals inside_leaf hl
  · intro s s' _ h
    cases h; exact (hl.set_get _).symm

theorem wf_sensor {l : Lens Console Sensor} (hl : l.Lawful Loaded) : WF Loaded (sensorNode l) := by
  unfold sensorNode
  apply wf_fields
  · each
    all_goals wf_leaf hl
  · each
    all_goals indep_leaf hl
  · exact post_ok

/-! #### tables -/

/-- An axis of a table and its name. -/
structure AxisL (la : Lens Console Axis) (name : Lens Console String) : Prop where
  gs : ∀ s a, Loaded s → la.get (la.set a s) = a
  small : ∀ s, Loaded s → (la.get s).num ≤ maxAxis
  inv : ∀ s a, Loaded s → a.num = (la.get s).num → Loaded (la.set a s)
  ngs : ∀ s v, name.get (name.set v s) = v
  ninv : ∀ s v, Loaded s → Loaded (name.set v s)
  nl : ∀ s a, name.get (la.set a s) = name.get s
  ln : ∀ s v, la.get (name.set v s) = la.get s

theorem reads_axis {ρ : Type} {r : Console → ρ} {la : Lens Console Axis} {name : Lens Console String}
    (h1 : ∀ s s', r s = r s' → la.get s = la.get s') (h2 : ∀ s s', r s = r s' → name.get s = name.get s') :
    Sees r (axisNode la name) := by
  unfold axisNode
  apply reads_fields
  each
  · intro s s' h
    rw [dump, dump, h2 s s' h]
  · apply reads_arr
    · intro s s' h
      rw [h1 s s' h]
    · intro i
      split
      · intro s s' h
        rw [dump, dump]
        simp [Lens.comp, h1 s s' h]
      · intro s s' h
        rw [dump, dump]

theorem keeps_axis {ρ : Type} {r : Console → ρ} {la : Lens Console Axis} {name : Lens Console String}
    (h1 : ∀ s a, a.num = (la.get s).num → r (la.set a s) = r s) (h2 : ∀ s v, r (name.set v s) = r s) :
    Keeps Loaded r (axisNode la name) := by
  unfold axisNode
  apply keeps_fields
  each
  · intro s s' _ h
    cases h; exact h2 _ _
  · intro s s' _ h
    cases h with
    | arr i h =>
      dsimp only at h
      split at h
      · cases h; exact h1 _ _ rfl
      · cases h

theorem wf_axis {la : Lens Console Axis} {name : Lens Console String} (h : AxisL la name) :
    WF Loaded (axisNode la name) := by
  have hk : ∀ (i : Nat) (s s' : Console), Writes (if h : i < maxAxis then
      Node.flt (la.comp (Lens.comp (fld% values) (Lens.ix ⟨i, h⟩))) else .oob) s s' →
      ∃ a, s' = la.set a s ∧ a.num = (la.get s).num ∧ ∀ j, j.val ≠ i → a.values j = (la.get s).values j := by
    intro i s s' hw
    split at hw
    · cases hw
      refine ⟨_, rfl, rfl, fun j hj => ?_⟩
      have : ¬ j = ⟨i, by assumption⟩ := fun he => hj (by rw [he])
      simp [Lens.comp, Lens.ix, this]
    · cases hw
  unfold axisNode
  apply wf_fields
  · each
    · exact fun s v hs => ⟨h.ngs _ _, h.ninv _ _ hs⟩
    · refine ⟨fun i => ?_, fun i j hij => ?_, fun s hs => ?_, fun s s' i hs hw => ?_⟩
      · dsimp only
        split
        · exact fun s v hs => ⟨by simp [Lens.comp, Lens.ix, h.gs _ _ hs], h.inv _ _ hs rfl⟩
        · trivial
      · intro s s' hs hw
        obtain ⟨a, rfl, _, ha⟩ := hk i s s' hw
        dsimp only
        split
        · rw [dump, dump]
          simp only [Lens.comp, Lens.ix, h.gs _ _ hs]
          rw [ha _ (Ne.symm hij)]
        · rw [dump, dump]
      · exact le_trans (min_le_right _ _) (by decide)
      · obtain ⟨a, rfl, ha, _⟩ := hk i s s' hw
        dsimp only
        rw [h.gs _ _ hs, ha]
  · each
    · intro s s' _ hw
      cases hw
      rw [dump, dump]
      simp [Lens.comp, h.ln]
      rw [collect_congr]
      intro i _
      split <;> simp [dump, h.ln]
    · intro s s' _ hw
      cases hw with
      | arr i hw =>
        obtain ⟨a, rfl, ha, _⟩ := hk i s s' hw
        rw [dump, dump, h.nl]
  · exact post_ok

/-- A table, and what else is stored with it. -/
structure TabL {T : Type} (ok : Option T → Prop) (t : Lens Console (Option T)) : Prop where
  gs : ∀ s a, t.get (t.set a s) = a
  inv : ∀ s a, Loaded s → ok a → Loaded (t.set a s)
  has : ∀ s, Loaded s → ok (t.get s)
  title : ∀ s a, (t.set a s).title = s.title
  col : ∀ s a, (t.set a s).colName = s.colName
  row : ∀ s a, (t.set a s).rowName = s.rowName
  gtitle : ∀ s f, t.get { s with title := f } = t.get s
  gcol : ∀ s f, t.get { s with colName := f } = t.get s
  grow : ∀ s f, t.get { s with rowName := f } = t.get s

theorem TabL.cols1 {t : Lens Console (Option Table1d)} (h : TabL Has1 t) (k : Fin 10) :
    AxisL ((t.comp (Lens.some noTable1)).comp (fld% cols)) (Lens.comp (fld% colName) (Lens.ix k)) where
  gs s a hs := by
    obtain ⟨T, hT, hn⟩ := h.has s hs
    simp [Lens.comp, Lens.some, h.gs, hT]
  small s hs := by
    obtain ⟨T, hT, hn⟩ := h.has s hs
    simp [Lens.comp, Lens.some, hT, hn]
  inv s a hs ha := by
    obtain ⟨T, hT, hn⟩ := h.has s hs
    apply h.inv _ _ hs
    simp only [Lens.comp, Lens.some, hT, Option.getD_some, Option.map_some] at ha ⊢
    refine ⟨_, rfl, ?_⟩
    dsimp only
    omega
  ngs s v := by simp [Lens.comp, Lens.ix]
  ninv s v hs := hs
  nl s a := by simp [Lens.comp, Lens.some, h.col]
  ln s v := by simp [Lens.comp, Lens.some, h.gcol]

theorem TabL.cols2 {t : Lens Console (Option Table2d)} (h : TabL Has2 t) (k : Fin 10) :
    AxisL ((t.comp (Lens.some noTable2)).comp (fld% cols)) (Lens.comp (fld% colName) (Lens.ix k)) where
  gs s a hs := by
    obtain ⟨T, hT, hn, hm⟩ := h.has s hs
    simp [Lens.comp, Lens.some, h.gs, hT]
  small s hs := by
    obtain ⟨T, hT, hn, hm⟩ := h.has s hs
    simp [Lens.comp, Lens.some, hT, hm]
  inv s a hs ha := by
    obtain ⟨T, hT, hn, hm⟩ := h.has s hs
    apply h.inv _ _ hs
    simp only [Lens.comp, Lens.some, hT, Option.getD_some, Option.map_some] at ha ⊢
    refine ⟨_, rfl, ?_⟩
    dsimp only
    omega
  ngs s v := by simp [Lens.comp, Lens.ix]
  ninv s v hs := hs
  nl s a := by simp [Lens.comp, Lens.some, h.col]
  ln s v := by simp [Lens.comp, Lens.some, h.gcol]

theorem TabL.rows2 {t : Lens Console (Option Table2d)} (h : TabL Has2 t) (k : Fin 10) :
    AxisL ((t.comp (Lens.some noTable2)).comp (fld% rows)) (Lens.comp (fld% rowName) (Lens.ix k)) where
  gs s a hs := by
    obtain ⟨T, hT, hn, hm⟩ := h.has s hs
    simp [Lens.comp, Lens.some, h.gs, hT]
  small s hs := by
    obtain ⟨T, hT, hn, hm⟩ := h.has s hs
    simp [Lens.comp, Lens.some, hT, hn]
  inv s a hs ha := by
    obtain ⟨T, hT, hn, hm⟩ := h.has s hs
    apply h.inv _ _ hs
    simp only [Lens.comp, Lens.some, hT, Option.getD_some, Option.map_some] at ha ⊢
    refine ⟨_, rfl, ?_⟩
    dsimp only
    omega
  ngs s v := by simp [Lens.comp, Lens.ix]
  ninv s v hs := hs
  nl s a := by simp [Lens.comp, Lens.some, h.row]
  ln s v := by simp [Lens.comp, Lens.some, h.grow]

/-- Writing under a table's data changes nothing else of the table. -/
theorem writes_data1 {t : Lens Console (Option Table1d)} (h : TabL Has1 t) {i : Nat} {s s' : Console}
    (hs : Loaded s) (hw : Writes (if h : i < maxAxis then
      Node.flt ((t.comp (Lens.some noTable1)).comp (Lens.comp (fld% data) (Lens.ix ⟨i, h⟩))) else .oob) s s') :
    ∃ T T', t.get s = some T ∧ s' = t.set (some T') s ∧ T'.cols = T.cols ∧
      ∀ j, j.val ≠ i → T'.data j = T.data j := by
  obtain ⟨T, hT, hn⟩ := h.has s hs
  split at hw
  · cases hw
    simp only [Lens.comp, Lens.some, hT, Option.getD_some, Option.map_some]
    refine ⟨T, _, rfl, rfl, rfl, fun j hj => ?_⟩
    have : ¬ j = ⟨i, by assumption⟩ := fun he => hj (by rw [he])
    simp [Lens.ix, this]
  · cases hw

theorem wf_data1 {t : Lens Console (Option Table1d)} (h : TabL Has1 t) :
    WF Loaded (.arr none (fun c => ((t.comp (Lens.some noTable1)).get c).cols.num) fun i =>
      if h : i < maxAxis then
        .flt ((t.comp (Lens.some noTable1)).comp (Lens.comp (fld% data) (Lens.ix ⟨i, h⟩))) else .oob) := by
  refine ⟨fun i => ?_, fun i j hij => ?_, fun s hs => ?_, fun s s' i hs hw => ?_⟩
  · dsimp only
    split
    · intro s v hs
      obtain ⟨T, hT, hn⟩ := h.has s hs
      simp only [Lens.comp, Lens.some, hT, Option.getD_some, Option.map_some, h.gs]
      exact ⟨by simp [Lens.ix], h.inv _ _ hs ⟨_, rfl, hn⟩⟩
    · trivial
  · intro s s' hs hw
    obtain ⟨T, T', hT, rfl, _, ha⟩ := writes_data1 h hs hw
    dsimp only
    split
    · rw [dump, dump]
      simp only [Lens.comp, Lens.some, hT, Option.getD_some, Lens.ix, h.gs]
      rw [ha _ (Ne.symm hij)]
    · rw [dump, dump]
  · obtain ⟨T, hT, hn⟩ := h.has s hs
    simp only [Lens.comp, Lens.some, hT, Option.getD_some]
    exact le_trans hn (by decide)
  · obtain ⟨T, T', hT, rfl, hc, _⟩ := writes_data1 h hs hw
    simp only [Lens.comp, Lens.some, hT, Option.getD_some, h.gs, hc]

theorem reads_data1 {ρ : Type} {r : Console → ρ} {t : Lens Console (Option Table1d)}
    (hr : ∀ s s', r s = r s' → ((t.get s).getD noTable1).cols.num = ((t.get s').getD noTable1).cols.num ∧
      ((t.get s).getD noTable1).data = ((t.get s').getD noTable1).data) :
    Sees r (.arr none (fun c => ((t.comp (Lens.some noTable1)).get c).cols.num) fun i =>
      if h : i < maxAxis then
        .flt ((t.comp (Lens.some noTable1)).comp (Lens.comp (fld% data) (Lens.ix ⟨i, h⟩))) else .oob) := by
  apply reads_arr
  · intro s s' he
    simp [Lens.comp, Lens.some, (hr s s' he).1]
  · intro i
    split
    · intro s s' he
      rw [dump, dump]
      simp [Lens.comp, Lens.some, (hr s s' he).2]
    · intro s s' he
      rw [dump, dump]

theorem keeps_data1 {ρ : Type} {r : Console → ρ} {t : Lens Console (Option Table1d)} (h : TabL Has1 t)
    (hr : ∀ s T T', t.get s = some T → T'.cols = T.cols → r (t.set (some T') s) = r s) :
    Keeps Loaded r (.arr none (fun c => ((t.comp (Lens.some noTable1)).get c).cols.num) fun i =>
      if h : i < maxAxis then
        .flt ((t.comp (Lens.some noTable1)).comp (Lens.comp (fld% data) (Lens.ix ⟨i, h⟩))) else .oob) := by
  intro s s' hs hw
  cases hw with
  | arr i hw =>
    obtain ⟨T, T', hT, rfl, hc, _⟩ := writes_data1 h hs hw
    exact hr s T T' hT hc

/-- Writing a title. -/
theorem keeps_name {ρ : Type} {r : Console → ρ} {l : Lens Console String}
    (hr : ∀ s v, r (l.set v s) = r s) : Keeps Loaded r (.text l) := by
  intro s s' _ hw
  cases hw; exact hr _ _

theorem reads_name {ρ : Type} {r : Console → ρ} {l : Lens Console String}
    (hr : ∀ s s', r s = r s' → l.get s = l.get s') : Sees r (.text l) := by
  intro s s' he
  rw [dump, dump, hr s s' he]

theorem reads_table1 {ρ : Type} {r : Console → ρ} {t : Lens Console (Option Table1d)} {k : Fin 10}
    (h1 : ∀ s s', r s = r s' → t.get s = t.get s') (h2 : ∀ s s', r s = r s' → s.title k = s'.title k)
    (h3 : ∀ s s', r s = r s' → s.colName k = s'.colName k) : Sees r (table1Node t k) := by
  have : Sees r (.fields [
    ("title", .text (Lens.comp (fld% title) (Lens.ix k))),
    ("horizontal-axis", axisNode ((t.comp (Lens.some noTable1)).comp (fld% cols))
      (Lens.comp (fld% colName) (Lens.ix k))),
    ("data", .arr none (fun c => ((t.comp (Lens.some noTable1)).get c).cols.num) fun i =>
      if h : i < maxAxis then
        .flt ((t.comp (Lens.some noTable1)).comp (Lens.comp (fld% data) (Lens.ix ⟨i, h⟩))) else .oob)]) := by
    apply reads_fields
    each
    · exact reads_name fun s s' he => h2 s s' he
    · exact reads_axis (fun s s' he => by simp [Lens.comp, Lens.some, h1 s s' he]) fun s s' he => h3 s s' he
    · exact reads_data1 fun s s' he => by simp [h1 s s' he]
  intro s s' he
  have h := this s s' he
  simp only [table1Node, dump] at h ⊢
  rw [h1 s s' he, h]

/-- What a change of a table and its names leaves alone. -/
structure Off {ρ T : Type} (r : Console → ρ) (t : Lens Console (Option T)) (k : Fin 10) : Prop where
  tab : ∀ s a, r (t.set a s) = r s
  title : ∀ s v, r { s with title := fun j => if j = k then v else s.title j } = r s
  col : ∀ s v, r { s with colName := fun j => if j = k then v else s.colName j } = r s
  row : ∀ s v, r { s with rowName := fun j => if j = k then v else s.rowName j } = r s

theorem keeps_table1 {ρ : Type} {r : Console → ρ} {t : Lens Console (Option Table1d)} (h : TabL Has1 t)
    {k : Fin 10} (hr : Off r t k) : Keeps Loaded r (table1Node t k) := by
  intro s s' hs hw
  cases hw with
  | deref hw =>
    revert s s'
    apply keeps_fields
    each
    · exact keeps_name fun s v => hr.title s v
    · exact keeps_axis (fun s a _ => hr.tab _ _) fun s v => hr.col s v
    · exact keeps_data1 h fun s T T' _ _ => hr.tab _ _

theorem wf_table1 {t : Lens Console (Option Table1d)} (h : TabL Has1 t) (k : Fin 10) :
    WF Loaded (table1Node t k) := by
  refine ⟨?_, fun s s' hs hw => ?_⟩
  · apply wf_fields
    · each
      · exact fun s v hs => ⟨by simp [Lens.comp, Lens.ix], hs⟩
      · exact wf_axis (h.cols1 k)
      · exact wf_data1 h
    · each
      · exact indep_of (r := fun c => (t.get c, c.colName k)) (keeps_name fun s v => by
          simp [Lens.comp, Lens.ix, h.gtitle])
          (reads_axis (fun s s' he => by simp at he; simp [Lens.comp, Lens.some, he.1])
            (fun s s' he => by simp at he; simp [Lens.comp, Lens.ix, he.2]))
      · exact indep_of (r := fun c => c.title k) (keeps_axis (fun s a _ => by simp [Lens.comp, h.title])
          (fun s v => by simp [Lens.comp])) (reads_name fun s s' he => he)
      · exact indep_of (r := fun c => t.get c) (keeps_name fun s v => by
          simp [Lens.comp, Lens.ix, h.gtitle]) (reads_data1 fun s s' he => by simp [he])
      · exact indep_of (r := fun c => c.title k) (keeps_data1 h fun s T T' _ _ => by simp [h.title])
          (reads_name fun s s' he => he)
      · exact indep_of (r := fun c => (((t.get c).getD noTable1).cols.num, ((t.get c).getD noTable1).data))
          (keeps_axis (fun s a ha => by
              cases hT : t.get s <;> simp [Lens.comp, Lens.some, h.gs, hT] at ha ⊢
              exact ha)
            (fun s v => by simp [Lens.comp, h.gcol]))
          (reads_data1 fun s s' he => by simpa using he)
      · exact indep_of (r := fun c => (((t.get c).getD noTable1).cols, c.colName k))
          (keeps_data1 h fun s T T' hT hc => by simp [h.gs, hT, hc, h.col])
          (reads_axis (fun s s' he => by simp at he; simp [Lens.comp, Lens.some, he.1])
            (fun s s' he => by simp at he; simp [Lens.comp, Lens.ix, he.2]))
    · exact post_ok
  · revert s s'
    have : Keeps Loaded (fun c => (t.get c).isNone) (.fields [
      ("title", .text (Lens.comp (fld% title) (Lens.ix k))),
      ("horizontal-axis", axisNode ((t.comp (Lens.some noTable1)).comp (fld% cols))
        (Lens.comp (fld% colName) (Lens.ix k))),
      ("data", .arr none (fun c => ((t.comp (Lens.some noTable1)).get c).cols.num) fun i =>
        if h : i < maxAxis then
          .flt ((t.comp (Lens.some noTable1)).comp (Lens.comp (fld% data) (Lens.ix ⟨i, h⟩))) else .oob)]) := by
      apply keeps_fields
      each
      · exact keeps_name fun s v => by simp [Lens.comp, h.gtitle]
      · exact keeps_axis (fun s a _ => by simp [Lens.comp, Lens.some, h.gs])
          fun s v => by simp [Lens.comp, h.gcol]
      · exact keeps_data1 h fun s T T' hT _ => by simp [h.gs, hT]
    exact this

/-- The entries of a two-dimensional table. -/
def data2Row (t : Lens Console (Option Table2d)) (r : Nat) : Node Console :=
  .arr none (fun c => ((t.comp (Lens.some noTable2)).get c).cols.num) fun i =>
    if h : r < maxAxis ∧ i < maxAxis then
      .flt ((t.comp (Lens.some noTable2)).comp
        (Lens.comp (fld% data) (Lens.comp (Lens.ix ⟨r, h.1⟩) (Lens.ix ⟨i, h.2⟩))))
    else .oob

def data2Node (t : Lens Console (Option Table2d)) : Node Console :=
  .arr none (fun c => ((t.comp (Lens.some noTable2)).get c).rows.num) (data2Row t)

theorem writes_data2 {t : Lens Console (Option Table2d)} (h : TabL Has2 t) {r i : Nat} {s s' : Console}
    (hs : Loaded s) (hw : Writes (if h : r < maxAxis ∧ i < maxAxis then
      Node.flt ((t.comp (Lens.some noTable2)).comp
        (Lens.comp (fld% data) (Lens.comp (Lens.ix ⟨r, h.1⟩) (Lens.ix ⟨i, h.2⟩))))
    else .oob) s s') :
    ∃ T T', t.get s = some T ∧ s' = t.set (some T') s ∧ T'.cols = T.cols ∧ T'.rows = T.rows ∧
      ∀ a b, a.val ≠ r ∨ b.val ≠ i → T'.data a b = T.data a b := by
  obtain ⟨T, hT, hn⟩ := h.has s hs
  split at hw
  · rename_i hri
    cases hw
    simp only [Lens.comp, Lens.some, hT, Option.getD_some, Option.map_some]
    refine ⟨T, _, rfl, rfl, rfl, rfl, fun a b hj => ?_⟩
    dsimp only [Lens.ix]
    by_cases ha : a = ⟨r, hri.1⟩
    · have hb : ¬ b = ⟨i, hri.2⟩ := fun he => by
        rw [ha, he] at hj
        simp at hj
      rw [if_pos ha, if_neg hb, ha]
    · rw [if_neg ha]
  · cases hw

theorem writes_row2 {t : Lens Console (Option Table2d)} (h : TabL Has2 t) {r : Nat} {s s' : Console}
    (hs : Loaded s) (hw : Writes (data2Row t r) s s') :
    ∃ T T', t.get s = some T ∧ s' = t.set (some T') s ∧ T'.cols = T.cols ∧ T'.rows = T.rows ∧
      ∀ a b, a.val ≠ r → T'.data a b = T.data a b := by
  cases hw with
  | arr i hw =>
    obtain ⟨T, T', h1, h2, h3, h4, h5⟩ := writes_data2 h hs hw
    exact ⟨T, T', h1, h2, h3, h4, fun a b ha => h5 a b (Or.inl ha)⟩

theorem wf_row2 {t : Lens Console (Option Table2d)} (h : TabL Has2 t) (r : Nat) :
    WF Loaded (data2Row t r) := by
  refine ⟨fun i => ?_, fun i j hij => ?_, fun s hs => ?_, fun s s' i hs hw => ?_⟩
  · dsimp only
    split
    · intro s v hs
      obtain ⟨T, hT, hn⟩ := h.has s hs
      simp only [Lens.comp, Lens.some, hT, Option.getD_some, Option.map_some, h.gs]
      exact ⟨by simp [Lens.ix], h.inv _ _ hs ⟨_, rfl, hn⟩⟩
    · trivial
  · intro s s' hs hw
    obtain ⟨T, T', hT, rfl, _, _, ha⟩ := writes_data2 h hs hw
    dsimp only
    split
    · rw [dump, dump]
      simp only [Lens.comp, Lens.some, hT, Option.getD_some, Lens.ix, h.gs]
      rw [ha _ _ (Or.inr (Ne.symm hij))]
    · rw [dump, dump]
  · obtain ⟨T, hT, hn, hm⟩ := h.has s hs
    simp only [Lens.comp, Lens.some, hT, Option.getD_some]
    exact le_trans hm (by decide)
  · obtain ⟨T, T', hT, rfl, hc, _⟩ := writes_data2 h hs hw
    simp only [Lens.comp, Lens.some, hT, Option.getD_some, h.gs, hc]

theorem wf_data2 {t : Lens Console (Option Table2d)} (h : TabL Has2 t) : WF Loaded (data2Node t) := by
  refine ⟨fun i => wf_row2 h i, fun i j hij => ?_, fun s hs => ?_, fun s s' i hs hw => ?_⟩
  · intro s s' hs hw
    obtain ⟨T, T', hT, rfl, hc, _, ha⟩ := writes_row2 h hs hw
    simp only [data2Row, dump, Lens.comp, Lens.some, hT, Option.getD_some, h.gs, hc]
    rw [collect_congr]
    intro b _
    split
    · rw [dump, dump]
      simp only [hT, Option.getD_some, Lens.ix, h.gs]
      rw [ha _ _ (Ne.symm hij)]
    · rw [dump, dump]
  · obtain ⟨T, hT, hn, hm⟩ := h.has s hs
    simp only [Lens.comp, Lens.some, hT, Option.getD_some]
    exact le_trans hn (by decide)
  · obtain ⟨T, T', hT, rfl, _, hr, _⟩ := writes_row2 h hs hw
    simp only [Lens.comp, Lens.some, hT, Option.getD_some, h.gs, hr]

theorem reads_data2 {ρ : Type} {r : Console → ρ} {t : Lens Console (Option Table2d)}
    (hr : ∀ s s', r s = r s' → ((t.get s).getD noTable2).cols.num = ((t.get s').getD noTable2).cols.num ∧
      ((t.get s).getD noTable2).rows.num = ((t.get s').getD noTable2).rows.num ∧
      ((t.get s).getD noTable2).data = ((t.get s').getD noTable2).data) :
    Sees r (data2Node t) := by
  apply reads_arr
  · intro s s' he
    simp [Lens.comp, Lens.some, (hr s s' he).2.1]
  · intro a
    apply reads_arr
    · intro s s' he
      simp [Lens.comp, Lens.some, (hr s s' he).1]
    · intro i
      split
      · intro s s' he
        rw [dump, dump]
        simp [Lens.comp, Lens.some, (hr s s' he).2.2]
      · intro s s' he
        rw [dump, dump]

theorem keeps_data2 {ρ : Type} {r : Console → ρ} {t : Lens Console (Option Table2d)} (h : TabL Has2 t)
    (hr : ∀ s T T', t.get s = some T → T'.cols = T.cols → T'.rows = T.rows →
      r (t.set (some T') s) = r s) :
    Keeps Loaded r (data2Node t) := by
  intro s s' hs hw
  cases hw with
  | arr i hw =>
    obtain ⟨T, T', hT, rfl, hc, hr', _⟩ := writes_row2 h hs hw
    exact hr s T T' hT hc hr'

def table2Fields (t : Lens Console (Option Table2d)) (k : Fin 10) : Node Console :=
  .fields [
    ("title", .text (Lens.comp (fld% title) (Lens.ix k))),
    ("horizontal-axis", axisNode ((t.comp (Lens.some noTable2)).comp (fld% cols))
      (Lens.comp (fld% colName) (Lens.ix k))),
    ("vertical-axis", axisNode ((t.comp (Lens.some noTable2)).comp (fld% rows))
      (Lens.comp (fld% rowName) (Lens.ix k))),
    ("data", data2Node t)]

theorem table2Node_eq (t : Lens Console (Option Table2d)) (k : Fin 10) :
    table2Node t k = .deref (fun c => (t.get c).isNone) (table2Fields t k) := rfl

theorem reads_table2 {ρ : Type} {r : Console → ρ} {t : Lens Console (Option Table2d)} {k : Fin 10}
    (h1 : ∀ s s', r s = r s' → t.get s = t.get s') (h2 : ∀ s s', r s = r s' → s.title k = s'.title k)
    (h3 : ∀ s s', r s = r s' → s.colName k = s'.colName k)
    (h4 : ∀ s s', r s = r s' → s.rowName k = s'.rowName k) : Sees r (table2Node t k) := by
  have : Sees r (table2Fields t k) := by
    apply reads_fields
    each
    · exact reads_name fun s s' he => h2 s s' he
    · exact reads_axis (fun s s' he => by simp [Lens.comp, Lens.some, h1 s s' he]) fun s s' he => h3 s s' he
    · exact reads_axis (fun s s' he => by simp [Lens.comp, Lens.some, h1 s s' he]) fun s s' he => h4 s s' he
    · exact reads_data2 fun s s' he => by simp [h1 s s' he]
  intro s s' he
  rw [table2Node_eq, dump, dump, h1 s s' he, this s s' he]

theorem keeps_table2 {ρ : Type} {r : Console → ρ} {t : Lens Console (Option Table2d)} (h : TabL Has2 t)
    {k : Fin 10} (hr : Off r t k) : Keeps Loaded r (table2Node t k) := by
  have : Keeps Loaded r (table2Fields t k) := by
    apply keeps_fields
    each
    · exact keeps_name fun s v => hr.title s v
    · exact keeps_axis (fun s a _ => hr.tab _ _) fun s v => hr.col s v
    · exact keeps_axis (fun s a _ => hr.tab _ _) fun s v => hr.row s v
    · exact keeps_data2 h fun s T T' _ _ _ => hr.tab _ _
  intro s s' hs hw
  rw [table2Node_eq] at hw
  cases hw with
  | deref hw => exact this s s' hs hw

theorem wf_table2 {t : Lens Console (Option Table2d)} (h : TabL Has2 t) (k : Fin 10) :
    WF Loaded (table2Node t k) := by
  rw [table2Node_eq]
  have hset : ∀ s v, t.get s = none → (t.comp (Lens.some noTable2)).set v s = t.set none s := by
    intro s v hT
    simp [Lens.comp, Lens.some, hT]
  have rc : Sees (fun c => (((t.get c).getD noTable2).cols, c.colName k))
      (axisNode ((t.comp (Lens.some noTable2)).comp (fld% cols)) (Lens.comp (fld% colName) (Lens.ix k))) :=
    reads_axis (fun s s' he => by simp at he; simp [Lens.comp, Lens.some, he.1])
      (fun s s' he => by simp at he; simp [Lens.comp, Lens.ix, he.2])
  have rr : Sees (fun c => (((t.get c).getD noTable2).rows, c.rowName k))
      (axisNode ((t.comp (Lens.some noTable2)).comp (fld% rows)) (Lens.comp (fld% rowName) (Lens.ix k))) :=
    reads_axis (fun s s' he => by simp at he; simp [Lens.comp, Lens.some, he.1])
      (fun s s' he => by simp at he; simp [Lens.comp, Lens.ix, he.2])
  have rd : Sees (fun c => (((t.get c).getD noTable2).cols.num, ((t.get c).getD noTable2).rows.num,
      ((t.get c).getD noTable2).data)) (data2Node t) := reads_data2 fun s s' he => by simpa using he
  refine ⟨?_, fun s s' hs hw => ?_⟩
  · apply wf_fields
    · each
      · exact fun s v hs => ⟨by simp [Lens.comp, Lens.ix], hs⟩
      · exact wf_axis (h.cols2 k)
      · exact wf_axis (h.rows2 k)
      · exact wf_data2 h
    · each
      · exact indep_of (keeps_name fun s v => by simp [Lens.comp, h.gtitle]) rc
      · exact indep_of (r := fun c => c.title k) (keeps_axis (fun s a _ => by simp [Lens.comp, h.title])
          (fun s v => by simp [Lens.comp])) (reads_name fun s s' he => he)
      · exact indep_of (keeps_name fun s v => by simp [Lens.comp, h.gtitle]) rr
      · exact indep_of (r := fun c => c.title k) (keeps_axis (fun s a _ => by simp [Lens.comp, h.title])
          (fun s v => by simp [Lens.comp])) (reads_name fun s s' he => he)
      · exact indep_of (keeps_name fun s v => by simp [Lens.comp, h.gtitle]) rd
      · exact indep_of (r := fun c => c.title k) (keeps_data2 h fun s T T' _ _ _ => by simp [h.title])
          (reads_name fun s s' he => he)
      · exact indep_of (keeps_axis (fun s a ha => by
          cases hT : t.get s <;> simp [Lens.comp, Lens.some, h.gs, hT, h.row])
          (fun s v => by simp [Lens.comp, h.gcol])) rr
      · exact indep_of (keeps_axis (fun s a ha => by
          cases hT : t.get s <;> simp [Lens.comp, Lens.some, h.gs, hT, h.col])
          (fun s v => by simp [Lens.comp, h.grow])) rc
      · exact indep_of (keeps_axis (fun s a ha => by
          cases hT : t.get s <;> simp [Lens.comp, Lens.some, h.gs, hT] at ha ⊢
          exact ha)
          (fun s v => by simp [Lens.comp, h.gcol])) rd
      · exact indep_of (keeps_data2 h fun s T T' hT hc hr => by simp [h.gs, hT, hc, h.col]) rc
      · exact indep_of (keeps_axis (fun s a ha => by
          cases hT : t.get s <;> simp [Lens.comp, Lens.some, h.gs, hT] at ha ⊢
          exact ha)
          (fun s v => by simp [Lens.comp, h.grow])) rd
      · exact indep_of (keeps_data2 h fun s T T' hT hc hr => by simp [h.gs, hT, hr, h.row]) rr
    · exact post_ok
  · revert s s'
    have : Keeps Loaded (fun c => (t.get c).isNone) (table2Fields t k) := by
      apply keeps_fields
      each
      · exact keeps_name fun s v => by simp [Lens.comp, h.gtitle]
      · exact keeps_axis (fun s a _ => by simp [Lens.comp, Lens.some, h.gs])
          fun s v => by simp [Lens.comp, h.gcol]
      · exact keeps_axis (fun s a _ => by simp [Lens.comp, Lens.some, h.gs])
          fun s v => by simp [Lens.comp, h.grow]
      · exact keeps_data2 h fun s T T' hT _ _ => by simp [h.gs, hT]
    exact this

/-! #### the list of tables -/

macro "tab_law" : tactic => `(tactic| (
  refine ⟨fun _ _ => rfl, fun s a h ha => ?_, fun s h => ?_, fun _ _ => rfl, fun _ _ => rfl, fun _ _ => rfl,
    fun _ _ => rfl, fun _ _ => rfl, fun _ _ => rfl⟩
  · obtain ⟨h0, h1, h2, h3, h4, h5, h6, h7, h8, h9⟩ := h
    refine ⟨?_, ?_, ?_, ?_, ?_, ?_, ?_, ?_, ?_, ?_⟩ <;> assumption
  · obtain ⟨h0, h1, h2, h3, h4, h5, h6, h7, h8, h9⟩ := h
    assumption))

theorem tab_ve : TabL Has2 (fld% cfg.ve) := by tab_law
theorem tab_lambda : TabL Has2 (fld% cfg.lambda) := by tab_law
theorem tab_dwell : TabL Has1 (fld% cfg.dwell) := by tab_law
theorem tab_timing : TabL Has2 (fld% cfg.timing) := by tab_law
theorem tab_deadtime : TabL Has1 (fld% cfg.deadtime) := by tab_law
theorem tab_pwCorrection : TabL Has1 (fld% cfg.pwCorrection) := by tab_law
theorem tab_tempEnrich : TabL Has2 (fld% cfg.tempEnrich) := by tab_law
theorem tab_tipinAmount : TabL Has2 (fld% cfg.tipinAmount) := by tab_law
theorem tab_tipinDuration : TabL Has1 (fld% cfg.tipinDuration) := by tab_law
theorem tab_duty : TabL Has1 (fld% cfg.boost.duty) := by tab_law

/-- What a table of number `k` shows. -/
def seen {T : Type} (t : Lens Console (Option T)) (k : Fin 10) (c : Console) :
    Option T × String × String × String := (t.get c, c.title k, c.colName k, c.rowName k)

theorem seen1 (t : Lens Console (Option Table1d)) (k : Fin 10) : Sees (seen t k) (table1Node t k) := by
  apply reads_table1 <;> (intro s s' h; simp only [seen, Prod.mk.injEq] at h; simp only [h])
theorem seen2 (t : Lens Console (Option Table2d)) (k : Fin 10) : Sees (seen t k) (table2Node t k) := by
  apply reads_table2 <;> (intro s s' h; simp only [seen, Prod.mk.injEq] at h; simp only [h])

theorem off_seen {T T' : Type} {t : Lens Console (Option T)} {t' : Lens Console (Option T')} {k k' : Fin 10}
    {ok' : Option T' → Prop} {ok : Option T → Prop} (h : TabL ok t) (h' : TabL ok' t') (hk : k ≠ k')
    (ht : ∀ s a, t.get (t'.set a s) = t.get s) : Off (seen t k) t' k' := by
  constructor
  · intro s a; simp [seen, ht, h'.title, h'.col, h'.row]
  · intro s a; simp [seen, h.gtitle, hk]
  · intro s a; simp [seen, h.gcol, hk]
  · intro s a; simp [seen, h.grow, hk]

theorem indep11 {t t' : Lens Console (Option Table1d)} {k k' : Fin 10} (h : TabL Has1 t) (h' : TabL Has1 t')
    (hk : k' ≠ k) (ht : ∀ s a, t'.get (t.set a s) = t'.get s) :
    Indep Loaded (table1Node t k) (table1Node t' k') :=
  indep_of (keeps_table1 h (off_seen h' h hk ht)) (seen1 t' k')
theorem indep12 {t : Lens Console (Option Table1d)} {t' : Lens Console (Option Table2d)} {k k' : Fin 10}
    (h : TabL Has1 t) (h' : TabL Has2 t') (hk : k' ≠ k) (ht : ∀ s a, t'.get (t.set a s) = t'.get s) :
    Indep Loaded (table1Node t k) (table2Node t' k') :=
  indep_of (keeps_table1 h (off_seen h' h hk ht)) (seen2 t' k')
theorem indep21 {t : Lens Console (Option Table2d)} {t' : Lens Console (Option Table1d)} {k k' : Fin 10}
    (h : TabL Has2 t) (h' : TabL Has1 t') (hk : k' ≠ k) (ht : ∀ s a, t'.get (t.set a s) = t'.get s) :
    Indep Loaded (table2Node t k) (table1Node t' k') :=
  indep_of (keeps_table2 h (off_seen h' h hk ht)) (seen1 t' k')
theorem indep22 {t t' : Lens Console (Option Table2d)} {k k' : Fin 10} (h : TabL Has2 t) (h' : TabL Has2 t')
    (hk : k' ≠ k) (ht : ∀ s a, t'.get (t.set a s) = t'.get s) :
    Indep Loaded (table2Node t k) (table2Node t' k') :=
  indep_of (keeps_table2 h (off_seen h' h hk ht)) (seen2 t' k')

macro "tab_any" : tactic => `(tactic| first
  | exact tab_ve | exact tab_lambda | exact tab_dwell | exact tab_timing | exact tab_deadtime
  | exact tab_pwCorrection | exact tab_tempEnrich | exact tab_tipinAmount | exact tab_tipinDuration
  | exact tab_duty)

theorem wf_tables : WF Loaded tablesNode := by
  unfold tablesNode
  apply wf_fields
  · each
    all_goals first
      | exact wf_table2 (by tab_any) _
      | exact wf_table1 (by tab_any) _
  · each
    all_goals first
      | exact indep22 (by tab_any) (by tab_any) (by decide) (fun _ _ => rfl)
      | exact indep11 (by tab_any) (by tab_any) (by decide) (fun _ _ => rfl)
      | exact indep12 (by tab_any) (by tab_any) (by decide) (fun _ _ => rfl)
      | exact indep21 (by tab_any) (by tab_any) (by decide) (fun _ _ => rfl)
  · exact post_ok

/-! #### boost control -/

/-- The scalar members of the boost configuration. -/
def boostScalars (c : Console) := (c.cfg.boost.pin, c.cfg.boost.enableKpa, c.cfg.boost.controlKpa,
  c.cfg.boost.controlTps, c.cfg.boost.overboost)

theorem keeps_leaf {α ρ : Type} {r : Console → ρ} {l : Lens Console α} (hr : ∀ s v, r (l.set v s) = r s)
    (n : Node Console) (h : ∀ s s', Writes n s s' → ∃ v, s' = l.set v s) : Keeps Loaded r n := by
  intro s s' _ hw
  obtain ⟨v, rfl⟩ := h s s' hw
  exact hr _ _

theorem wf_boost : WF Loaded boostNode := by
  unfold boostNode
  apply wf_fields
  · each
    all_goals first
      | exact wf_table1 tab_duty _
      | exact fun s v h => ⟨rfl, h⟩
  · each
    all_goals first
      | (intro s s' _ h
         cases h
         rfl)
      | (refine indep_of (r := boostScalars) (keeps_table1 tab_duty ?_) ?_
         · constructor <;> (intros; rfl)
         · intro s s' h
           simp only [boostScalars, Prod.mk.injEq] at h
           simp only [dump, h])
      | (refine indep_of ?_ (seen1 _ _)
         intro s s' _ h
         cases h
         rfl)
  · exact post_ok

/-- Everything the tables show. -/
def tablesSeen (c : Console) :=
  (seen (fld% cfg.ve) 0 c, seen (fld% cfg.lambda) 1 c, seen (fld% cfg.dwell) 2 c, seen (fld% cfg.timing) 3 c,
   seen (fld% cfg.deadtime) 4 c, seen (fld% cfg.pwCorrection) 5 c, seen (fld% cfg.tempEnrich) 6 c,
   seen (fld% cfg.tipinAmount) 7 c, seen (fld% cfg.tipinDuration) 8 c)

theorem Sees.mono {ρ ρ' σ : Type} {r : σ → ρ} {r' : σ → ρ'} {n : Node σ} (h : Sees r n)
    (hr : ∀ s s', r' s = r' s' → r s = r s') : Sees r' n := fun s s' he => h s s' (hr s s' he)

theorem reads_tables : Sees tablesSeen tablesNode := by
  unfold tablesNode
  apply reads_fields
  each
  all_goals first
    | (refine (seen2 _ _).mono ?_
       intro s s' h
       simp only [tablesSeen, Prod.mk.injEq] at h
       simp only [h])
    | (refine (seen1 _ _).mono ?_
       intro s s' h
       simp only [tablesSeen, Prod.mk.injEq] at h
       simp only [h])

def boostSeen (c : Console) := (boostScalars c, seen (fld% cfg.boost.duty) 9 c)

theorem reads_boost : Sees boostSeen boostNode := by
  unfold boostNode
  apply reads_fields
  each
  all_goals first
    | (refine (seen1 _ _).mono ?_
       intro s s' h
       simp only [boostSeen, Prod.mk.injEq] at h
       simp only [h])
    | (intro s s' h
       simp only [boostSeen, boostScalars, Prod.mk.injEq] at h
       simp only [dump, h])

theorem keeps_boost {ρ : Type} {r : Console → ρ} (h : ∀ c b, r { c with cfg.boost := b } = r c)
    (hd : Off r (fld% cfg.boost.duty) 9) : Keeps Loaded r boostNode := by
  unfold boostNode
  apply keeps_fields
  each
  all_goals first
    | exact keeps_table1 tab_duty hd
    | (intro s s' _ hw
       cases hw
       exact h _ _)

theorem keeps_tables {ρ : Type} {r : Console → ρ} (h0 : Off r (fld% cfg.ve) 0)
    (h1 : Off r (fld% cfg.lambda) 1) (h2 : Off r (fld% cfg.dwell) 2) (h3 : Off r (fld% cfg.timing) 3)
    (h4 : Off r (fld% cfg.deadtime) 4) (h5 : Off r (fld% cfg.pwCorrection) 5)
    (h6 : Off r (fld% cfg.tempEnrich) 6) (h7 : Off r (fld% cfg.tipinAmount) 7)
    (h8 : Off r (fld% cfg.tipinDuration) 8) : Keeps Loaded r tablesNode := by
  unfold tablesNode
  apply keeps_fields
  each
  all_goals first
    | exact keeps_table1 (by tab_any) (by assumption)
    | exact keeps_table2 (by tab_any) (by assumption)

/-! #### knock sensors -/

section
variable [FloatFmt] [LibM]

omit [FloatFmt] [LibM] in
theorem lawful_knock (i : Fin 2) : Lens.Lawful Loaded (Lens.comp (fld% cfg.knock) (Lens.ix i)) := by
  refine ⟨fun s a => by simp [Lens.comp, Lens.ix], fun s => ?_, fun s a h => h⟩
  have : (fun j => if j = i then s.cfg.knock i else s.cfg.knock j) = s.cfg.knock := by
    funext j; split
    · rename_i h; rw [h]
    · rfl
  simp [Lens.comp, Lens.ix, this]

/-- The two members of a knock sensor that are shown. -/
def knockSeen (i : Fin 2) (c : Console) := ((c.cfg.knock i).frequency, (c.cfg.knock i).threshold)

theorem knockConfigure_same {rate : BitVec 32} {k k' : Knock} (h : knockConfigure rate k = .ok k') :
    k'.frequency = k.frequency ∧ k'.threshold = k.threshold := by
  unfold knockConfigure at h
  obtain ⟨b, _, h⟩ := bind_eq_ok.mp h
  cases h
  exact ⟨rfl, rfl⟩

theorem knockPost_same {rate : BitVec 32} {s s' : Console} (h : knockPost rate s = .ok s') :
    ∃ k, s' = { s with cfg.knock := k } ∧ ∀ i, knockSeen i s' = knockSeen i s := by
  unfold knockPost at h
  obtain ⟨k0, h0, h⟩ := bind_eq_ok.mp h
  obtain ⟨k1, h1, h⟩ := bind_eq_ok.mp h
  cases h
  have h0 := knockConfigure_same h0
  have h1 := knockConfigure_same h1
  refine ⟨_, rfl, fun i => ?_⟩
  match i with
  | 0 => simp [knockSeen, h0]
  | 1 => simp [knockSeen, h1]

theorem reads_knock (rate : BitVec 32) (i : Fin 2) :
    Sees (knockSeen i) (knockNode rate (Lens.comp (fld% cfg.knock) (Lens.ix i))) := by
  unfold knockNode
  apply reads_fields
  each
  all_goals
    intro s s' h
    simp only [knockSeen, Prod.mk.injEq] at h
    simp only [dump, Lens.comp, Lens.ix, h]

theorem writes_knock {rate : BitVec 32} {i : Fin 2} {s s' : Console}
    (h : Writes (knockNode rate (Lens.comp (fld% cfg.knock) (Lens.ix i))) s s') :
    ∃ k, s' = { s with cfg.knock := k } ∧ ∀ j, j ≠ i → knockSeen j s' = knockSeen j s := by
  unfold knockNode at h
  cases h with
  | map m hm h =>
    have hm : m < 2 := hm
    interval_cases m
    all_goals
      cases h
      refine ⟨_, rfl, fun j hj => ?_⟩
      simp [knockSeen, Lens.comp, Lens.ix, hj]
  | post h =>
    obtain ⟨k, h1, h2⟩ := knockPost_same h
    exact ⟨k, h1, fun j _ => h2 j⟩

theorem wf_knock (rate : BitVec 32) (i : Fin 2) :
    WF Loaded (knockNode rate (Lens.comp (fld% cfg.knock) (Lens.ix i))) := by
  unfold knockNode
  apply wf_fields
  · have hl := lawful_knock i
    generalize (Lens.comp (fld% cfg.knock) (Lens.ix i) : Lens Console Knock) = l at hl ⊢
    each
    all_goals wf_leaf hl
  · have hl := lawful_knock i
    generalize (Lens.comp (fld% cfg.knock) (Lens.ix i) : Lens Console Knock) = l at hl ⊢
    each
    all_goals indep_leaf hl
  · intro s s' hs h
    obtain ⟨k, rfl, h2⟩ := knockPost_same h
    refine ⟨hs, ?_⟩
    have h2 := h2 i
    simp only [knockSeen, Prod.mk.injEq] at h2
    each
    all_goals simp only [dump, Lens.comp, Lens.ix, h2]

/-! #### sensors -/

def sensorsSeen (c : Console) := (c.cfg.sensors, knockSeen 0 c, knockSeen 1 c)

theorem reads_sensors (rate : BitVec 32) : Sees sensorsSeen (sensorsNode rate) := by
  refine reads_map fun i hi => ?_
  dsimp only
  split
  · refine (foot_sensor (lawful_sensor _)).1.mono fun s s' h => ?_
    simp only [sensorsSeen, Prod.mk.injEq] at h
    simp [Lens.comp, h]
  · split
    · refine (reads_knock rate 0).mono fun s s' h => ?_
      simp only [sensorsSeen, Prod.mk.injEq] at h
      exact h.2.1
    · refine (reads_knock rate 1).mono fun s s' h => ?_
      simp only [sensorsSeen, Prod.mk.injEq] at h
      exact h.2.2

theorem keeps_sensors (rate : BitVec 32) {ρ : Type} {r : Console → ρ}
    (h : ∀ c x, r { c with cfg.sensors := x } = r c) (h' : ∀ c x, r { c with cfg.knock := x } = r c) :
    Keeps Loaded r (sensorsNode rate) := by
  intro s s' hs hw
  cases hw with
  | map i hi hw =>
    dsimp only at hw
    split at hw
    · exact (foot_sensor (lawful_sensor _)).keeps (fun a s => h _ _) s s' hs hw
    · split at hw
      · obtain ⟨k, rfl, _⟩ := writes_knock hw
        exact h' _ _
      · obtain ⟨k, rfl, _⟩ := writes_knock hw
        exact h' _ _
  | post hw => cases hw; rfl

theorem wf_sensors (rate : BitVec 32) : WF Loaded (sensorsNode rate) := by
  refine ⟨fun i hi => ?_, fun i hi j hj hij => ?_, fun s s' hs h => ?_⟩
  · dsimp only
    split
    · exact wf_sensor (lawful_sensor _)
    · split
      · exact wf_knock rate 0
      · exact wf_knock rate 1
  · dsimp only
    have hi : i < 12 := hi
    have hj : j < 12 := hj
    split
    · rename_i h1
      split
      · rename_i h2
        exact (foot_sensor (lawful_sensor ⟨i, h1⟩)).indep (foot_sensor (lawful_sensor ⟨j, h2⟩)) (fun a s => by
          have : ¬ (⟨j, h2⟩ : Fin numSensors) = ⟨i, h1⟩ := by simpa using Ne.symm hij
          simp [Lens.comp, Lens.ix, this])
      · split
        · exact indep_of ((foot_sensor (lawful_sensor ⟨i, h1⟩)).keeps fun a s => rfl) (reads_knock rate 0)
        · exact indep_of ((foot_sensor (lawful_sensor ⟨i, h1⟩)).keeps fun a s => rfl) (reads_knock rate 1)
    · rename_i h1
      have h1 : ¬ i < 10 := h1
      have key : ∀ a : Fin 2, (a = 0 ↔ i = 10) →
          Indep Loaded (knockNode rate (Lens.comp (fld% cfg.knock) (Lens.ix a)))
          (if h : j < numSensors then sensorNode (Lens.comp (fld% cfg.sensors) (Lens.ix ⟨j, h⟩))
            else if j = 10 then knockNode rate (Lens.comp (fld% cfg.knock) (Lens.ix 0))
            else knockNode rate (Lens.comp (fld% cfg.knock) (Lens.ix 1))) := by
        intro a ha s s' hs hw
        obtain ⟨k, rfl, h2⟩ := writes_knock hw
        split
        · exact (foot_sensor (lawful_sensor _)).1 _ _ rfl
        · rename_i h3
          have h3 : ¬ j < 10 := h3
          split
          · exact reads_knock rate 0 _ _ (h2 0 fun he => by have := ha.mp he.symm; omega)
          · exact reads_knock rate 1 _ _ (h2 1 fun he => by
              have : ¬ i = 10 := fun h => by rw [ha.mpr h] at he; exact absurd he (by decide)
              omega)
      split
      · exact key 0 (by simpa)
      · exact key 1 (by simpa)
  · cases h; exact ⟨hs, fun _ _ => rfl⟩

/-! #### the whole tree -/

macro "off_rfl" : tactic => `(tactic| (constructor <;> (intros; rfl)))

omit [FloatFmt] [LibM] in
theorem Off.prod {ρ ρ' T : Type} {r : Console → ρ} {r' : Console → ρ'} {t : Lens Console (Option T)} {k : Fin 10}
    (h : Off r t k) (h' : Off r' t k) : Off (fun c => (r c, r' c)) t k := by
  constructor
  · intro s a; simp only [h.tab, h'.tab]
  · intro s a; simp only [h.title, h'.title]
  · intro s a; simp only [h.col, h'.col]
  · intro s a; simp only [h.row, h'.row]

omit [FloatFmt] [LibM] in
theorem tables_boost : Indep Loaded tablesNode boostNode := by
  refine indep_of (keeps_tables ?_ ?_ ?_ ?_ ?_ ?_ ?_ ?_ ?_) reads_boost
  all_goals
    refine Off.prod (by off_rfl) (off_seen tab_duty (by tab_any) (by decide) fun _ _ => rfl)

omit [FloatFmt] [LibM] in
theorem boost_tables : Indep Loaded boostNode tablesNode := by
  refine indep_of (keeps_boost (fun _ _ => rfl) ?_) reads_tables
  refine Off.prod ?_ (Off.prod ?_ (Off.prod ?_ (Off.prod ?_ (Off.prod ?_ (Off.prod ?_ (Off.prod ?_
    (Off.prod ?_ ?_)))))))
  all_goals exact off_seen (by tab_any) tab_duty (by decide) fun _ _ => rfl

theorem wf_console (rate : BitVec 32) (version : String) : WF Loaded (consoleTree rate version) := by
  have hinfo : Sees (fun _ : Console => ()) (.fields [("version", .const version)]) := by
    apply reads_fields
    each
    intro s s' _
    rw [dump, dump]
  have kinfo : ∀ {ρ : Type} {r : Console → ρ}, Keeps Loaded r (.fields [("version", .const version)]) := by
    intro ρ r
    apply keeps_fields
    each
    intro s s' _ h
    cases h
  unfold consoleTree
  apply wf_fields
  · each
    · exact wf_decoder
    · exact wf_sensors rate
    · exact wf_outputs
    · exact wf_fueling
    · exact wf_ignition
    · exact wf_tables
    · exact wf_boost
    · exact wf_cel
    · exact wf_freqList
    · exact wf_test
    · apply wf_fields
      · each
        trivial
      · each
      · exact post_ok
  · each
    all_goals first
      | exact tables_boost
      | exact boost_tables
      | (refine indep_of (r := ?_) ?_ (by first
          | exact foot_decoder.1 | exact reads_sensors rate | exact foot_outputs.1 | exact foot_fueling.1
          | exact foot_ignition.1 | exact reads_tables | exact reads_boost | exact foot_cel.1
          | exact foot_freqList.1 | exact foot_test.1 | exact hinfo)
         first
          | exact kinfo
          | exact foot_decoder.keeps (fun _ _ => rfl) | exact keeps_sensors rate (fun _ _ => rfl) (fun _ _ => rfl)
          | exact foot_outputs.keeps (fun _ _ => rfl) | exact foot_fueling.keeps (fun _ _ => rfl)
          | exact foot_ignition.keeps (fun _ _ => rfl)
          | (refine keeps_tables ?_ ?_ ?_ ?_ ?_ ?_ ?_ ?_ ?_ <;> off_rfl)
          | exact keeps_boost (fun _ _ => rfl) (by off_rfl)
          | exact foot_cel.keeps (fun _ _ => rfl) | exact foot_freqList.keeps (fun _ _ => rfl)
          | exact foot_test.keeps (fun _ _ => rfl))
  · exact post_ok

/-! ### What is shown -/

omit [FloatFmt] [LibM] in
theorem collect_ok {key : Nat → List Item} {f : Nat → Except Fault Item} {is : List Nat}
    (h : ∀ i ∈ is, ∃ d, f i = .ok d) : ∃ l, collect key f is = .ok l := by
  induction is with
  | nil => exact ⟨[], rfl⟩
  | cons i is ih =>
    obtain ⟨d, hd⟩ := h i (by simp)
    obtain ⟨l, hl⟩ := ih fun j hj => h j (by simp [hj])
    exact ⟨key i ++ d :: l, by simp [collect, hd, hl]⟩

/-- The node can be shown. -/
def Shows (n : Node Console) : Prop := ∀ s, Loaded s → ∃ d, dump n s = .ok d

omit [FloatFmt] [LibM] in
theorem shows_map {ids child post} (h : ∀ i < ids.length, Shows (child i)) : Shows (.map ids child post) := by
  intro s hs
  obtain ⟨l, hl⟩ := collect_ok (key := fun i => [.text (ids.getD i "")]) (f := fun i => dump (child i) s)
    (is := List.range ids.length) fun i hi => h i (List.mem_range.mp hi) s hs
  exact ⟨.map l, by rw [dump, hl]⟩

omit [FloatFmt] [LibM] in
theorem shows_fields {l : List (String × Node Console)} {post} (h : ∀ x ∈ l, Shows x.2) :
    Shows (.fields l post) := by
  refine shows_map fun i hi => ?_
  rw [List.length_map] at hi
  have : (l.getD i ("", Node.oob)) = l[i] := by simp [List.getD, hi]
  rw [this]
  exact h _ (List.getElem_mem hi)

omit [FloatFmt] [LibM] in
theorem shows_arr {resize count elem} (h : ∀ s, Loaded s → ∀ i < count s, ∃ d, dump (elem i) s = .ok d) :
    Shows (.arr resize count elem) := by
  intro s hs
  obtain ⟨l, hl⟩ := collect_ok (key := fun _ => []) (f := fun i => dump (elem i) s)
    (is := List.range (count s)) fun i hi => h s hs i (List.mem_range.mp hi)
  exact ⟨.arr false l, by rw [dump, hl]⟩

omit [FloatFmt] [LibM] in
theorem shows_fixedArr {n : Nat} {elem : Fin n → Node Console} (h : ∀ i, Shows (elem i)) :
    Shows (fixedArr n elem) := by
  refine shows_arr fun s hs i hi => ?_
  have hi : i < n := hi
  simp only [hi, dif_pos]
  exact h _ s hs

omit [FloatFmt] [LibM] in
theorem shows_deref {null n} (h : ∀ s, Loaded s → null s = false) (hn : Shows n) : Shows (.deref null n) := by
  intro s hs
  obtain ⟨d, hd⟩ := hn s hs
  exact ⟨d, by rw [dump, h s hs, hd]; rfl⟩

/-- A leaf can be shown. -/
macro "shows_leaf" : tactic => `(tactic| exact fun s _ => ⟨_, by rw [dump]⟩)

omit [FloatFmt] [LibM] in
theorem shows_axis {la : Lens Console Axis} {name : Lens Console String} :
    Shows (axisNode la name) := by
  unfold axisNode
  apply shows_fields
  each
  · shows_leaf
  · refine shows_arr fun s hs i hi => ?_
    have : i < maxAxis := lt_of_lt_of_le hi (min_le_right _ _)
    simp only [this, dif_pos]
    exact ⟨_, by rw [dump]⟩

omit [FloatFmt] [LibM] in
theorem shows_table1 {t : Lens Console (Option Table1d)} (h : TabL Has1 t) (k : Fin 10) :
    Shows (table1Node t k) := by
  refine shows_deref (fun s hs => ?_) ?_
  · obtain ⟨T, hT, _⟩ := h.has s hs
    simp [hT]
  · apply shows_fields
    each
    · shows_leaf
    · exact shows_axis
    · refine shows_arr fun s hs i hi => ?_
      obtain ⟨T, hT, hn⟩ := h.has s hs
      simp only [Lens.comp, Lens.some, hT, Option.getD_some] at hi
      have : i < maxAxis := by omega
      simp only [this, dif_pos]
      exact ⟨_, by rw [dump]⟩

omit [FloatFmt] [LibM] in
theorem shows_table2 {t : Lens Console (Option Table2d)} (h : TabL Has2 t) (k : Fin 10) :
    Shows (table2Node t k) := by
  refine shows_deref (fun s hs => ?_) ?_
  · obtain ⟨T, hT, _⟩ := h.has s hs
    simp [hT]
  · apply shows_fields
    each
    · shows_leaf
    · exact shows_axis
    · exact shows_axis
    · refine shows_arr fun s hs i hi => ?_
      obtain ⟨T, hT, hn, hm⟩ := h.has s hs
      simp only [Lens.comp, Lens.some, hT, Option.getD_some] at hi
      have h1 : i < maxAxis := by omega
      have : ∃ l, collect (fun _ => []) (fun j => dump (if h : i < maxAxis ∧ j < maxAxis then
          Node.flt ((t.comp (Lens.some noTable2)).comp
            (Lens.comp (fld% data) (Lens.comp (Lens.ix ⟨i, h.1⟩) (Lens.ix ⟨j, h.2⟩))))
          else .oob) s) (List.range ((t.comp (Lens.some noTable2)).get s).cols.num) = .ok l := by
        apply collect_ok
        intro j hj
        rw [List.mem_range] at hj
        simp only [Lens.comp, Lens.some, hT, Option.getD_some] at hj
        have h2 : j < maxAxis := by omega
        simp only [h1, h2, and_self, dif_pos]
        exact ⟨_, by rw [dump]⟩
      obtain ⟨l, hl⟩ := this
      exact ⟨.arr false l, by rw [dump, hl]⟩

theorem shows_console (rate : BitVec 32) (version : String) : Shows (consoleTree rate version) := by
  have hleaf : ∀ (l : Lens Console OEvent), Shows (outputNode l) := by
    intro l
    unfold outputNode
    apply shows_fields
    each
    all_goals shows_leaf
  have hsens : ∀ (l : Lens Console Sensor), Shows (sensorNode l) := by
    intro l
    unfold sensorNode
    apply shows_fields
    each
    all_goals shows_leaf
  have hfreq : ∀ (l : Lens Console FreqInput), Shows (freqNode l) := by
    intro l
    unfold freqNode
    apply shows_fields
    each
    all_goals shows_leaf
  have hknock : ∀ (l : Lens Console Knock), Shows (knockNode rate l) := by
    intro l
    unfold knockNode
    apply shows_fields
    each
    all_goals shows_leaf
  unfold consoleTree
  apply shows_fields
  each
  · unfold decoderNode; apply shows_fields; each
    all_goals shows_leaf
  · refine shows_map fun i hi => ?_
    split
    · exact hsens _
    · split <;> exact hknock _
  · exact shows_fixedArr fun i => hleaf _
  · unfold fuelingNode crankNode; apply shows_fields; each
    all_goals first
      | shows_leaf
      | (apply shows_fields; each
         all_goals shows_leaf)
  · unfold ignitionNode; apply shows_fields; each
    all_goals shows_leaf
  · unfold tablesNode; apply shows_fields; each
    all_goals first
      | exact shows_table2 (by tab_any) _
      | exact shows_table1 (by tab_any) _
  · unfold boostNode; apply shows_fields; each
    all_goals first
      | exact shows_table1 tab_duty _
      | shows_leaf
  · unfold celNode; apply shows_fields; each
    all_goals shows_leaf
  · exact shows_fixedArr fun i => hfreq _
  · unfold testNode; apply shows_fields; each
    all_goals shows_leaf
  · apply shows_fields; each
    shows_leaf

/-! ### What is not shown -/

/-- Members of a structure with an index are written one at a time. -/
macro "hidden_ix" : tactic => `(tactic| (
  intro s s' _ h
  cases h
  simp only [Console.hidden, Lens.comp, Lens.ix, Prod.mk.injEq, true_and, and_true]
  funext j
  split
  · rename_i h; rw [h]
  · rfl))

theorem keeps_hidden (rate : BitVec 32) (version : String) :
    Keeps Loaded Console.hidden (consoleTree rate version) := by
  unfold consoleTree
  apply keeps_fields
  each
  · unfold decoderNode; apply keeps_fields; each
    all_goals
      intro s s' _ h
      cases h
      rfl
  · intro s s' hs hw
    cases hw with
    | map i hi hw =>
      dsimp only at hw
      split at hw
      · rename_i h1
        have : Keeps Loaded Console.hidden
            (sensorNode (Lens.comp (fld% cfg.sensors) (Lens.ix ⟨i, h1⟩))) := by
          unfold sensorNode; apply keeps_fields; each
          all_goals hidden_ix
        exact this s s' hs hw
      · split at hw
        · obtain ⟨k, rfl, _⟩ := writes_knock hw
          rfl
        · obtain ⟨k, rfl, _⟩ := writes_knock hw
          rfl
    | post hw => cases hw; rfl
  · intro s s' hs hw
    cases hw with
    | arr i hw =>
      dsimp only at hw
      split at hw
      · rename_i h1
        have : Keeps Loaded Console.hidden
            (outputNode (Lens.comp (fld% cfg.events) (Lens.ix ⟨i, h1⟩))) := by
          unfold outputNode; apply keeps_fields; each
          all_goals hidden_ix
        exact this s s' hs hw
      · cases hw
  · unfold fuelingNode crankNode; apply keeps_fields; each
    all_goals first
      | (intro s s' _ h
         cases h
         rfl)
      | (apply keeps_fields; each
         all_goals
           intro s s' _ h
           cases h
           rfl)
  · unfold ignitionNode; apply keeps_fields; each
    all_goals
      intro s s' _ h
      cases h
      rfl
  · refine keeps_tables ?_ ?_ ?_ ?_ ?_ ?_ ?_ ?_ ?_ <;> off_rfl
  · exact keeps_boost (fun _ _ => rfl) (by off_rfl)
  · exact foot_cel.keeps fun _ _ => rfl
  · exact foot_freqList.keeps fun _ _ => rfl
  · exact foot_test.keeps fun _ _ => rfl
  · apply keeps_fields; each
    intro s s' _ h
    cases h

end

end Verif
