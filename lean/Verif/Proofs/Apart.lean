/-
A set changes nothing that its path leads past, whatever its value is.
-/
import Verif.Proofs.RestoreTree

namespace Verif

section
variable {σ : Type}

/-- Along the path, the parts of a map or a list do not share memory, nor does the size of a list in one of
them determine what another shows. -/
def Apart (I : σ → Prop) : Node σ → List Item → Prop
  | .map ids child _, p =>
    match p with
    | [] => True
    | k :: r => (∀ i < ids.length, ∀ j < ids.length, i ≠ j → ∀ s s', I s → Resizes (child i) s s' →
        dump (child j) s' = dump (child j) s) ∧ ∀ i < ids.length, k = .text (ids.getD i "") → Apart I (child i) r
  | .arr resize _ elem, p =>
    match p with
    | [] => True
    | _ :: r => resize = none ∧ (∀ i s s', ¬Resizes (elem i) s s') ∧ ∀ i, Apart I (elem i) r
  | .deref _ n, p => Apart I n p
  | _, _ => True

/-- What is shown at a key depends on the field with that key only. -/
theorem step_same {I : σ → Prop} {ids : List String} {child : Nat → Node σ} {post} (hw : WF I (.map ids child post))
    {s s' : σ} (hi : I s) (hi' : I s') {d d' : Item} (hd : dump (.map ids child post) s = .ok d)
    (hd' : dump (.map ids child post) s' = .ok d') {k : Item}
    (h : ∀ i < ids.length, k = .text (ids.getD i "") → dump (child i) s' = dump (child i) s) :
    Item.step k d' = Item.step k d := by
  cases hf : (List.range ids.length).find? (fun i => pathMatchStr (k :: []) (ids.getD i "")) with
  | none =>
    have h1 := follow_dump _ hw s hi [k] d hd
    have h2 := follow_dump _ hw s' hi' [k] d' hd'
    rw [Node.at, hf] at h1 h2
    simp only [Item.follow] at h1 h2
    cases hx : Item.step k d with
    | none =>
      cases hx' : Item.step k d' with
      | none => rfl
      | some x => rw [hx'] at h2; cases h2
    | some x => rw [hx] at h1; cases h1
  | some i =>
    obtain ⟨x, h1, h2⟩ := step_map hd hf
    obtain ⟨x', h1', h2'⟩ := step_map hd' hf
    have hil := List.mem_range.mp (List.mem_of_find?_eq_some hf)
    have hk : k = .text (ids.getD i "") := by
      have := List.find?_some hf
      cases k with
      | text t => simpa [pathMatchStr] using this
      | _ => simp [pathMatchStr] at this
    rw [h i hil hk, h1] at h1'
    cases h1'
    rw [h2, h2']

theorem step_same_arr {I : σ → Prop} {resize count} {elem : Nat → Node σ} (hw : WF I (.arr resize count elem))
    {s s' : σ} (hi : I s) (hi' : I s') {d d' : Item} (hd : dump (.arr resize count elem) s = .ok d)
    (hd' : dump (.arr resize count elem) s' = .ok d') {k : Item} (hc : count s' = count s)
    (h : ∀ i : Nat, k = .int i → dump (elem i) s' = dump (elem i) s) :
    Item.step k d' = Item.step k d := by
  have hn := hw.2.2.1 s hi
  cases hf : (List.range (count s)).find? (fun i => pathMatchInt (k :: []) i) with
  | none =>
    have h1 := follow_dump _ hw s hi [k] d hd
    have h2 := follow_dump _ hw s' hi' [k] d' hd'
    rw [Node.at, hf] at h1
    rw [Node.at, hc, hf] at h2
    simp only [Item.follow] at h1 h2
    cases hx : Item.step k d with
    | none =>
      cases hx' : Item.step k d' with
      | none => rfl
      | some x => rw [hx'] at h2; cases h2
    | some x => rw [hx] at h1; cases h1
  | some i =>
    obtain ⟨x, h1, h2⟩ := step_arr hn hd hf
    obtain ⟨x', h1', h2'⟩ := step_arr (by rw [hc]; exact hn) hd' (by rw [hc]; exact hf)
    have hk : k = .int i := by
      rw [find_index _ hn] at hf
      cases k with
      | int m =>
        dsimp only at hf
        split at hf
        · cases hf
          congr 1
          omega
        · cases hf
      | _ => cases hf
    rw [h i hk, h1] at h1'
    cases h1'
    rw [h2, h2']

variable [FloatFmt]

/-- A set with the path `a ++ k :: r` leaves alone what is at `a ++ k' :: u` for any other `k'`. -/
theorem render_other {I : σ → Prop} {E : Fault → Prop} (n : Node σ) (hw : WF I n) (hg : Grow I E n) (b : Bool)
    (v : Option Item) (a : List Item) {k k' : Item} (hne : k' ≠ k) (r u : List Item) (ha : Apart I n (a ++ [k]))
    (st st' : RSt σ) (hpath : st.path = a ++ k :: r) (hi : I st.s) (h : render n b true v st = .ok st')
    {d d' : Item} (hd : dump n st.s = .ok d) (hd' : dump n st'.s = .ok d') :
    d'.follow (a ++ k' :: u) = d.follow (a ++ k' :: u) := by
  induction n generalizing a v st st' d d' with
  | map ids child post ih =>
    have hout := render_any _ hw hg b true v st hi
    rw [h] at hout
    have hi' : I st'.s := hout.1
    -- the field that is rendered
    obtain ⟨k0, p', hp0⟩ : ∃ k0 p', a ++ k :: r = k0 :: p' := by
      cases a with
      | nil => exact ⟨k, r, rfl⟩
      | cons x a => exact ⟨x, a ++ k :: r, rfl⟩
    rw [hp0] at hpath
    have hv : mapValue b true v = fun _ => some v := by funext; simp [mapValue]
    have hfl := fieldLoop_filtered (fun i => descendMap b true v (ids.getD i ""))
      (fun i f v st' => render (child i) b f v st') (List.range ids.length) st
      (fun i => pathMatchStr (k0 :: p') (ids.getD i ""))
      (!p'.isEmpty, v, { st with path := p' })
      (fun i => by simp [descendMap, descend, hv, hpath])
    have hsame : ∀ s1 s2, I s1 → (b = true → post s1 = .ok s2) → (b = false → s2 = s1) →
        ∀ i < ids.length, dump (child i) s2 = dump (child i) s1 := by
      intro s1 s2 h1 h2 h3 i hil
      cases b
      · rw [h3 rfl]
      · exact (hw.2.2 s1 s2 h1 (h2 rfl)).2 i hil
    rw [render] at h
    simp only [openOut, if_true] at h
    rw [hfl] at h
    cases hf : (List.range ids.length).find? (fun i => pathMatchStr (k0 :: p') (ids.getD i "")) with
    | none =>
      rw [hf] at h
      dsimp only at h
      have hs2 : ∀ i < ids.length, dump (child i) st'.s = dump (child i) st.s := by
        refine hsame st.s st'.s hi (fun hb => ?_) (fun hb => ?_)
        · subst hb
          simp only [if_true] at h
          cases hp : post st.s with
          | error e => rw [hp] at h; cases h
          | ok s2 => rw [hp] at h; cases h; simp [wrap_s, addNull_s]
        · subst hb
          simp only [Bool.false_eq_true, if_false] at h
          cases h
          simp [wrap_s, addNull_s]
      have hst : ∀ q, Item.step q d' = Item.step q d :=
        fun q => step_same hw hi hi' hd hd' fun i hil _ => hs2 i hil
      cases a with
      | nil => simp only [List.nil_append, Item.follow, hst]
      | cons x a => simp only [List.cons_append, Item.follow, hst]
    | some i =>
      have hil := List.mem_range.mp (List.mem_of_find?_eq_some hf)
      have hk0 : k0 = .text (ids.getD i "") := by
        have := List.find?_some hf
        cases k0 with
        | text t => simpa [pathMatchStr] using this
        | _ => simp [pathMatchStr] at this
      rw [hf] at h
      dsimp only at h
      have hst1 := render_any _ (hw.1 i hil) (hg.1 i hil) b (!p'.isEmpty) v { st with path := p' } hi
      cases hr : render (child i) b (!p'.isEmpty) v { st with path := p' } with
      | error e => rw [hr] at h; cases h
      | ok st1 =>
        rw [hr] at h hst1
        obtain ⟨hi1, hst1⟩ : I st1.s ∧ Steps I (child i) st.s st1.s := hst1
        have hs2 : ∀ j < ids.length, dump (child j) st'.s = dump (child j) st1.s := by
          refine hsame st1.s st'.s hi1 (fun hb => ?_) (fun hb => ?_)
          · subst hb
            simp only [if_true] at h
            cases hp : post st1.s with
            | error e => rw [hp] at h; cases h
            | ok s2 => rw [hp] at h; cases h; simp [wrap_s, addNull_s]
          · subst hb
            simp only [Bool.false_eq_true, if_false] at h
            cases h
            simp [wrap_s, addNull_s]
        cases a with
        | nil =>
          cases hp0
          have hst : Item.step k' d' = Item.step k' d := by
            refine step_same hw hi hi' hd hd' fun j hjl hk => ?_
            rw [hs2 j hjl]
            have hij : i ≠ j := by
              rintro rfl
              exact hne (hk.trans hk0.symm)
            exact steps_keep (r := dump (child j)) (hw.2.1 i hil j hjl hij) (ha.1 i hil j hjl hij) hst1
          simp only [List.nil_append, Item.follow, hst]
        | cons x a =>
          obtain ⟨rfl, rfl⟩ : x = k0 ∧ a ++ k :: r = p' := by simpa using hp0
          obtain ⟨y, h1, h2⟩ := step_map hd hf
          obtain ⟨y', h1', h2'⟩ := step_map hd' hf
          rw [hs2 i hil] at h1'
          have hne' : (!(a ++ k :: r).isEmpty) = true := by simp
          rw [hne'] at hr
          have := ih i (hw.1 i hil) (hg.1 i hil) v a (ha.2 i hil hk0) { st with path := a ++ k :: r } st1 rfl hi hr
            h1 h1'
          simp only [List.cons_append, Item.follow, h2, h2', Option.bind_some]
          exact this
  | arr resize count elem ih =>
    have hout := render_any _ hw hg b true v st hi
    rw [h] at hout
    have hi' : I st'.s := hout.1
    obtain ⟨k0, p', hp0⟩ : ∃ k0 p', a ++ k :: r = k0 :: p' := by
      cases a with
      | nil => exact ⟨k, r, rfl⟩
      | cons x a => exact ⟨x, a ++ k :: r, rfl⟩
    have hres : resize = none ∧ ∀ i s s', ¬Resizes (elem i) s s' := by
      cases a with
      | nil => exact ⟨ha.1, ha.2.1⟩
      | cons x a => exact ⟨ha.1, ha.2.1⟩
    obtain ⟨rfl, hres⟩ := hres
    rw [hp0] at hpath
    have hv : arrValue b true v = fun _ => some v := by funext; simp [arrValue]
    have hfl := fieldLoop_filtered (descendArr b true v)
      (fun i f v st' => render (elem i) b f v st') (List.range (count st.s)) st
      (fun i => pathMatchInt (k0 :: p') i)
      (!p'.isEmpty, v, { st with path := p' })
      (fun i => by simp [descendArr, descend, hv, hpath])
    have hn := hw.2.2.1 st.s hi
    rw [render] at h
    simp only [openOut, resizeTo, if_true] at h
    rw [hfl] at h
    cases hf : (List.range (count st.s)).find? (fun i => pathMatchInt (k0 :: p') i) with
    | none =>
      rw [hf] at h
      dsimp only at h
      have hs : st'.s = st.s := by cases h; simp [wrap_s, addNull_s]
      rw [hs, hd] at hd'
      cases hd'
      rfl
    | some i =>
      have hil := List.mem_range.mp (List.mem_of_find?_eq_some hf)
      have hk0 : k0 = .int i := by
        rw [find_index _ hn] at hf
        cases k0 with
        | int m =>
          dsimp only at hf
          split at hf
          · cases hf
            congr 1
            omega
          · cases hf
        | _ => cases hf
      rw [hf] at h
      dsimp only at h
      have hst1 := render_any _ (hw.1 i) (hg.1 _ i hi hil) b (!p'.isEmpty) v { st with path := p' } hi
      cases hr : render (elem i) b (!p'.isEmpty) v { st with path := p' } with
      | error e => rw [hr] at h; cases h
      | ok st1 =>
        rw [hr] at h hst1
        obtain ⟨hi1, hst1⟩ : I st1.s ∧ Steps I (elem i) st.s st1.s := hst1
        have hs : st'.s = st1.s := by cases h; simp [wrap_s, addNull_s]
        have hcnt : count st'.s = count st.s := by
          rw [hs]
          exact steps_keep (r := count) (fun s s' hs hw' => hw.2.2.2 s s' i hs hw')
            (fun s s' _ h => (hres i s s' h).elim) hst1
        cases a with
        | nil =>
          cases hp0
          have hst : Item.step k' d' = Item.step k' d := by
            refine step_same_arr hw hi hi' hd hd' hcnt fun j hk => ?_
            rw [hs]
            have hij : i ≠ j := by
              rintro rfl
              exact hne (hk.trans hk0.symm)
            exact steps_keep (r := dump (elem j)) (hw.2.1 i j hij) (fun s s' _ h => (hres i s s' h).elim) hst1
          simp only [List.nil_append, Item.follow, hst]
        | cons x a =>
          obtain ⟨rfl, rfl⟩ : x = k0 ∧ a ++ k :: r = p' := by simpa using hp0
          obtain ⟨y, h1, h2⟩ := step_arr hn hd hf
          obtain ⟨y', h1', h2'⟩ := step_arr (by rw [hcnt]; exact hn) hd' (by rw [hcnt]; exact hf)
          rw [hs] at h1'
          have hne' : (!(a ++ k :: r).isEmpty) = true := by simp
          rw [hne'] at hr
          have := ih i (hw.1 i) (hg.1 _ i hi hil) v a (ha.2.2 i) { st with path := a ++ k :: r } st1 rfl hi hr
            h1 h1'
          simp only [List.cons_append, Item.follow, h2, h2', Option.bind_some]
          exact this
  | deref null n ih =>
    rw [render] at h
    split at h
    · cases h
    · rw [dump] at hd hd'
      split at hd
      · cases hd
      · split at hd'
        · cases hd'
        · exact ih hw.1 hg.2 v a ha st st' hpath hi h hd hd'
  | _ =>
    have hout := render_any _ hw hg b true v st hi
    rw [h] at hout
    have hi' := hout.1
    have h1 := follow_dump _ hw _ hi (a ++ k' :: u) d hd
    have h2 := follow_dump _ hw _ hi' (a ++ k' :: u) d' hd'
    first
    | (simp [Node.at] at h1 h2
       rw [h1, h2]
       done)
    | exact hg.elim

omit [FloatFmt] in
theorem apart_fields {I : σ → Prop} {l : List (String × Node σ)} {post} {p : List Item}
    (hr : l.Pairwise fun a b => (∀ s s', I s → Resizes b.2 s s' → dump a.2 s' = dump a.2 s) ∧
      ∀ s s', I s → Resizes a.2 s s' → dump b.2 s' = dump b.2 s)
    (h : ∀ x ∈ l, ∀ r, p = .text x.1 :: r → Apart I x.2 r) : Apart I (.fields l post) p := by
  have hmem : ∀ i, i < (l.map Prod.fst).length → ∃ h : i < l.length, (l.getD i ("", Node.oob)) = l[i] := by
    intro i hi
    rw [List.length_map] at hi
    exact ⟨hi, by simp [List.getD, hi]⟩
  cases p with
  | nil => trivial
  | cons k r =>
    refine ⟨fun i hil j hjl hij s s' hs hres => ?_, fun i hil hk => ?_⟩
    · obtain ⟨h1, h2⟩ := hmem i hil
      obtain ⟨h3, h4⟩ := hmem j hjl
      dsimp only at hres ⊢
      rw [h2] at hres
      rw [h4]
      rw [List.pairwise_iff_getElem] at hr
      rcases Nat.lt_or_gt_of_ne hij with h5 | h5
      · exact (hr i j h1 h3 h5).2 s s' hs hres
      · exact (hr j i h3 h1 h5).1 s s' hs hres
    · obtain ⟨h1, h2⟩ := hmem i hil
      dsimp only
      rw [h2]
      refine h _ (List.getElem_mem h1) r ?_
      rw [hk]
      rw [List.length_map] at hil
      simp [List.getD, hil]

omit [FloatFmt] in
theorem apart_fixed {I : σ → Prop} {l : List (String × Node σ)} {post} {p : List Item}
    (hr : ∀ x ∈ l, Fixed x.2) (h : ∀ x ∈ l, ∀ r, p = .text x.1 :: r → Apart I x.2 r) :
    Apart I (.fields l post) p := by
  refine apart_fields ?_ h
  rw [List.pairwise_iff_getElem]
  intro i j hi hj _
  exact ⟨fun s s' _ hh => (hr _ (List.getElem_mem hj) s s' hh).elim,
    fun s s' _ hh => (hr _ (List.getElem_mem hi) s s' hh).elim⟩

omit [FloatFmt] in
theorem apart_fixedArr {I : σ → Prop} {n : Nat} {elem : Fin n → Node σ} {p : List Item}
    (hr : ∀ i, Fixed (elem i)) (h : ∀ i r, Apart I (elem i) r) : Apart I (fixedArr n elem) p := by
  cases p with
  | nil => trivial
  | cons k r =>
    refine ⟨rfl, fun i s s' hres => ?_, fun i => ?_⟩
    · dsimp only at hres
      split at hres
      · exact hr _ _ _ hres
      · cases hres
    · dsimp only
      split
      · exact h _ _
      · trivial

end

section
variable [FloatFmt] [LibM] (rate : BitVec 32)

macro "apart_plain" : tactic => `(tactic| (
  apply apart_fixed
  · each
    all_goals fixed_leaf
  · each
    all_goals exact fun _ _ => trivial))

omit [FloatFmt] [LibM] in
theorem apart_table1 {t : Lens Console (Option Table1d)} {k : Fin 10} : Apart Loaded (table1Node t k) [] := trivial
omit [FloatFmt] [LibM] in
theorem apart_table2 {t : Lens Console (Option Table2d)} {k : Fin 10} : Apart Loaded (table2Node t k) [] := trivial

theorem apart_tables {p : List Item} (hp : p.length ≤ 1) : Apart Loaded tablesNode p := by
  unfold tablesNode
  refine apart_fields ?_ ?_
  · each
    all_goals first
      | exact resizes11 (by tab_any) (by tab_any) (by decide) (fun _ _ => rfl)
      | exact resizes12 (by tab_any) (by tab_any) (by decide) (fun _ _ => rfl)
      | exact resizes21 (by tab_any) (by tab_any) (by decide) (fun _ _ => rfl)
      | exact resizes22 (by tab_any) (by tab_any) (by decide) (fun _ _ => rfl)
  · have : ∀ (n : Node Console) (t : String), Apart Loaded n [] → ∀ r, p = .text t :: r → Apart Loaded n r := by
      intro n t hn r he
      subst he
      have : r = [] := by
        cases r with
        | nil => rfl
        | cons a r => simp at hp
      rw [this]
      exact hn
    each
    all_goals first
      | exact this _ _ apart_table1
      | exact this _ _ apart_table2

theorem apart_sensors {p : List Item} : Apart Loaded (sensorsNode rate) p := by
  cases p with
  | nil => trivial
  | cons k r =>
    refine ⟨fun i _ j _ _ s s' _ hr => ?_, fun i _ _ => ?_⟩
    · exfalso
      dsimp only at hr
      split at hr
      · exact fixed_sensor _ _ _ hr
      · split at hr <;> exact fixed_knock _ _ _ _ hr
    · dsimp only
      split
      · unfold sensorNode; apart_plain
      · split
        · unfold knockNode; apart_plain
        · unfold knockNode; apart_plain

theorem apart_boost {p : List Item} (hp : ∀ r, p = .text "pwm" :: r → r = []) : Apart Loaded boostNode p := by
  unfold boostNode
  refine apart_fields ?_ ?_
  · each
    all_goals first
      | (intro s s' hs hr
         have := keepsR_table1 (I := Loaded) (r := boostScalars) (fun _ _ => rfl) s s' hs hr
         simp only [boostScalars, Prod.mk.injEq] at this
         simp only [dump, this]
         done)
      | back_pair
  · each
    all_goals first
      | exact fun _ _ => trivial
      | (intro r hr
         rw [hp r hr]
         trivial)

theorem apart_console (version : String) {a : List Item} (ha : ¬InTable a) (k : Item) :
    Apart Loaded (consoleTree rate version) (a ++ [k]) := by
  have hinfo : Sees (fun _ : Console => ()) (.fields [("version", .const version)]) := by
    apply reads_fields
    each
    intro s s' _
    rw [dump, dump]
  unfold consoleTree
  refine apart_fields ?_ ?_
  · each
    all_goals first
      | exact resize_fixed fixed_decoder
      | exact resize_fixed (fixed_sensors rate)
      | exact resize_fixed fixed_outputs
      | exact resize_fixed fixed_fueling
      | exact resize_fixed fixed_ignition
      | exact resize_fixed fixed_cel
      | exact resize_fixed fixed_freqList
      | exact resize_fixed fixed_test
      | exact resize_fixed (fixed_info version)
      | exact resizes_boost foot_decoder.1 (by intros; rfl)
      | exact resizes_boost (reads_sensors rate) (by intros; rfl)
      | exact resizes_boost foot_outputs.1 (by intros; rfl)
      | exact resizes_boost foot_fueling.1 (by intros; rfl)
      | exact resizes_boost foot_ignition.1 (by intros; rfl)
      | exact resizes_boost reads_tables (by intros; rfl)
      | exact resizes_boost foot_cel.1 (by intros; rfl)
      | exact resizes_boost foot_freqList.1 (by intros; rfl)
      | exact resizes_boost foot_test.1 (by intros; rfl)
      | exact resizes_boost hinfo (by intros; rfl)
      | exact resizes_tables foot_decoder.1 (by refine ⟨?_, ?_, ?_, ?_, ?_, ?_, ?_, ?_, ?_⟩ <;> (intros; rfl))
      | exact resizes_tables (reads_sensors rate) (by refine ⟨?_, ?_, ?_, ?_, ?_, ?_, ?_, ?_, ?_⟩ <;> (intros; rfl))
      | exact resizes_tables foot_outputs.1 (by refine ⟨?_, ?_, ?_, ?_, ?_, ?_, ?_, ?_, ?_⟩ <;> (intros; rfl))
      | exact resizes_tables foot_fueling.1 (by refine ⟨?_, ?_, ?_, ?_, ?_, ?_, ?_, ?_, ?_⟩ <;> (intros; rfl))
      | exact resizes_tables foot_ignition.1 (by refine ⟨?_, ?_, ?_, ?_, ?_, ?_, ?_, ?_, ?_⟩ <;> (intros; rfl))
      | exact resizes_tables reads_boost (by refine ⟨?_, ?_, ?_, ?_, ?_, ?_, ?_, ?_, ?_⟩ <;> (intros; rfl))
      | exact resizes_tables foot_cel.1 (by refine ⟨?_, ?_, ?_, ?_, ?_, ?_, ?_, ?_, ?_⟩ <;> (intros; rfl))
      | exact resizes_tables foot_freqList.1 (by refine ⟨?_, ?_, ?_, ?_, ?_, ?_, ?_, ?_, ?_⟩ <;> (intros; rfl))
      | exact resizes_tables foot_test.1 (by refine ⟨?_, ?_, ?_, ?_, ?_, ?_, ?_, ?_, ?_⟩ <;> (intros; rfl))
      | exact resizes_tables hinfo (by refine ⟨?_, ?_, ?_, ?_, ?_, ?_, ?_, ?_, ?_⟩ <;> (intros; rfl))
  · each
    · intro r _; unfold decoderNode; apart_plain
    · exact fun r _ => apart_sensors rate
    · intro r _
      unfold outputsNode
      refine apart_fixedArr (fun _ => fixed_output _) ?_
      intro i r; unfold outputNode; apart_plain
    · intro r _
      unfold fuelingNode
      apply apart_fixed
      · each
        all_goals first
          | exact fixed_crank
          | fixed_leaf
      · each
        all_goals first
          | exact fun _ _ => trivial
          | (intro r _
             unfold crankNode
             apart_plain)
    · intro r _; unfold ignitionNode; apart_plain
    · intro r he
      refine apart_tables ?_
      by_contra hlen
      apply ha
      left
      cases a with
      | nil => simp at he; rw [he.2] at hlen; simp at hlen
      | cons x a =>
        simp only [List.cons_append, List.cons.injEq] at he
        obtain ⟨rfl, rfl⟩ := he
        cases a with
        | nil => simp at hlen
        | cons y a => exact ⟨y, a, rfl⟩
    · intro r he
      refine apart_boost ?_
      intro r' he'
      subst he'
      cases a with
      | nil => simp at he
      | cons x a =>
        simp only [List.cons_append, List.cons.injEq] at he
        obtain ⟨rfl, he⟩ := he
        cases a with
        | nil => simp at he; exact he.2
        | cons y a =>
          simp only [List.cons_append, List.cons.injEq] at he
          obtain ⟨rfl, _⟩ := he
          exact (ha (Or.inr ⟨a, rfl⟩)).elim
    · intro r _; unfold celNode; apart_plain
    · intro r _
      unfold freqListNode
      refine apart_fixedArr (fun _ => fixed_freq _) ?_
      intro i r; unfold freqNode; apart_plain
    · intro r _; unfold testNode; apart_plain
    · intro r _; apart_plain

end

end Verif
