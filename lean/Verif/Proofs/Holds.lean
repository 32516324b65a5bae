/-
What rendering keeps: an invariant on the state, renderer by renderer.
-/
import Verif.Proofs.ConsoleTree
import Verif.Proofs.ReplySize

namespace Verif

section
variable [FloatFmt] {σ : Type}

/-- Rendering `n` keeps `I`. -/
def Holds (isSet : Bool) (I : σ → Prop) (n : Node σ) : Prop :=
  ∀ filtered value st st', I st.s → render n isSet filtered value st = .ok st' → I st'.s

theorem holds_u32 {b : Bool} {I : σ → Prop} {l : Lens σ (BitVec 32)} (h : l.Free I) : Holds b I (.u32 l) := by
  intro f v st st' hi hr
  cases hr
  exact free_setOpt h b _ _ hi

theorem holds_flt {b : Bool} {I : σ → Prop} {l : Lens σ Fl} (h : l.Free I) : Holds b I (.flt l) := by
  intro f v st st' hi hr
  cases hr
  exact free_setOpt h b _ _ hi

theorem holds_bool {b : Bool} {I : σ → Prop} {l : Lens σ Bool} (h : l.Free I) : Holds b I (.bool l) := by
  intro f v st st' hi hr
  cases hr
  exact free_setOpt h b _ _ hi

theorem holds_text {b : Bool} {I : σ → Prop} {l : Lens σ String} (h : l.Free I) : Holds b I (.text l) := by
  intro f v st st' hi hr
  cases hr
  exact free_setOpt h b _ _ hi

theorem holds_const {b : Bool} {I : σ → Prop} {t : String} : Holds b I (.const t) := by
  intro f v st st' hi hr
  cases hr
  exact hi

theorem holds_enum {b : Bool} {I : σ → Prop} {cs : List (Int × String)} {l : Lens σ Int} (h : l.Free I) :
    Holds b I (.enum cs l) := by
  intro f v st st' hi hr
  cases hr
  exact h _ _ hi

omit [FloatFmt] in
theorem loop_holds {I : σ → Prop} {desc : Nat → RSt σ → Option (Bool × Option Item × RSt σ)} {f : Bool}
    {body : Nat → Bool → Option Item → RSt σ → Except Fault (RSt σ)} {is : List Nat}
    (hd : ∀ i st x, desc i st = some x → x.2.2.s = st.s)
    (hb : ∀ i ∈ is, ∀ f v st st', I st.s → body i f v st = .ok st' → I st'.s)
    {c : Bool} {st : RSt σ} {x : Bool × RSt σ} (hi : I st.s) (h : fieldLoop desc f body is c st = .ok x) : I x.2.s := by
  induction is generalizing c st with
  | nil => cases h; exact hi
  | cons i is ih =>
    have ih' := fun {c st} => ih (c := c) (st := st) fun j hj => hb j (List.mem_cons_of_mem _ hj)
    unfold fieldLoop at h
    split at h
    · exact ih' hi h
    · cases hdi : desc i st with
      | none => rw [hdi] at h; exact ih' hi h
      | some y =>
        rw [hdi] at h
        dsimp only at h
        cases hbi : body i y.1 y.2.1 y.2.2 with
        | error e => rw [hbi] at h; cases h
        | ok st'' =>
          rw [hbi] at h
          refine ih' (hb i List.mem_cons_self _ _ _ _ ?_ hbi) h
          rw [hd i st y hdi]
          exact hi

omit [FloatFmt] in
theorem descend_keeps {hit f : Bool} {v : Option (Option Item)} {key : List Item} {st : RSt σ} {x}
    (h : descend hit f v key st = some x) : x.2.2.s = st.s := by
  unfold descend at h
  split at h
  · cases h
  · split at h
    · split at h
      · cases h; rfl
      · cases h
    · cases h; rfl

omit [FloatFmt] in
theorem openOut_keeps {f : Bool} {st : RSt σ} : (openOut f st).s = st.s := by unfold openOut; split <;> rfl

omit [FloatFmt] in
theorem wrap_keeps {f c : Bool} {mk : List Item → Item} {o : List Item} {st : RSt σ} :
    (wrap f mk o (addNull f c st)).s = st.s := by
  unfold wrap addNull; split <;> split <;> rfl

/-- A map: on a get the state is as the fields leave it, on a set the hook has run after them. -/
theorem map_holds {b : Bool} {I J : σ → Prop} {ids child post} (hc : ∀ i < ids.length, Holds b I (child i))
    {f : Bool} {v : Option Item} {st st' : RSt σ} (hi : I st.s)
    (hp : ∀ s s', I s → (if b then post s else .ok s) = .ok s' → J s')
    (h : render (.map ids child post) b f v st = .ok st') : J st'.s := by
  rw [render] at h
  cases hl : fieldLoop (fun i => descendMap b f v (ids.getD i "")) f
      (fun i f v st' => render (child i) b f v st') (List.range ids.length) false (openOut f st) with
  | error e => rw [hl] at h; cases h
  | ok y =>
    have h1 : I y.2.s := loop_holds (fun i st x hx => descend_keeps hx)
      (fun i hil f v st st' hs hr => hc i (List.mem_range.mp hil) f v st st' hs hr)
      (by rw [openOut_keeps]; exact hi) hl
    rw [hl] at h
    dsimp only at h
    cases h2 : (if b then post y.2.s else .ok y.2.s) with
    | error e => rw [h2] at h; cases h
    | ok s2 =>
      rw [h2] at h
      cases h
      rw [wrap_keeps]
      exact hp _ _ h1 h2

theorem holds_fields {b : Bool} {I : σ → Prop} {l : List (String × Node σ)} (h : ∀ x ∈ l, Holds b I x.2) :
    Holds b I (.fields l) := by
  intro f v st st' hi hr
  refine map_holds (I := I) (fun i hil => ?_) hi (fun s s' hs hp => ?_) hr
  · rw [List.length_map] at hil
    have : (l.getD i ("", Node.oob)) = l[i] := by simp [List.getD, hil]
    rw [this]
    exact h _ (List.getElem_mem hil)
  · split at hp <;> (cases hp; exact hs)

theorem holds_arr {b : Bool} {I : σ → Prop} {resize count elem} (hr : ∀ l, resize = some l → l.Free I)
    (h : ∀ i, Holds b I (elem i)) : Holds b I (.arr resize count elem) := by
  intro f v st st' hi hx
  rw [render] at hx
  have h0 : I (resizeTo b v resize st.s) := by
    unfold resizeTo
    split
    · split
      · exact hr _ rfl _ _ hi
      · exact hi
    · exact hi
  generalize hst : openOut f { st with s := resizeTo b v resize st.s } = st0 at hx
  have h0 : I st0.s := by rw [← hst, openOut_keeps]; exact h0
  cases hl : fieldLoop (descendArr b f v) f (fun i f v st' => render (elem i) b f v st')
      (List.range (count st0.s)) false st0 with
  | error e => rw [hl] at hx; cases hx
  | ok y =>
    rw [hl] at hx
    cases hx
    rw [wrap_keeps]
    exact loop_holds (fun i st x hx => descend_keeps hx) (fun i _ f v st st' hs hr => h i f v st st' hs hr) h0 hl

theorem holds_deref {b : Bool} {I : σ → Prop} {null n} (h : Holds b I n) : Holds b I (.deref null n) := by
  intro f v st st' hi hr
  rw [render] at hr
  split at hr
  · cases hr
  · exact h f v st st' hi hr

theorem holds_oob {b : Bool} {I : σ → Prop} : Holds b I (.oob : Node σ) := by
  intro f v st st' hi hr
  cases hr

end

/-! ### The console's renderers -/

section
variable [FloatFmt]

macro "holds_leaf" : tactic => `(tactic| first
  | exact holds_u32 fun _ _ h => h
  | exact holds_flt fun _ _ h => h
  | exact holds_bool fun _ _ h => h
  | exact holds_enum fun _ _ h => h
  | exact holds_text fun _ _ h => h
  | exact holds_const)

/-- A member that is not in the part `π`. -/
def OffPart {α ρ : Type} (π : Console → ρ) (l : Lens Console α) : Prop := ∀ v s, π (l.set v s) = π s

variable {ρ : Type} {π : Console → ρ} {J : ρ → Prop} {b : Bool}

omit [FloatFmt] in
theorem OffPart.free {α : Type} {l : Lens Console α} (h : OffPart π l) :
    l.Free fun c => J (π c) := fun v s hs => by
  show J (π (l.set v s))
  rw [h]; exact hs

omit [FloatFmt] in
theorem OffPart.comp {α β : Type} {l : Lens Console α} (h : OffPart π l) (m : Lens α β) : OffPart π (l.comp m) :=
  fun _ _ => h _ _

macro "off_leaf" h:term : tactic => `(tactic| first
  | exact holds_u32 (OffPart.free (OffPart.comp $h _))
  | exact holds_flt (OffPart.free (OffPart.comp $h _))
  | exact holds_bool (OffPart.free (OffPart.comp $h _))
  | exact holds_enum (OffPart.free (OffPart.comp (OffPart.comp $h _) _))
  | exact holds_enum (OffPart.free (OffPart.comp $h _))
  | exact holds_text (OffPart.free (OffPart.comp $h _)))

theorem holds_sensorNode {l : Lens Console Sensor} (h : OffPart π l) :
    Holds b (fun c => J (π c)) (sensorNode l) := by
  unfold sensorNode; apply holds_fields; each
  all_goals off_leaf h

theorem holds_outputNode {l : Lens Console OEvent} (h : OffPart π l) :
    Holds b (fun c => J (π c)) (outputNode l) := by
  unfold outputNode; apply holds_fields; each
  all_goals off_leaf h

theorem holds_freqNode {l : Lens Console FreqInput} (h : OffPart π l) :
    Holds b (fun c => J (π c)) (freqNode l) := by
  unfold freqNode; apply holds_fields; each
  all_goals off_leaf h

theorem holds_fixedArr {σ : Type} {I : σ → Prop} {n : Nat} {elem : Fin n → Node σ} (h : ∀ i, Holds b I (elem i)) :
    Holds b I (fixedArr n elem) := by
  refine holds_arr (fun l hl => by cases hl) fun i => ?_
  split
  · exact h _
  · exact holds_oob

theorem holds_axisNode {l : Lens Console Axis} {name : Lens Console String} (h : OffPart π l) (hn : OffPart π name) :
    Holds b (fun c => J (π c)) (axisNode l name) := by
  unfold axisNode; apply holds_fields; each
  · exact holds_text hn.free
  · refine holds_arr (fun m hm => ?_) fun i => ?_
    · cases hm
      exact (h.comp _).free
    · split
      · exact holds_flt (h.comp _).free
      · exact holds_oob

theorem holds_table1Node {t : Lens Console (Option Table1d)} {k : Fin 10} (h : OffPart π t)
    (h1 : OffPart π (fld% title)) (h2 : OffPart π (fld% colName)) :
    Holds b (fun c => J (π c)) (table1Node t k) := by
  unfold table1Node; apply holds_deref; apply holds_fields; each
  · exact holds_text (h1.comp _).free
  · exact holds_axisNode ((h.comp _).comp _) (h2.comp _)
  · refine holds_arr (fun m hm => by cases hm) fun i => ?_
    split
    · exact holds_flt ((h.comp _).comp _).free
    · exact holds_oob

theorem holds_table2Node {t : Lens Console (Option Table2d)} {k : Fin 10} (h : OffPart π t)
    (h1 : OffPart π (fld% title)) (h2 : OffPart π (fld% colName)) (h3 : OffPart π (fld% rowName)) :
    Holds b (fun c => J (π c)) (table2Node t k) := by
  unfold table2Node; apply holds_deref; apply holds_fields; each
  · exact holds_text (h1.comp _).free
  · exact holds_axisNode ((h.comp _).comp _) (h2.comp _)
  · exact holds_axisNode ((h.comp _).comp _) (h3.comp _)
  · refine holds_arr (fun m hm => by cases hm) fun r => holds_arr (fun m hm => by cases hm) fun i => ?_
    split
    · exact holds_flt ((h.comp _).comp _).free
    · exact holds_oob

end
end Verif
