/-
Lemmas for the test trigger: a request changes its speed at most once.
-/
import Verif.Proofs.Holds
import Verif.Model.TestBench

namespace Verif

section
variable {σ : Type}

/-- One turn of the loop, that of `i0`, turns `P` into `Q`; the others keep both. -/
theorem loop_once {P Q : σ → Prop} {desc : Nat → RSt σ → Option (Bool × Option Item × RSt σ)} {f : Bool}
    {body : Nat → Bool → Option Item → RSt σ → Except Fault (RSt σ)} {is : List Nat} {i0 : Nat}
    (hd : ∀ i st x, desc i st = some x → x.2.2.s = st.s) (hpq : ∀ s, P s → Q s)
    (hP : ∀ i ∈ is, i ≠ i0 → ∀ f v st st', P st.s → body i f v st = .ok st' → P st'.s)
    (hQ : ∀ i ∈ is, i ≠ i0 → ∀ f v st st', Q st.s → body i f v st = .ok st' → Q st'.s)
    (h0 : ∀ f v st st', P st.s → body i0 f v st = .ok st' → Q st'.s) (hn : is.Nodup)
    {c : Bool} {st : RSt σ} {x : Bool × RSt σ} (hi : P st.s) (h : fieldLoop desc f body is c st = .ok x) : Q x.2.s := by
  induction is generalizing c st with
  | nil => cases h; exact hpq _ hi
  | cons i is ih =>
    obtain ⟨hni, hn⟩ := List.nodup_cons.mp hn
    have ih' := fun {c st} => ih (c := c) (st := st) (fun j hj => hP j (List.mem_cons_of_mem _ hj))
      (fun j hj => hQ j (List.mem_cons_of_mem _ hj)) hn
    unfold fieldLoop at h
    split at h
    · exact ih' hi h
    · cases hdi : desc i st with
      | none => rw [hdi] at h; exact ih' hi h
      | some y =>
        rw [hdi] at h
        dsimp only at h
        have hy : P y.2.2.s := by rw [hd i st y hdi]; exact hi
        cases hbi : body i y.1 y.2.1 y.2.2 with
        | error e => rw [hbi] at h; cases h
        | ok st'' =>
          rw [hbi] at h
          by_cases he : i = i0
          · subst he
            refine loop_holds (I := Q) hd (fun j hj => ?_) (h0 _ _ _ _ hy hbi) h
            exact hQ j (List.mem_cons_of_mem _ hj) fun e => hni (e ▸ hj)
          · exact ih' (hP i List.mem_cons_self he _ _ _ _ hy hbi) h

end

section
variable [FloatFmt] {σ : Type}

/-- A list of fields of which one turns `P` into `Q`. -/
theorem fields_once {P Q : σ → Prop} {l : List (String × Node σ)} {i0 : Nat} (hi0 : i0 < l.length)
    {b f : Bool} {v : Option Item} {st st' : RSt σ} (hpq : ∀ s, P s → Q s)
    (hP : ∀ i (h : i < l.length), i ≠ i0 → Holds b P l[i].2)
    (hQ : ∀ i (h : i < l.length), i ≠ i0 → Holds b Q l[i].2)
    (h0 : ∀ f v st st', P st.s → render l[i0].2 b f v st = .ok st' → Q st'.s)
    (hi : P st.s) (h : render (.fields l) b f v st = .ok st') : Q st'.s := by
  have hg : ∀ i (h : i < l.length), (l.getD i ("", Node.oob)).2 = l[i].2 := by
    intro i h; simp [List.getD, h]
  unfold Node.fields at h
  rw [render] at h
  generalize hlo : fieldLoop _ f _ (List.range (l.map Prod.fst).length) false (openOut f st) = y at h
  cases y with
  | error e => cases h
  | ok y =>
    have h1 : Q y.2.s := by
      refine loop_once (i0 := i0) (P := P) (fun i st x hx => descend_keeps hx) hpq (fun i hil hne => ?_) (fun i hil hne => ?_) ?_
        List.nodup_range (by rw [openOut_keeps]; exact hi) hlo
      · have hil : i < l.length := by simpa using hil
        intro f v st st' hs hr
        rw [hg i hil] at hr
        exact hP i hil hne f v st st' hs hr
      · have hil : i < l.length := by simpa using hil
        intro f v st st' hs hr
        rw [hg i hil] at hr
        exact hQ i hil hne f v st st' hs hr
      · intro f v st st' hs hr
        rw [hg i0 hi0] at hr
        exact h0 f v st st' hs hr
    dsimp only at h
    have e : (if b = true then (Except.ok y.2.s : Except Fault σ) else .ok y.2.s) = .ok y.2.s := by split <;> rfl
    rw [e] at h
    cases h
    rw [wrap_keeps]
    exact h1

end

section
variable [FloatFmt] [LibM] {rate : BitVec 32} {b : Bool}

/-- What a request can change of the test trigger. -/
def testPart (c : Console) : BitVec 32 × Bool := (c.testRpm, c.testArmed)

theorem holds_test_knock (J : BitVec 32 × Bool → Prop) {l : Lens Console Knock} (hl : OffPart testPart l) :
    Holds b (fun c => J (testPart c)) (knockNode rate l) := by
  intro f v st st' hi hr
  unfold knockNode Node.fields at hr
  refine map_holds (I := fun c => J (testPart c)) (J := fun c => J (testPart c)) (fun i hil => ?_) hi
    (fun s s' hs hp => ?_) hr
  · have hi : i < 2 := hil
    interval_cases i
    all_goals exact holds_flt (hl.comp _).free
  · split at hp
    · obtain ⟨k, h1, -⟩ := knockPost_same hp
      rw [h1]
      exact hs
    · cases hp; exact hs

/-- Every other part of the tree leaves the test trigger alone. -/
theorem holds_rest (J : BitVec 32 × Bool → Prop) (version : String) :
    ∀ x ∈ [("decoder", decoderNode), ("sensors", sensorsNode rate), ("outputs", outputsNode), ("fueling", fuelingNode),
      ("ignition", ignitionNode), ("tables", tablesNode), ("boost-control", boostNode), ("check-engine-light", celNode),
      ("freq", freqListNode), ("info", .fields [("version", .const version)])],
      Holds b (fun c => J (testPart c)) x.2 := by
  each
  · unfold decoderNode; apply holds_fields; each
    all_goals holds_leaf
  · intro f v st st' hi hr
    refine map_holds (I := fun c => J (testPart c)) (J := fun c => J (testPart c))
      (fun i hil => ?_) hi (fun s s' hs hp => ?_) hr
    · dsimp only
      split
      · exact holds_sensorNode (π := testPart) fun _ _ => rfl
      · split
        · exact holds_test_knock J fun _ _ => rfl
        · exact holds_test_knock J fun _ _ => rfl
    · split at hp <;> (cases hp; exact hs)
  · exact holds_fixedArr fun i => holds_outputNode (π := testPart) fun _ _ => rfl
  · unfold fuelingNode; apply holds_fields; each
    all_goals first
      | holds_leaf
      | (unfold crankNode; apply holds_fields; each
         all_goals holds_leaf)
  · unfold ignitionNode; apply holds_fields; each
    all_goals holds_leaf
  · unfold tablesNode; apply holds_fields; each
    all_goals first
      | exact holds_table1Node (π := testPart) (fun _ _ => rfl) (fun _ _ => rfl) fun _ _ => rfl
      | exact holds_table2Node (π := testPart) (fun _ _ => rfl) (fun _ _ => rfl) (fun _ _ => rfl) fun _ _ => rfl
  · unfold boostNode; apply holds_fields; each
    all_goals first
      | holds_leaf
      | exact holds_table1Node (π := testPart) (fun _ _ => rfl) (fun _ _ => rfl) fun _ _ => rfl
  · unfold celNode; apply holds_fields; each
    all_goals holds_leaf
  · exact holds_fixedArr fun i => holds_freqNode (π := testPart) fun _ _ => rfl
  · apply holds_fields; each
    holds_leaf

/-- The test trigger has been started if and only if its speed is not `r` any more. -/
def Restarted (r : BitVec 32) (x : BitVec 32 × Bool) : Prop := x.2 = decide (x.1 ≠ r)

omit [LibM] in
theorem test_once {r : BitVec 32} {f : Bool} {v : Option Item} {st st' : RSt Console} (hi : testPart st.s = (r, false))
    (h : render testNode b f v st = .ok st') : Restarted r (testPart st'.s) := by
  unfold testNode at h
  refine fields_once (P := fun c => testPart c = (r, false)) (Q := fun c => Restarted r (testPart c)) (i0 := 1)
    (by decide) ?_ ?_ ?_ ?_ hi h
  · intro s hs
    rw [hs]
    simp [Restarted]
  · intro i hil hne
    have hil : i < 2 := hil
    interval_cases i
    · exact holds_bool (OffPart.free (π := testPart) (J := fun x => x = (r, false)) fun _ _ => rfl)
    · exact (hne rfl).elim
  · intro i hil hne
    have hil : i < 2 := hil
    interval_cases i
    · exact holds_bool (OffPart.free (π := testPart) (J := Restarted r) fun _ _ => rfl)
    · exact (hne rfl).elim
  · intro f v st st' hs hr
    simp only [testPart, Prod.mk.injEq] at hs
    cases hr
    cases b with
    | false => simp [Restarted, testPart, hs]
    | true =>
      simp only [if_true]
      cases u32Of v with
      | none => simp [Restarted, testPart, hs, setOpt]
      | some w => simp [Restarted, testPart, hs, setOpt]

/-- A request starts the test trigger if and only if it changes its speed. -/
theorem tree_once {r : BitVec 32} {version : String} {f : Bool} {v : Option Item} {st st' : RSt Console}
    (hi : testPart st.s = (r, false)) (h : render (consoleTree rate version) b f v st = .ok st') :
    Restarted r (testPart st'.s) := by
  have key : ∀ J : BitVec 32 × Bool → Prop, ∀ i (h : i < 11), i ≠ 9 → Holds b (fun c => J (testPart c))
      ([("decoder", decoderNode), ("sensors", sensorsNode rate), ("outputs", outputsNode), ("fueling", fuelingNode),
      ("ignition", ignitionNode), ("tables", tablesNode), ("boost-control", boostNode), ("check-engine-light", celNode),
      ("freq", freqListNode), ("test", testNode), ("info", .fields [("version", .const version)])][i]'h).2 := by
    intro J i h hne
    have hr := holds_rest (rate := rate) (b := b) J version
    simp only [List.forall_mem_cons] at hr
    obtain ⟨h0, h1, h2, h3, h4, h5, h6, h7, h8, h10, -⟩ := hr
    interval_cases i
    · exact h0
    · exact h1
    · exact h2
    · exact h3
    · exact h4
    · exact h5
    · exact h6
    · exact h7
    · exact h8
    · exact (hne rfl).elim
    · exact h10
  unfold consoleTree at h
  refine fields_once (P := fun c => testPart c = (r, false)) (Q := fun c => Restarted r (testPart c)) (i0 := 9)
    ?_ ?_ ?_ ?_ ?_ hi h
  · show 9 < 11
    omega
  · intro s hs
    rw [hs]
    simp [Restarted]
  · intro i hil hne
    exact key (fun x => x = (r, false)) i hil hne
  · intro i hil hne
    exact key (Restarted r) i hil hne
  · intro f v st st' hs hr
    exact test_once hs hr

theorem process_once {version : String} {struct req l : List Item} {c c' : Console} {e : Effect}
    (hc : c.testArmed = false) (h : processRequest rate version struct req c = .ok (c', l, e)) :
    c'.testArmed = decide (c'.testRpm ≠ c.testRpm) := by
  have hreq : ∀ {b : Bool} {p : List Item} {v : Option Item} {c' : Console} {l : List Item},
      request (consoleTree rate version) b p v c = .ok (c', l) → c'.testArmed = decide (c'.testRpm ≠ c.testRpm) := by
    intro b p v c' l h
    unfold request at h
    cases hr : render (consoleTree rate version) b (!p.isEmpty) v { s := c, path := p, out := [] } with
    | error e => rw [hr] at h; cases h
    | ok st =>
      rw [hr] at h
      cases h
      have := tree_once (r := c.testRpm) (by simp [testPart, hc]) hr
      exact this
  have hsame : c.testArmed = decide (c.testRpm ≠ c.testRpm) := by simp [hc]
  unfold processRequest at h
  dsimp only at h
  split at h
  · cases h; exact hsame
  · rename_i m _
    split at h
    · cases h; exact hsame
    split at h
    · cases h; exact hsame
    split at h
    · cases h; exact hsame
    split at h
    · cases h; exact hsame
    cases hp : pathRequest rate version req m c with
    | error e => rw [hp] at h; cases h
    | ok x =>
      rw [hp] at h
      cases h
      unfold pathRequest at hp
      split at hp
      · rename_i p _
        split at hp
        · cases hr : request (consoleTree rate version) false p none c with
          | error e => rw [hr] at hp; cases hp
          | ok y => rw [hr] at hp; cases hp; exact hreq hr
        · split at hp
          · cases hp; exact hsame
          · rename_i v _
            split at hp
            · cases hr : request (consoleTree rate version) true p (some v) c with
              | error e => rw [hr] at hp; cases hp
              | ok y => rw [hr] at hp; cases hp; exact hreq hr
            · cases hp; exact hsame
      · cases hp; exact hsame

end
end Verif
