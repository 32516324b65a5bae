/-
Proofs about what an interrupt finds during a request, for any tree of fields.
-/
import Verif.Model.ConsoleTrace
import Verif.Proofs.Resize

namespace Verif

section
variable {σ : Type}

/-! ### Without the memory it is the same request -/

def RSt.erase (st : RSt (Traced σ)) : RSt σ := ⟨st.s.now, st.path, st.out⟩

theorem fieldLoop_erase {desc : Nat → RSt (Traced σ) → Option (Bool × Option Item × RSt (Traced σ))}
    {desc' : Nat → RSt σ → Option (Bool × Option Item × RSt σ)} {f : Bool} {body body'}
    (hd : ∀ i st, (desc i st).map (fun x => (x.1, x.2.1, x.2.2.erase)) = desc' i st.erase) (is : List Nat)
    (hb : ∀ i b v st, (body i b v st).map RSt.erase = body' i b v st.erase) (done : Bool) (st : RSt (Traced σ)) :
    (fieldLoop desc f body is done st).map (fun x => (x.1, x.2.erase)) = fieldLoop desc' f body' is done st.erase := by
  induction is generalizing done st with
  | nil => rfl
  | cons i is ih =>
    rw [fieldLoop, fieldLoop]
    cases done with
    | true => exact ih _ _
    | false =>
      simp only [Bool.false_eq_true, if_false]
      rw [← hd i st]
      cases desc i st with
      | none => exact ih _ _
      | some x =>
        obtain ⟨b, v, st'⟩ := x
        simp only [Option.map_some]
        rw [← hb i b v st']
        cases body i b v st' with
        | error e => rfl
        | ok st'' => exact ih _ _

theorem descend_erase (hit f : Bool) (v : Option (Option Item)) (key : List Item) (st : RSt (Traced σ)) :
    (descend hit f v key st).map (fun x => (x.1, x.2.1, x.2.2.erase)) = descend hit f v key st.erase := by
  unfold descend
  cases v with
  | none => rfl
  | some v => cases f <;> cases hit <;> rfl

theorem wrap_erase (f : Bool) (mk : List Item → Item) (o : List Item) (st : RSt (Traced σ)) :
    (wrap f mk o st).erase = wrap f mk o st.erase := by cases f <;> rfl
theorem addNull_erase (f c : Bool) (st : RSt (Traced σ)) : (addNull f c st).erase = addNull f c st.erase := by
  cases f <;> cases c <;> rfl
theorem openOut_erase (f : Bool) (st : RSt (Traced σ)) : (openOut f st).erase = openOut f st.erase := by
  cases f <;> rfl

theorem resizeTo_erase (b : Bool) (v : Option Item) (resize : Option (Lens σ Nat)) (t : Traced σ) :
    (resizeTo b v (resize.map Lens.traced) t).now = resizeTo b v resize t.now := by
  cases resize with
  | none => rfl
  | some l =>
    cases v with
    | none => rfl
    | some v =>
      cases v with
      | arr d items => cases d <;> cases b <;> rfl
      | _ => rfl

variable [FloatFmt]

theorem render_erase (n : Node σ) (b f : Bool) (v : Option Item) (st : RSt (Traced σ)) :
    (render n.traced b f v st).map RSt.erase = render n b f v st.erase := by
  induction n generalizing f v st with
  | u32 l =>
    rw [Node.traced, render, render]
    cases b
    · rfl
    · cases u32Of v <;> rfl
  | flt l =>
    rw [Node.traced, render, render]
    cases b
    · rfl
    · cases floatOf v <;> rfl
  | bool l =>
    rw [Node.traced, render, render]
    cases b
    · rfl
    · cases boolOf v <;> rfl
  | text l =>
    rw [Node.traced, render, render]
    cases b
    · rfl
    · cases titleOf v <;> rfl
  | enum c l =>
    rw [Node.traced, render, render]
    cases b <;> rfl
  | const t => rfl
  | map ids child post ih =>
    rw [Node.traced, render, render]
    have hl := fieldLoop_erase (desc := fun i => descendMap b f v (ids.getD i ""))
      (desc' := fun i => descendMap b f v (ids.getD i "")) (f := f)
      (body := fun i f v st' => render (child i).traced b f v st') (body' := fun i f v st' => render (child i) b f v st')
      (fun i st => descend_erase _ _ _ _ st) (List.range ids.length) (fun i => ih i) false (openOut f st)
    rw [openOut_erase] at hl
    rw [← hl]
    cases fieldLoop (fun i => descendMap b f v (ids.getD i "")) f
        (fun i f v st' => render (child i).traced b f v st') (List.range ids.length) false (openOut f st) with
    | error e => rfl
    | ok x =>
      obtain ⟨done, st1⟩ := x
      simp only [Except.map]
      cases b
      · simp only [Bool.false_eq_true, if_false, wrap_erase, addNull_erase]
        rfl
      · simp only [if_true]
        rw [show st1.erase.s = st1.s.now from rfl]
        cases post st1.s.now with
        | error e => rfl
        | ok s => simp only [wrap_erase, addNull_erase]; rfl
  | arr resize count elem ih =>
    rw [Node.traced, render, render]
    have hs : (openOut f { st with s := resizeTo b v (resize.map Lens.traced) st.s }).erase =
        openOut f { st.erase with s := resizeTo b v resize st.erase.s } := by
      rw [openOut_erase]
      congr 1
      unfold RSt.erase
      dsimp only
      rw [resizeTo_erase]
    generalize openOut f { st with s := resizeTo b v (resize.map Lens.traced) st.s } = st0 at hs
    rw [← hs]
    have hl := fieldLoop_erase (desc := descendArr b f v) (desc' := descendArr b f v) (f := f)
      (body := fun i f v st' => render (elem i).traced b f v st') (body' := fun i f v st' => render (elem i) b f v st')
      (fun i st => descend_erase _ _ _ _ st) (List.range (count st0.s.now)) (fun i => ih i) false st0
    rw [show count st0.erase.s = count st0.s.now from rfl, ← hl]
    cases fieldLoop (descendArr b f v) f (fun i f v st' => render (elem i).traced b f v st')
        (List.range (count st0.s.now)) false st0 with
    | error e => rfl
    | ok x => simp only [Except.map, wrap_erase, addNull_erase]; rfl
  | deref null n ih =>
    rw [Node.traced, render, render]
    rw [show null st.erase.s = null st.s.now from rfl]
    cases null st.s.now
    · exact ih f v st
    · rfl
  | oob => rfl

/-- The request and what interrupts find: the same outcome, and the last thing found is the result. -/
theorem request_states (n : Node σ) (b : Bool) (p : List Item) (v : Option Item) (s : σ) :
    match request n b p v s with
    | .error e => requestStates n b p v s = .error e
    | .ok (s', _) => ∃ l, requestStates n b p v s = .ok (l ++ [s']) := by
  have h := render_erase n b (!p.isEmpty) v ⟨⟨s, []⟩, p, []⟩
  unfold requestStates request
  rw [show ({ s := s, path := p, out := [] } : RSt σ) = RSt.erase ⟨⟨s, []⟩, p, []⟩ from rfl, ← h]
  cases render n.traced b (!p.isEmpty) v ⟨⟨s, []⟩, p, []⟩ with
  | error e => rfl
  | ok st => exact ⟨_, rfl⟩

/-! ### What holds of everything that is found -/

def Traced.All (P : σ → Prop) (t : Traced σ) : Prop := P t.now ∧ ∀ x ∈ t.past, P x

omit [FloatFmt] in
theorem Traced.All.push {P : σ → Prop} {t : Traced σ} (h : t.All P) {s : σ} (hs : P s) : (t.push s).All P := by
  refine ⟨hs, fun x hx => ?_⟩
  rcases List.mem_append.mp hx with hx | hx
  · exact h.2 x hx
  · rw [List.mem_singleton.mp hx]; exact h.1

omit [FloatFmt] in
theorem Traced.All.states {P : σ → Prop} {t : Traced σ} (h : t.All P) : ∀ x ∈ t.states, P x := by
  intro x hx
  rcases List.mem_append.mp hx with hx | hx
  · exact h.2 x hx
  · rw [List.mem_singleton.mp hx]; exact h.1

/-- `I` and `Q` of everything found, if every store under the node keeps `Q`. -/
theorem traced_any {I Q : σ → Prop} {E : Fault → Prop} (n : Node σ) (hw : WF I n) (hg : Grow I E n)
    (h1 : ∀ s s', I s → Q s → Writes n s s' → Q s') (h2 : ∀ s s', I s → Q s → Resizes n s s' → Q s')
    (b f : Bool) (v : Option Item) (st : RSt (Traced σ)) (hi : st.s.All fun x => I x ∧ Q x) :
    Out (fun st' => st'.s.All fun x => I x ∧ Q x) E (render n.traced b f v st) := by
  induction n generalizing f v st with
  | u32 l =>
    rw [Node.traced, render]
    cases b
    · exact hi
    · cases u32Of v with
      | none => exact hi
      | some w => exact hi.push ⟨(hw _ w hi.1.1).2, h1 _ _ hi.1.1 hi.1.2 (.u32 l _ w)⟩
  | flt l =>
    rw [Node.traced, render]
    cases b
    · exact hi
    · cases floatOf v with
      | none => exact hi
      | some w => exact hi.push ⟨(hw _ w hi.1.1).2, h1 _ _ hi.1.1 hi.1.2 (.flt l _ w)⟩
  | bool l =>
    rw [Node.traced, render]
    cases b
    · exact hi
    · cases boolOf v with
      | none => exact hi
      | some w => exact hi.push ⟨(hw _ w hi.1.1).2, h1 _ _ hi.1.1 hi.1.2 (.bool l _ w)⟩
  | text l =>
    rw [Node.traced, render]
    cases b
    · exact hi
    · cases titleOf v with
      | none => exact hi
      | some w => exact hi.push ⟨(hw _ w hi.1.1).2, h1 _ _ hi.1.1 hi.1.2 (.text l _ w)⟩
  | enum c l =>
    rw [Node.traced, render]
    exact hi.push ⟨hw.1 _ _ hi.1.1, h1 _ _ hi.1.1 hi.1.2 (.enum c l _ _)⟩
  | const t => exact hi
  | map ids child post ih =>
    obtain ⟨hw1, hw2, hw3⟩ := hw
    obtain ⟨hg1, hg2⟩ := hg
    rw [Node.traced, render]
    have hloop := fieldLoop_inv (desc := fun i => descendMap b f v (ids.getD i "")) (f := f)
      (body := fun i f v st' => render (child i).traced b f v st') (Traced.All fun x => I x ∧ Q x) E (fun i st x h => descend_s h)
      (List.range ids.length) (fun i him f' v' st' hp => by
        have hil := List.mem_range.mp him
        exact ih i (hw1 i hil) (hg1 i hil) (fun s s' hs hq hw => h1 s s' hs hq (.map i hil hw))
          (fun s s' hs hq hr => h2 s s' hs hq (.map i hil hr)) f' v' st' hp)
      false (openOut f st) (by rw [openOut_s]; exact hi)
    revert hloop
    cases fieldLoop (fun i => descendMap b f v (ids.getD i "")) f
      (fun i f v st' => render (child i).traced b f v st') (List.range ids.length) false (openOut f st) with
    | error e => exact id
    | ok x =>
      obtain ⟨done, st1⟩ := x
      intro hl
      have hl : st1.s.All fun x => I x ∧ Q x := hl
      dsimp only
      cases b
      · simp only [Bool.false_eq_true, if_false, Out, wrap_s, addNull_s]
        exact hl
      · simp only [if_true]
        cases hp : post st1.s.now with
        | error e => exact hg2 _ _ hl.1.1 hp
        | ok s2 =>
          simp only [Out, wrap_s, addNull_s]
          exact hl.push ⟨(hw3 _ _ hl.1.1 hp).1, h1 _ _ hl.1.1 hl.1.2 (.post hp)⟩
  | arr resize count elem ih =>
    obtain ⟨hw1, hw2, hw3, hw4⟩ := hw
    obtain ⟨hg1, hg2⟩ := hg
    rw [Node.traced, render]
    have h0 : (resizeTo b v (resize.map Lens.traced) st.s).All fun x => I x ∧ Q x := by
      rcases resizeTo_cases b v (resize.map Lens.traced) st.s with h | ⟨l, k, hl, hk, h⟩
      · rw [h]; exact hi
      · rw [h]
        cases resize with
        | none => cases hl
        | some l' =>
          cases hl
          exact hi.push ⟨hg2 l' rfl _ _ hi.1.1 hk, h2 _ _ hi.1.1 hi.1.2 (.here l' count elem _ k hk)⟩
    generalize resizeTo b v (resize.map Lens.traced) st.s = s0 at h0
    have hloop := fieldLoop_inv (desc := descendArr b f v) (f := f)
      (body := fun i f v st' => render (elem i).traced b f v st') (Traced.All fun x => I x ∧ Q x) E (fun i st x h => descend_s h)
      (List.range (count (openOut f { st with s := s0 }).s.now)) (fun i him f' v' st' hp => by
        have hil := List.mem_range.mp him
        rw [openOut_s] at hil
        exact ih i (hw1 i) (hg1 _ i h0.1.1 hil) (fun s s' hs hq hw => h1 s s' hs hq (.arr i hw))
          (fun s s' hs hq hr => h2 s s' hs hq (.arr i hr)) f' v' st' hp)
      false (openOut f { st with s := s0 }) (by rw [openOut_s]; exact h0)
    revert hloop
    cases fieldLoop (descendArr b f v) f (fun i f v st' => render (elem i).traced b f v st')
      (List.range (count (openOut f { st with s := s0 }).s.now)) false (openOut f { st with s := s0 }) with
    | error e => exact id
    | ok x =>
      intro hl
      have hl : x.2.s.All fun x => I x ∧ Q x := hl
      simp only [Out, wrap_s, addNull_s]
      exact hl
  | deref null n ih =>
    rw [Node.traced, render]
    simp only [hg.1 _ hi.1.1, Bool.false_eq_true, if_false]
    exact ih hw.1 hg.2 (fun s s' hs hq hw => h1 s s' hs hq (.deref hw)) (fun s s' hs hq hr => h2 s s' hs hq (.deref hr)) f v st hi
  | oob => exact hg.elim

/-- During a get nothing changes. -/
theorem traced_get {I : σ → Prop} {s : σ} (n : Node σ) (hw : WF I n) (f : Bool) (v : Option Item) (st : RSt (Traced σ))
    (hi : st.s.All (· = s)) : Out (fun st' => st'.s.All (· = s)) (fun _ => True) (render n.traced false f v st) := by
  induction n generalizing f v st with
  | enum c l =>
    rw [Node.traced, render]
    refine hi.push ?_
    rw [show l.traced.get st.s = l.get s from congrArg l.get hi.1, hi.1]
    exact hw.2.1 s
  | map ids child post ih =>
    rw [Node.traced, render]
    have hloop := fieldLoop_inv (desc := fun i => descendMap false f v (ids.getD i "")) (f := f)
      (body := fun i f v st' => render (child i).traced false f v st') (Traced.All (· = s)) (fun _ => True)
      (fun i st x h => descend_s h) (List.range ids.length)
      (fun i him f' v' st' hp => ih i (hw.1 i (List.mem_range.mp him)) f' v' st' hp)
      false (openOut f st) (by rw [openOut_s]; exact hi)
    revert hloop
    cases fieldLoop (fun i => descendMap false f v (ids.getD i "")) f
      (fun i f v st' => render (child i).traced false f v st') (List.range ids.length) false (openOut f st) with
    | error e => exact id
    | ok x =>
      intro hl
      have hl : x.2.s.All (· = s) := hl
      simp only [Bool.false_eq_true, if_false, Out, wrap_s, addNull_s]
      exact hl
  | arr resize count elem ih =>
    rw [Node.traced, render]
    have h0 : resizeTo false v (resize.map Lens.traced) st.s = st.s := by
      unfold resizeTo; split <;> rfl
    simp only [h0]
    have hloop := fieldLoop_inv (desc := descendArr false f v) (f := f)
      (body := fun i f v st' => render (elem i).traced false f v st') (Traced.All (· = s)) (fun _ => True)
      (fun i st x h => descend_s h) (List.range (count (openOut f st).s.now))
      (fun i him f' v' st' hp => ih i (hw.1 i) f' v' st' hp) false (openOut f st) (by rw [openOut_s]; exact hi)
    revert hloop
    cases fieldLoop (descendArr false f v) f (fun i f v st' => render (elem i).traced false f v st')
      (List.range (count (openOut f st).s.now)) false (openOut f st) with
    | error e => exact id
    | ok x =>
      intro hl
      have hl : x.2.s.All (· = s) := hl
      simp only [Out, wrap_s, addNull_s]
      exact hl
  | deref null n ih =>
    rw [Node.traced, render]
    cases null st.s.now with
    | true => trivial
    | false => exact ih hw.1 f v st hi
  | oob => trivial
  | _ => exact hi

/-! ### One setting -/

/-- No hook on the way along a path does anything. -/
def Node.noHook : Node σ → List Item → σ → Prop
  | .map ids child post, p, s => (∀ x, post x = .ok x) ∧
    match p with
    | [] => True
    | k :: r =>
      match (List.range ids.length).find? fun i => pathMatchStr (k :: r) (ids.getD i "") with
      | none => True
      | some i => (child i).noHook r s
  | .arr _ count elem, p, s =>
    match p with
    | [] => True
    | k :: r =>
      match (List.range (count s)).find? fun i => pathMatchInt (k :: r) i with
      | none => True
      | some i => (elem i).noHook r s
  | .deref _ n, p, s => n.noHook p s
  | _, _, _ => True

/-- A set of one setting: first what was there, then the new setting. -/
def OneStore (a b : Traced σ) (s : σ) : Prop := (∃ l, b.states = a.states ++ l ∧ ∀ x ∈ l, x = s) ∧ b.now = s

omit [FloatFmt] in
theorem OneStore.same {t : Traced σ} : OneStore t t t.now := ⟨⟨[], by simp, by simp⟩, rfl⟩

omit [FloatFmt] in
theorem OneStore.push_new (t : Traced σ) (s : σ) : OneStore t (t.push s) s :=
  ⟨⟨[s], rfl, by simp⟩, rfl⟩

omit [FloatFmt] in
theorem OneStore.push {a b : Traced σ} {s : σ} (h : OneStore a b s) : OneStore a (b.push s) s := by
  obtain ⟨⟨l, h1, h2⟩, h3⟩ := h
  refine ⟨⟨l ++ [s], ?_, ?_⟩, rfl⟩
  · rw [show (b.push s).states = b.states ++ [s] from rfl, h1, List.append_assoc]
  · intro x hx
    rcases List.mem_append.mp hx with hx | hx
    · exact h2 x hx
    · exact List.mem_singleton.mp hx

theorem traced_leaf {n m : Node σ} {s : σ} {p : List Item} (hat : n.at p s = some m) (hm : m.isLeaf = true) {v : Item}
    (hv : n.calm v p s) (hk : n.noHook p s) {st st' : RSt (Traced σ)} (hs : st.s.now = s) (hp : st.path = p)
    (hr : render n.traced true (!p.isEmpty) (some v) st = .ok st') : OneStore st.s st'.s (leafSet m (some v) s) := by
  have leaf : ∀ {x : Node σ} {q : List Item}, (if q.isEmpty then some x else none) = some m → x = m := by
    intro x q h
    split at h
    · exact Option.some.inj h
    · cases h
  subst hs
  induction n generalizing p st st' with
  | map ids child post ih =>
    cases p with
    | nil => rw [Node.at] at hat; cases hat; cases hm
    | cons k r =>
      obtain ⟨s, path, out⟩ := st
      have hp : path = k :: r := hp
      subst hp
      have hfl := fieldLoop_filtered (fun i => descendMap true true (some v) (ids.getD i ""))
        (fun i f v st' => render (child i).traced true f v st') (List.range ids.length)
        { s := s, path := k :: r, out := out } (fun i => pathMatchStr (k :: r) (ids.getD i ""))
        (!r.isEmpty, some v, { s := s, path := r, out := out })
        (fun i => by simp [descendMap, descend, mapValue])
      rw [Node.traced, render] at hr
      simp only [List.isEmpty_cons, Bool.not_false, openOut, if_true] at hr
      rw [hfl] at hr
      rw [Node.at] at hat
      rw [Node.noHook] at hk
      rw [Node.calm] at hv
      cases hf : (List.range ids.length).find? (fun i => pathMatchStr (k :: r) (ids.getD i "")) with
      | none => rw [hf] at hat; cases hat
      | some i =>
        rw [hf] at hat hk hv hr
        dsimp only at hat hk hv hr
        cases hR : render (child i).traced true (!r.isEmpty) (some v) { s := s, path := r, out := out } with
        | error e => rw [hR] at hr; cases hr
        | ok st1 =>
          have h1 := ih i (st := { s := s, path := r, out := out }) rfl hR hat hv hk.2
          rw [hR] at hr
          dsimp only at hr
          rw [hk.1] at hr
          have hr := Except.ok.inj hr
          rw [← hr, wrap_s, addNull_s]
          dsimp only
          have h3 := h1.2
          rw [h3]
          exact h1.push
  | arr resize count elem ih =>
    cases p with
    | nil => rw [Node.at] at hat; cases hat; cases hm
    | cons k r =>
      obtain ⟨s, path, out⟩ := st
      have hp : path = k :: r := hp
      subst hp
      rw [Node.calm] at hv
      have hrs : resizeTo true (some v) (resize.map Lens.traced) s = s := by
        rcases hv.1 with h | h
        · exact resizeTo_scalar _ _ h _ _
        · cases resize with
          | none => rfl
          | some l => cases h
      have hfl := fieldLoop_filtered (descendArr true true (some v))
        (fun i f v st' => render (elem i).traced true f v st') (List.range (count s.now))
        { s := s, path := k :: r, out := out } (fun i => pathMatchInt (k :: r) i)
        (!r.isEmpty, some v, { s := s, path := r, out := out })
        (fun i => by simp [descendArr, descend, arrValue])
      rw [Node.traced, render] at hr
      simp only [List.isEmpty_cons, Bool.not_false, openOut, if_true, hrs] at hr
      rw [hfl] at hr
      rw [Node.at] at hat
      rw [Node.noHook] at hk
      cases hf : (List.range (count s.now)).find? (fun i => pathMatchInt (k :: r) i) with
      | none => rw [hf] at hat; cases hat
      | some i =>
        rw [hf] at hat hk hv hr
        dsimp only at hat hk hv hr
        cases hR : render (elem i).traced true (!r.isEmpty) (some v) { s := s, path := r, out := out } with
        | error e => rw [hR] at hr; cases hr
        | ok st1 =>
          have h1 := ih i (st := { s := s, path := r, out := out }) rfl hR hat hv.2 hk
          rw [hR] at hr
          have hr := Except.ok.inj hr
          rw [← hr, wrap_s, addNull_s]
          exact h1
  | deref null n ih =>
    rw [Node.traced, render] at hr
    split at hr
    · cases hr
    · exact ih hp hr hat hv hk
  | oob =>
    have hat := leaf (q := p) hat
    · rw [← hat] at hm; cases hm
  | const t =>
    have hat := leaf (q := p) hat
    · rw [← hat]
      cases hr
      exact .same
  | u32 l =>
    have hat := leaf (q := p) hat
    · rw [← hat]
      cases hr
      show OneStore st.s (setOpt l.traced (u32Of (some v)) st.s) (setOpt l (u32Of (some v)) st.s.now)
      cases u32Of (some v) with
      | none => exact .same
      | some w => exact .push_new _ _
  | flt l =>
    have hat := leaf (q := p) hat
    · rw [← hat]
      cases hr
      show OneStore st.s (setOpt l.traced (floatOf (some v)) st.s) (setOpt l (floatOf (some v)) st.s.now)
      cases floatOf (some v) with
      | none => exact .same
      | some w => exact .push_new _ _
  | bool l =>
    have hat := leaf (q := p) hat
    · rw [← hat]
      cases hr
      show OneStore st.s (setOpt l.traced (boolOf (some v)) st.s) (setOpt l (boolOf (some v)) st.s.now)
      cases boolOf (some v) with
      | none => exact .same
      | some w => exact .push_new _ _
  | text l =>
    have hat := leaf (q := p) hat
    · rw [← hat]
      cases hr
      show OneStore st.s (setOpt l.traced (titleOf (some v)) st.s) (setOpt l (titleOf (some v)) st.s.now)
      cases titleOf (some v) with
      | none => exact .same
      | some w => exact .push_new _ _
  | enum c l =>
    have hat := leaf (q := p) hat
    · rw [← hat]
      cases hr
      exact .push_new _ _


/-! ### Maps of settings -/

omit [FloatFmt] in
theorem fields_traced (l : List (String × Node σ)) :
    (Node.fields l).traced = .map (l.map Prod.fst) (fun i => (l.getD i ("", .oob)).2.traced) (fun t => .ok (t.push t.now)) := rfl

/-- What happens in a map happens in the setting addressed. -/
theorem traced_fields {P : σ → Prop} {E : Fault → Prop} {l : List (String × Node σ)} {b : Bool} {k : Item} {r : List Item}
    {v : Option Item} {t : Traced σ} (ht : t.All P)
    (h : ∀ x ∈ l, k = .text x.1 → Out (fun st => st.s.All P) E (render x.2.traced b (!r.isEmpty) v ⟨t, r, []⟩)) :
    Out (fun st => st.s.All P) E (render (Node.fields l).traced b true v ⟨t, k :: r, []⟩) := by
  rw [fields_traced, render]
  have hfl := fieldLoop_filtered (fun i => descendMap b true v ((l.map Prod.fst).getD i ""))
    (fun i f v st' => render (l.getD i ("", .oob)).2.traced b f v st') (List.range (l.map Prod.fst).length)
    { s := t, path := k :: r, out := [] } (fun i => pathMatchStr (k :: r) ((l.map Prod.fst).getD i ""))
    (!r.isEmpty, v, { s := t, path := r, out := [] })
    (fun i => by simp [descendMap, descend, mapValue])
  simp only [openOut, if_true]
  rw [hfl]
  cases hf : (List.range (l.map Prod.fst).length).find? (fun i => pathMatchStr (k :: r) ((l.map Prod.fst).getD i "")) with
  | none =>
    dsimp only
    cases b
    · simp only [Bool.false_eq_true, if_false, Out, wrap_s, addNull_s]; exact ht
    · simp only [if_true, Out, wrap_s, addNull_s]; exact ht.push ht.1
  | some i =>
    dsimp only
    obtain ⟨hi, hk⟩ := find_string hf
    rw [List.length_map] at hi
    have h1 : (l.getD i ("", Node.oob)) = l[i] := by simp [List.getD, hi]
    have h2 : (l.map Prod.fst).getD i "" = l[i].1 := by simp [List.getD, hi]
    have h3 := h _ (List.getElem_mem hi) (by rw [hk, h2])
    rw [h1]
    revert h3
    cases render l[i].2.traced b (!r.isEmpty) v ⟨t, r, []⟩ with
    | error e => exact id
    | ok st =>
      intro h3
      have h3 : st.s.All P := h3
      dsimp only
      cases b
      · simp only [Bool.false_eq_true, if_false, Out, wrap_s, addNull_s]; exact h3
      · simp only [if_true, Out, wrap_s, addNull_s]; exact h3.push h3.1

/-- What is found while a setting is handled is found while the map around it is handled. -/
theorem traced_inner {l : List (String × Node σ)} (hn : (l.map Prod.fst).Nodup) {k : String} {n : Node σ} (h : (k, n) ∈ l)
    {r : List Item} {v : Option Item} {t : Traced σ} {st : RSt (Traced σ)}
    (hr : render n.traced true (!r.isEmpty) v ⟨t, r, []⟩ = .ok st) :
    ∃ st', render (Node.fields l).traced true true v ⟨t, .text k :: r, []⟩ = .ok st' ∧ st'.s.now = st.s.now ∧
      ∀ x ∈ st.s.states, x ∈ st'.s.states := by
  rw [fields_traced, render]
  have hfl := fieldLoop_filtered (fun i => descendMap true true v ((l.map Prod.fst).getD i ""))
    (fun i f v st' => render (l.getD i ("", .oob)).2.traced true f v st') (List.range (l.map Prod.fst).length)
    { s := t, path := .text k :: r, out := [] } (fun i => pathMatchStr (.text k :: r) ((l.map Prod.fst).getD i ""))
    (!r.isEmpty, v, { s := t, path := r, out := [] })
    (fun i => by simp [descendMap, descend, mapValue])
  simp only [openOut, if_true]
  rw [hfl]
  obtain ⟨j, hj, hjl⟩ := List.mem_iff_getElem.mp h
  cases hf : (List.range (l.map Prod.fst).length).find?
      (fun i => pathMatchStr (.text k :: r) ((l.map Prod.fst).getD i "")) with
  | none =>
    rw [List.find?_eq_none] at hf
    have := hf j (by simpa using hj)
    simp [pathMatchStr, List.getD, hj, hjl] at this
  | some i =>
    obtain ⟨hi, hk⟩ := find_string hf
    have hij : i = j := by
      have h1 : (l.map Prod.fst).getD i "" = (l.map Prod.fst)[i] := by
        rw [List.getD_eq_getElem?_getD, List.getElem?_eq_getElem hi]; rfl
      rw [h1] at hk
      have h2 : (l.map Prod.fst)[j]'(by simpa using hj) = k := by simp [hjl]
      cases hk
      exact (List.Nodup.getElem_inj_iff hn).mp h2.symm
    subst hij
    have : (l.getD i ("", Node.oob)).2 = n := by
      rw [List.getD_eq_getElem?_getD, List.getElem?_eq_getElem hj, hjl]; rfl
    dsimp only
    rw [this, hr]
    refine ⟨_, rfl, ?_, fun x hx => ?_⟩
    · rw [wrap_s, addNull_s]; rfl
    · rw [wrap_s, addNull_s]
      exact List.mem_append_left _ hx

/-! ### Hooks -/

omit [FloatFmt] in
def Hookless (n : Node σ) : Prop := ∀ p s, n.noHook p s

omit [FloatFmt] in
theorem hookless_map {ids : List String} {child : Nat → Node σ} (h : ∀ i < ids.length, Hookless (child i)) :
    Hookless (.map ids child .ok) := by
  intro p s
  cases p with
  | nil => exact ⟨fun _ => rfl, trivial⟩
  | cons k r =>
    rw [Node.noHook]
    refine ⟨fun _ => rfl, ?_⟩
    cases hf : (List.range ids.length).find? (fun i => pathMatchStr (k :: r) (ids.getD i "")) with
    | none => trivial
    | some i => exact h i (List.mem_range.mp (List.mem_of_find?_eq_some hf)) r s

omit [FloatFmt] in
theorem hookless_fields {l : List (String × Node σ)} (h : ∀ x ∈ l, Hookless x.2) : Hookless (.fields l) := by
  refine hookless_map fun i hi => ?_
  rw [List.length_map] at hi
  have : (l.getD i ("", Node.oob)) = l[i] := by simp [List.getD, hi]
  rw [this]
  exact h _ (List.getElem_mem hi)

omit [FloatFmt] in
theorem hookless_arr {resize count} {elem : Nat → Node σ} (h : ∀ i, Hookless (elem i)) : Hookless (.arr resize count elem) := by
  intro p s
  cases p with
  | nil => trivial
  | cons k r =>
    rw [Node.noHook]
    cases (List.range (count s)).find? (fun i => pathMatchInt (k :: r) i) with
    | none => trivial
    | some i => exact h i r s

macro "hookless_leaf" : tactic => `(tactic| exact fun _ _ => trivial)

omit [FloatFmt] in
theorem hookless_fixedArr {n : Nat} {elem : Fin n → Node σ} (h : ∀ i, Hookless (elem i)) : Hookless (fixedArr n elem) := by
  refine hookless_arr fun i => ?_
  split
  · exact h _
  · hookless_leaf

end

theorem hookless_axis (la : Lens Console Axis) (name : Lens Console String) : Hookless (axisNode la name) := by
  unfold axisNode
  apply hookless_fields
  each
  · hookless_leaf
  · refine hookless_arr fun i => ?_
    split <;> hookless_leaf

theorem hookless_table1 (t : Lens Console (Option Table1d)) (k : Fin 10) : Hookless (table1Node t k) := by
  unfold table1Node
  refine fun p s => (hookless_fields ?_ : Hookless _) p s
  each
  · hookless_leaf
  · exact hookless_axis _ _
  · refine hookless_arr fun i => ?_
    split <;> hookless_leaf

theorem hookless_table2 (t : Lens Console (Option Table2d)) (k : Fin 10) : Hookless (table2Node t k) := by
  unfold table2Node
  refine fun p s => (hookless_fields ?_ : Hookless _) p s
  each
  · hookless_leaf
  · exact hookless_axis _ _
  · exact hookless_axis _ _
  · refine hookless_arr fun i => hookless_arr fun j => ?_
    split <;> hookless_leaf

macro "hookless_plain" : tactic => `(tactic| (apply hookless_fields; each; all_goals hookless_leaf))

section
variable [FloatFmt] [LibM]

theorem noHook_fields {l : List (String × Node Console)} {k : Item} {r : List Item} {s : Console}
    (h : ∀ x ∈ l, k = .text x.1 → x.2.noHook r s) : (Node.fields l).noHook (k :: r) s := by
  unfold Node.fields
  rw [Node.noHook]
  refine ⟨fun _ => rfl, ?_⟩
  cases hf : (List.range (l.map Prod.fst).length).find?
      (fun i => pathMatchStr (k :: r) ((l.map Prod.fst).getD i "")) with
  | none => trivial
  | some i =>
    obtain ⟨hi, hk⟩ := find_string hf
    rw [List.length_map] at hi
    have h1 : (l.getD i ("", Node.oob)) = l[i] := by simp [List.getD, hi]
    have h2 : (l.map Prod.fst).getD i "" = l[i].1 := by simp [List.getD, hi]
    dsimp only
    rw [h1]
    exact h _ (List.getElem_mem hi) (by rw [hk, h2])

theorem noHook_sensors (rate : BitVec 32) (p : List Item) (s : Console)
    (h1 : ∀ r, p ≠ .text "knock1" :: r) (h2 : ∀ r, p ≠ .text "knock2" :: r) : (sensorsNode rate).noHook p s := by
  unfold sensorsNode
  cases p with
  | nil => exact ⟨fun _ => rfl, trivial⟩
  | cons k r =>
    rw [Node.noHook]
    refine ⟨fun _ => rfl, ?_⟩
    cases hf : (List.range (sensorNames ++ ["knock1", "knock2"]).length).find?
        (fun i => pathMatchStr (k :: r) ((sensorNames ++ ["knock1", "knock2"]).getD i "")) with
    | none => trivial
    | some i =>
      obtain ⟨hi, hk⟩ := find_string hf
      have hi : i < 12 := hi
      dsimp only
      by_cases h : i < numSensors
      · rw [dif_pos h]
        have : ∀ l, Hookless (sensorNode l) := fun l => by unfold sensorNode; hookless_plain
        exact this _ _ _
      · have h : ¬ i < 10 := h
        rcases (by omega : i = 10 ∨ i = 11) with rfl | rfl
        · exact absurd (by rw [hk]; rfl) (h1 r)
        · exact absurd (by rw [hk]; rfl) (h2 r)

/-- Only the knock inputs have a hook. -/
theorem noHook_console (rate : BitVec 32) (version : String) (p : List Item) (s : Console) (h : ¬KnockPath p) :
    (consoleTree rate version).noHook p s := by
  cases p with
  | nil => exact ⟨fun _ => rfl, trivial⟩
  | cons k r =>
    unfold consoleTree
    apply noHook_fields
    each
    · exact fun _ => (by unfold decoderNode; hookless_plain : Hookless decoderNode) r s
    · intro hk
      apply noHook_sensors
      · intro q hq; exact h ⟨q, Or.inl (by rw [hk, hq])⟩
      · intro q hq; exact h ⟨q, Or.inr (by rw [hk, hq])⟩
    · exact fun _ => hookless_fixedArr (fun i => by unfold outputNode; hookless_plain) _ _
    · intro _
      refine (hookless_fields ?_ : Hookless fuelingNode) r s
      each
      all_goals first
        | hookless_leaf
        | (unfold crankNode; hookless_plain)
    · exact fun _ => (by unfold ignitionNode; hookless_plain : Hookless ignitionNode) r s
    · intro _
      refine (hookless_fields ?_ : Hookless tablesNode) r s
      each
      all_goals first
        | exact hookless_table2 _ _
        | exact hookless_table1 _ _
    · intro _
      refine (hookless_fields ?_ : Hookless boostNode) r s
      each
      all_goals first
        | exact hookless_table1 _ _
        | hookless_leaf
    · exact fun _ => (by unfold celNode; hookless_plain : Hookless celNode) r s
    · exact fun _ => hookless_fixedArr (fun i => by unfold freqNode; hookless_plain) _ _
    · exact fun _ => (by unfold testNode; hookless_plain : Hookless testNode) r s
    · exact fun _ => (by hookless_plain : Hookless (Node.fields [("version", .const version)])) r s

/-! ### Settings that are not tables -/

/-- The tables of the configuration. -/
def Console.tables (c : Console) :=
  ((c.cfg.ve, c.cfg.lambda, c.cfg.timing, c.cfg.tempEnrich, c.cfg.tipinAmount),
   (c.cfg.dwell, c.cfg.deadtime, c.cfg.pwCorrection, c.cfg.tipinDuration, c.cfg.boost.duty))

theorem keeps_tables_other (rate : BitVec 32) (version : String) : ∀ x ∈
    [("decoder", decoderNode), ("sensors", sensorsNode rate), ("outputs", outputsNode), ("fueling", fuelingNode),
     ("ignition", ignitionNode), ("tables", tablesNode), ("boost-control", boostNode), ("check-engine-light", celNode),
     ("freq", freqListNode), ("test", testNode), ("info", .fields [("version", .const version)])],
    x.1 ≠ "tables" → x.1 ≠ "boost-control" → Keeps Loaded Console.tables x.2 ∧ KeepsR Loaded Console.tables x.2 := by
  each
  · exact fun _ _ => ⟨foot_decoder.keeps fun _ _ => rfl, fixed_decoder.keeps⟩
  · exact fun _ _ => ⟨keeps_sensors rate (fun _ _ => rfl) (fun _ _ => rfl), (fixed_sensors rate).keeps⟩
  · exact fun _ _ => ⟨foot_outputs.keeps fun _ _ => rfl, fixed_outputs.keeps⟩
  · exact fun _ _ => ⟨foot_fueling.keeps fun _ _ => rfl, fixed_fueling.keeps⟩
  · exact fun _ _ => ⟨foot_ignition.keeps fun _ _ => rfl, fixed_ignition.keeps⟩
  · exact fun h _ => absurd rfl h
  · exact fun _ h => absurd rfl h
  · exact fun _ _ => ⟨foot_cel.keeps fun _ _ => rfl, fixed_cel.keeps⟩
  · exact fun _ _ => ⟨foot_freqList.keeps fun _ _ => rfl, fixed_freqList.keeps⟩
  · exact fun _ _ => ⟨foot_test.keeps fun _ _ => rfl, fixed_test.keeps⟩
  · refine fun _ _ => ⟨?_, (fixed_info version).keeps⟩
    apply keeps_fields; each
    intro s s' _ h
    cases h

end

end Verif
