/-
C98: what an interrupt finds of the configuration while a request is being handled.

`During rate version req c x`: the request `req` is handled with the configuration `c`, and an interrupt can come when the configuration
is `x`.  Requests other than get and set store nothing.
-/
import Verif.Proofs.ConsoleTrace
import Verif.Props.AnyRequest

namespace Verif

section
variable [FloatFmt] [LibM] (rate : BitVec 32) (version : String) (struct : List Item)

inductive During (req : List Item) (c x : Console) : Prop
  | start (h : x = c)
  | get {p l} (hr : IsGet req p) (hs : requestStates (consoleTree rate version) false p none c = .ok l) (hx : x ∈ l)
  | set {p v l} (hr : IsSet req p v) (hs : requestStates (consoleTree rate version) true p (some v) c = .ok l) (hx : x ∈ l)

theorem states_all {P : Console → Prop} {b : Bool} {p : List Item} {v : Option Item} {c : Console} {l : List Console}
    {E : Fault → Prop}
    (h : Out (fun st => st.s.All P) E (render (consoleTree rate version).traced b (!p.isEmpty) v ⟨⟨c, []⟩, p, []⟩))
    (hs : requestStates (consoleTree rate version) b p v c = .ok l) : ∀ x ∈ l, P x := by
  unfold requestStates request at hs
  revert h hs
  cases render (consoleTree rate version).traced b (!p.isEmpty) v ⟨⟨c, []⟩, p, []⟩ with
  | error e => intro _ h; cases h
  | ok st =>
    intro h hs
    cases hs
    exact Traced.All.states h

theorem get_set_apart {req p q : List Item} {v : Item} (h : IsGet req p) (h' : IsSet req q v) : False := by
  have h1 := h.method
  rw [h'.method] at h1
  simp at h1

theorem isSet_unique {req p q : List Item} {v w : Item} (h : IsSet req p v) (h' : IsSet req q w) : p = q ∧ v = w := by
  obtain ⟨b, h1⟩ := h.path
  obtain ⟨b', h2⟩ := h'.path
  rw [h2] at h1
  have h3 := h.value
  rw [h'.value] at h3
  cases h1
  cases h3
  exact ⟨rfl, rfl⟩

/-- The configuration at the end is the last of these, so nothing is left out. -/
theorem C98_end {c c' : Console} {req l : List Item} {e : Effect}
    (h : processRequest rate version struct req c = .ok (c', l, e)) : During rate version req c c' := by
  unfold processRequest at h
  dsimp only at h
  split at h
  · cases h; exact .start rfl
  · rename_i m hm
    split at h
    · cases h; exact .start rfl
    split at h
    · cases h; exact .start rfl
    split at h
    · cases h; exact .start rfl
    split at h
    · cases h; exact .start rfl
    split at h
    · cases h
    · rename_i c1 r hp
      cases h
      unfold pathRequest at hp
      split at hp
      · rename_i b p hpath
        rw [mapFind_eq] at hm hpath
        have text : ∀ {t}, itemIs m t = true → m = .text t := by
          intro t ht
          unfold itemIs at ht
          split at ht
          · simp only [decide_eq_true_eq] at ht; rw [ht]
          · cases ht
        split at hp
        · rename_i hg
          have hst := request_states (consoleTree rate version) false p none c
          split at hp
          · cases hp
          · rename_i c2 r2 hr
            cases hp
            rw [hr] at hst
            obtain ⟨l, hl⟩ := hst
            exact .get ⟨by rw [hm, text hg], b, hpath⟩ hl (by simp)
        · split at hp
          · cases hp; exact .start rfl
          · rename_i v hval
            rw [mapFind_eq] at hval
            split at hp
            · rename_i hg
              have hst := request_states (consoleTree rate version) true p (some v) c
              split at hp
              · cases hp
              · rename_i c2 r2 hr
                cases hp
                rw [hr] at hst
                obtain ⟨l, hl⟩ := hst
                exact .set ⟨by rw [hm, text hg], ⟨b, hpath⟩, hval⟩ hl (by simp)
            · cases hp; exact .start rfl
      · cases hp; exact .start rfl

/-- C98, the tables and what no request addresses: an interrupt at any time finds all tables with at most 24 values on each axis,
and what the decoder, the scheduler and the sensors keep there as it was. -/
theorem C98_tables_partial {c x : Console} {req : List Item} (hc : Loaded c) (h : During rate version req c x) :
    Loaded x ∧ x.hidden = c.hidden := by
  have key : ∀ {b p v l}, requestStates (consoleTree rate version) b p v c = .ok l → x ∈ l → Loaded x ∧ x.hidden = c.hidden := by
    intro b p v l hs hx
    refine states_all rate version (P := fun x => Loaded x ∧ x.hidden = c.hidden) (E := KnockFails rate) ?_ hs x hx
    exact traced_any _ (wf_console rate version) (grow_console rate version)
      (fun s s' hs hq hw => (keeps_hidden rate version s s' hs hw).trans hq)
      (fun s s' hs hq hr => (keepsR_hidden rate version s s' hs hr).trans hq) _ _ _ _ ⟨⟨hc, rfl⟩, by simp⟩
  cases h with
  | start h => rw [h]; exact ⟨hc, rfl⟩
  | get hr hs hx => exact key hs hx
  | set hr hs hx => exact key hs hx

/-- A get can be interrupted anywhere without the interrupt noticing. -/
theorem C98_get {c x : Console} {req p : List Item} (hr : IsGet req p) (h : During rate version req c x) : x = c := by
  cases h with
  | start h => exact h
  | get hr' hs hx =>
    exact states_all rate version (P := fun x => x = c)
      (traced_get _ (wf_console rate version) _ _ _ ⟨rfl, by simp⟩) hs x hx
  | set hr' hs hx => exact (get_set_apart hr hr').elim

/-- C98 for a set of one setting outside the knock inputs: an interrupt finds the old configuration or the new one, and nothing in
between. -/
theorem C98_one_partial {c : Console} (hc : Loaded c) {req0 : List Item} (h0 : IsGet req0 []) {full : Item}
    (hfull : Answers (processRequest rate version struct req0 c) c full) {p : List Item} {y : Item}
    (hy : full.follow p = some y) (hl : y.isLeaf = true) (hk : ¬KnockPath p) {v : Item}
    (hv : v.isLeaf = true ∨ Item.text "values" ∉ p) {req : List Item} (hreq : IsSet req p v)
    {c' : Console} {l : List Item} {e : Effect} (h : processRequest rate version struct req c = .ok (c', l, e))
    {x : Console} (hx : During rate version req c x) : x = c ∨ x = c' := by
  have hd := dump_of_answers rate version struct hc h0 hfull
  have hf := follow_dump _ (wf_console rate version) c hc p full hd
  cases hat : (consoleTree rate version).at p c with
  | none => rw [hat] at hf; rw [hf] at hy; cases hy
  | some m =>
    rw [hat] at hf
    obtain ⟨z, h1, h2⟩ := hf
    rw [hy] at h2
    cases h2
    have hm := at_leaf hat h1 hl
    have hc' : c' = leafSet m (some v) c := by
      have h3 := request_leaf rate version hc hat hm hk hv
      rw [process_set rate version struct hreq, h3] at h
      cases h
      rfl
    have hcalm : (consoleTree rate version).calm v p c := by
      rcases hv with hv | hv
      · exact calm_leaf hv _ _ _
      · refine calm_console rate version v p c hv fun m' hm' => ?_
        rw [hat] at hm'
        cases hm'
        exact hm
    cases hx with
    | start h => exact Or.inl h
    | get hr hs hx => exact (get_set_apart hr hreq).elim
    | set hr hs hx =>
      obtain ⟨rfl, rfl⟩ := isSet_unique hreq hr
      unfold requestStates request at hs
      cases hR : render (consoleTree rate version).traced true (!p.isEmpty) (some v) ⟨⟨c, []⟩, p, []⟩ with
      | error e => rw [hR] at hs; cases hs
      | ok st =>
        rw [hR] at hs
        have hs := Except.ok.inj hs
        have h4 := traced_leaf hat hm hcalm (noHook_console rate version p c hk) (st := ⟨⟨c, []⟩, p, []⟩) rfl rfl hR
        obtain ⟨⟨ws, h5, h6⟩, -⟩ := h4
        rw [← hs] at hx
        rw [h5] at hx
        rcases List.mem_append.mp hx with hx | hx
        · exact Or.inl (by simpa [Traced.states] using hx)
        · exact Or.inr ((h6 x hx).trans hc'.symm)

omit [LibM] in
theorem lookups_of_tables {c x : Console} (ht : x.tables = c.tables) (hh : x.hidden = c.hidden) (h : LookupsSafe c.cfg) :
    LookupsSafe x.cfg := by
  have hd : x.cfg.ignition.dwell = c.cfg.ignition.dwell := by
    have := congrArg (fun a => a.2.2.2.2.1) hh
    exact this
  unfold Console.tables at ht
  simp only [Prod.mk.injEq] at ht
  obtain ⟨⟨h1, h2, h3, h4, h5⟩, h6, h7, h8, h9, h10⟩ := ht
  obtain ⟨a1, a2, a3, a4, a5, a6, a7, a8, a9, a10, a11, a12, a13⟩ := h
  constructor
  · rw [h3]; exact a1
  · rw [hd, h6]; exact a2
  · rw [h10]; exact a3
  · rw [h3]; exact a4
  · rw [h1]; exact a5
  · rw [h2]; exact a6
  · rw [h4]; exact a7
  · rw [h5]; exact a8
  · rw [h7]; exact a9
  · rw [h8]; exact a10
  · rw [h9]; exact a11
  · rw [h6]; exact a12
  · rw [h10]; exact a13

/-- C98 for everything but the tables: whatever is set, at once or one by one, the lookups of an interrupt find the tables as they
were. -/
theorem C98_others_partial {c : Console} (hc : Loaded c) {req r : List Item} {k v : Item} (hreq : IsSet req (k :: r) v)
    (h1 : k ≠ .text "tables") (h2 : k ≠ .text "boost-control") {x : Console} (hx : During rate version req c x) :
    x.tables = c.tables ∧ (LookupsSafe c.cfg → LookupsSafe x.cfg) := by
  suffices h : x.tables = c.tables from
    ⟨h, lookups_of_tables h (C98_tables_partial rate version hc hx).2⟩
  cases hx with
  | start h => rw [h]
  | get hr hs hx => exact (get_set_apart hr hreq).elim
  | set hr hs hx =>
    obtain ⟨rfl, rfl⟩ := isSet_unique hreq hr
    refine (states_all rate version (P := fun x => Loaded x ∧ x.tables = c.tables) (E := KnockFails rate) ?_ hs x hx).2
    unfold consoleTree
    have hw := wf_console rate version
    have hg := grow_console rate version
    unfold consoleTree at hw hg
    refine traced_fields ⟨⟨hc, rfl⟩, by simp⟩ fun y hy hk => ?_
    obtain ⟨hk1, hk2⟩ := keeps_tables_other rate version y hy (fun h => h1 (by rw [hk, h])) (fun h => h2 (by rw [hk, h]))
    obtain ⟨i, hi, he⟩ := List.getElem_of_mem hy
    have hwi := hw.1 i (by rw [List.length_map]; exact hi)
    have hgi := hg.1 i (by rw [List.length_map]; exact hi)
    dsimp only at hwi hgi
    rw [List.getD_eq_getElem?_getD, List.getElem?_eq_getElem hi, Option.getD_some, he] at hwi hgi
    exact traced_any _ hwi hgi (fun s s' hs hq hw => (hk1 s s' hs hw).trans hq)
      (fun s s' hs hq hr => (hk2 s s' hs hr).trans hq) _ _ _ _ ⟨⟨hc, rfl⟩, by simp⟩

/-- C98 in full: if the lookups are safe with the configuration before and after a request, they are for an interrupt in between. -/
def C98_full : Prop :=
  ∀ c c' x req l e, Loaded c → LookupsSafe c.cfg → processRequest rate version struct req c = .ok (c', l, e) →
    LookupsSafe c'.cfg → During rate version req c x → LookupsSafe x.cfg

end
/-- The values 20, 22, 24 and 26 sent for the dwell table's axis, which has 5, 10, 14 and 18. -/
def upValues : Item := .arr true [.flt (.fin 20), .flt (.fin 22), .flt (.fin 24), .flt (.fin 26)]

def dwellAxis : List Item := [.text "tables", .text "dwell", .text "horizontal-axis", .text "values"]

/-- The dwell table's axis in the configuration. -/
def dwellCols : Lens Console Axis := Lens.comp (Lens.comp (fld% cfg.dwell) (Lens.some noTable1)) (fld% cols)

/-- Its number of values and its first four values are stored. -/
def upNum [FloatFmt] : Console := (dwellCols.comp (fld% num)).set 4 dfltConsole
def up (i : Fin maxAxis) (q : ℚ) (c : Console) : Console := (dwellCols.comp (Lens.comp (fld% values) (Lens.ix i))).set (.fin q) c
def up1 [FloatFmt] : Console := up 0 20 upNum
def up4 [FloatFmt] : Console := up 3 26 (up 2 24 (up 1 22 up1))

/-- The values of the axis. -/
def dwellAxisValues : Node Console :=
  .arr (some (dwellCols.comp (fld% num))) (fun c => min (dwellCols.get c).num maxAxis) fun i =>
    if h : i < maxAxis then .flt (dwellCols.comp (Lens.comp (fld% values) (Lens.ix ⟨i, h⟩))) else .oob

theorem up_render [FloatFmt] :
    render dwellAxisValues.traced true false (some upValues) ⟨⟨dfltConsole, []⟩, [], []⟩ =
      .ok ⟨⟨up4, [dfltConsole, upNum, up1, up 1 22 up1, up 2 24 (up 1 22 up1)]⟩, [],
        [.arr false [.flt (.fin 20), .flt (.fin 22), .flt (.fin 24), .flt (.fin 26)]]⟩ := by
  unfold dwellAxisValues
  rw [Node.traced, render]
  rfl

theorem up1_fails : let _ := binary32
    ∃ t, up1.cfg.dwell = some t ∧ interp1 t (.fin 12) = .error .assertFail := by
  let _ := binary32
  exact ⟨_, rfl, by decide +kernel⟩

theorem up4_safe : @LookupsSafe binary32 (@up4 binary32).cfg := by
  let _ := binary32
  have h := C07_default_safe.2
  have e : up4 = { dfltConsole with cfg := { dfltConfig with dwell := some (up4.cfg.dwell.getD noTable1) } } := rfl
  have g : Good1 (up4.cfg.dwell.getD noTable1) := by decide +kernel
  generalize up4.cfg.dwell.getD noTable1 = t at e g
  rw [e]
  exact { h with dwell_there := fun _ => by simp, dwell := C07_number_1d_partial _ g }

theorem up_states [FloatFmt] [LibM] (rate : BitVec 32) (version : String) (struct : List Item) :
    During rate version (setReq dwellAxis upValues) dfltConsole up1 ∧
      ∃ l, processRequest rate version struct (setReq dwellAxis upValues) dfltConsole = .ok (up4, l, .none) := by
  obtain ⟨st0, h0, n0, s0⟩ := traced_inner (l := [("name", .text (Lens.comp (fld% colName) (Lens.ix 2))), ("values", dwellAxisValues)])
    (by simp) (List.mem_cons_of_mem _ List.mem_cons_self) (r := []) up_render
  have h0 : render (axisNode dwellCols (Lens.comp (fld% colName) (Lens.ix 2))).traced true true (some upValues)
      ⟨⟨dfltConsole, []⟩, [.text "values"], []⟩ = .ok st0 := h0
  have h1 : ∃ st1, render (table1Node (fld% cfg.dwell) 2).traced true true (some upValues)
      ⟨⟨dfltConsole, []⟩, [.text "horizontal-axis", .text "values"], []⟩ = .ok st1 ∧ st1.s.now = st0.s.now ∧
        ∀ x ∈ st0.s.states, x ∈ st1.s.states := by
    unfold table1Node
    rw [Node.traced, render, if_neg (by rintro ⟨⟩)]
    exact traced_inner (k := "horizontal-axis") (by simp) (List.mem_cons_of_mem _ List.mem_cons_self) h0
  obtain ⟨st1, h1, n1, s1⟩ := h1
  have h2 : ∃ st2, render tablesNode.traced true true (some upValues)
      ⟨⟨dfltConsole, []⟩, [.text "dwell", .text "horizontal-axis", .text "values"], []⟩ = .ok st2 ∧ st2.s.now = st1.s.now ∧
        ∀ x ∈ st1.s.states, x ∈ st2.s.states := by
    unfold tablesNode
    exact traced_inner (k := "dwell") (n := table1Node (fld% cfg.dwell) 2) (by simp) (by simp) h1
  obtain ⟨st2, h2, n2, s2⟩ := h2
  have h3 : ∃ st3, render (consoleTree rate version).traced true true (some upValues)
      ⟨⟨dfltConsole, []⟩, dwellAxis, []⟩ = .ok st3 ∧ st3.s.now = st2.s.now ∧
        ∀ x ∈ st2.s.states, x ∈ st3.s.states := by
    unfold consoleTree
    exact traced_inner (k := "tables") (n := tablesNode) (by simp) (by simp) h2
  obtain ⟨st3, h3, n3, s3⟩ := h3
  have hq : requestStates (consoleTree rate version) true dwellAxis (some upValues) dfltConsole = .ok st3.s.states := by
    unfold requestStates request
    rw [show (!List.isEmpty dwellAxis) = true from rfl, h3]
  refine ⟨.set (isSet_setReq _ _) hq (s3 _ (s2 _ (s1 _ (s0 _ (by simp [Traced.states]))))), ?_⟩
  rw [process_set rate version struct (isSet_setReq _ _)]
  have he := request_states (consoleTree rate version) true dwellAxis (some upValues) dfltConsole
  revert he
  cases request (consoleTree rate version) true dwellAxis (some upValues) dfltConsole with
  | error e => intro he; rw [hq] at he; cases he
  | ok y =>
    intro he
    obtain ⟨l, he⟩ := he
    rw [hq] at he
    have h5 : y.1 = up4 := by
      have := congrArg List.getLast? (Except.ok.inj he)
      simp only [Traced.states, List.getLast?_append, List.getLast?_singleton] at this
      have h6 : st3.s.now = y.1 := by simpa using this
      rw [← h6, n3, n2, n1, n0]
    obtain ⟨y1, y2⟩ := y
    cases h5
    exact ⟨_, rfl⟩

/-- It fails: new values for the axis of the dwell table, all above the old ones, are stored one by one.  After the first the axis
begins at 20 and ends at 18, and an interrupt that looks up the dwell fails the assertion in the search.  (With assertions compiled
out the lookup gives the entry of the highest voltage whatever the voltage is.) -/
theorem C98_full_false [LibM] (rate : BitVec 32) (version : String) (struct : List Item) :
    ¬@C98_full binary32 _ rate version struct := by
  let _ := binary32
  intro h
  obtain ⟨h1, l, h2⟩ := up_states rate version struct
  have h3 := h _ _ _ _ _ _ dfltConsole_loaded C07_default_safe.2 h2 up4_safe h1
  obtain ⟨t, ht, hf⟩ := up1_fails
  obtain ⟨q, hq⟩ := h3.dwell t ht (.fin 12) (by simp)
  rw [hf] at hq
  cases hq

/-- The hypotheses are met: in the middle of that request an interrupt finds a configuration that is neither the old nor the new one,
and the tables are there. -/
example [FloatFmt] [LibM] (rate : BitVec 32) (version : String) :
    ∃ x, During rate version (setReq dwellAxis upValues) dfltConsole x ∧ Loaded x ∧ x.hidden = dfltConsole.hidden ∧
      (dwellCols.get x).values 0 = .fin 20 ∧ (dwellCols.get x).values 1 = (dwellCols.get dfltConsole).values 1 := by
  have h := (up_states rate version []).1
  have h1 := C98_tables_partial rate version dfltConsole_loaded h
  exact ⟨_, h, h1.1, h1.2, rfl, rfl⟩

/-- One setting: the rev limit, found as before or as sent, and the tables as before. -/
example [FloatFmt] [LibM] (rate : BitVec 32) (version : String) (struct : List Item) (x : Console)
    (h : During rate version (setReq [.text "decoder", .text "rpm-limit-stop"] (.int 5000)) dfltConsole x) :
    (x = dfltConsole ∨ x = { dfltConsole with cfg.rpmStop := 5000 }) ∧ x.tables = dfltConsole.tables := by
  obtain ⟨full, h0, -⟩ := C50_get_partial rate version struct dfltConsole_loaded
  have hd := dump_of_answers rate version struct dfltConsole_loaded (isGet_getReq _) (h0 _ (isGet_getReq _))
  obtain ⟨y, hy, hf⟩ := follow_dump _ (wf_console rate version) dfltConsole dfltConsole_loaded
    [.text "decoder", .text "rpm-limit-stop"] full hd
  have h2 : ∃ l2, processRequest rate version struct
      (setReq [.text "decoder", .text "rpm-limit-stop"] (.int 5000)) dfltConsole =
        .ok ({ dfltConsole with cfg.rpmStop := 5000 }, l2, .none) :=
    ⟨_, process_set rate version struct (isSet_setReq _ _) dfltConsole⟩
  obtain ⟨l2, h2⟩ := h2
  refine ⟨C98_one_partial rate version struct dfltConsole_loaded (isGet_getReq _) (h0 _ (isGet_getReq _)) hf ?_ ?_ (Or.inl rfl)
    (isSet_setReq _ _) h2 h, ?_⟩
  · cases hy; rfl
  · rintro ⟨r, h | h⟩ <;> simp at h
  · exact (C98_others_partial rate version dfltConsole_loaded (isSet_setReq _ _) (by simp) (by simp) h).1

end Verif
