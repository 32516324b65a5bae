/-
C83: a configuration that was read can be sent back.
-/
import Verif.Proofs.Apart
import Verif.Props.AnyRequest

namespace Verif

section
variable [FloatFmt] [LibM] (rate : BitVec 32) (version : String) (struct : List Item)

/-- C83, for lists sent with their length and integers below 2^31: `x` is the part at `p` of the full dump of
`c0`; sending it in a set of `p` to a console with the configuration `c` is answered with `x`, and afterwards a
get of `p` answers `x`.  With the empty path this is the whole configuration. -/
theorem C83_restore_partial {c0 c : Console} (h0 : Loaded c0) (ht : Titled c0) (hk0 : KnockReady rate c0)
    (hc : Loaded c) (hk : KnockReady rate c) {req0 : List Item} {full : Item} (hr0 : IsGet req0 [])
    (hfull : Answers (processRequest rate version struct req0 c0) c0 full) {p : List Item} (hp : PartPath p)
    {x : Item} (hx : full.follow p = some x) (hs : x.Small) {req : List Item} (hr : IsSet req p x.sized) :
    ∃ c', Answers (processRequest rate version struct req c) c' x ∧ Loaded c' ∧ KnockReady rate c' ∧
      c'.hidden = c.hidden ∧
      ∀ get, IsGet get p → Answers (processRequest rate version struct get c') c' x := by
  have hd := dump_of_answers rate version struct h0 hr0 hfull
  obtain ⟨c', h1, h2, h3, h4, h5⟩ := render_back_at _ (wf_console rate version) (back_console rate version)
    ⟨h0, ht, hk0⟩ h0 (leads_console rate version hp) hd hx hs { s := c, path := p, out := [] } rfl hc hk
  have h6 : request (consoleTree rate version) true p (some x.sized) c = .ok (c', [x]) := by
    unfold request
    rw [h1]
    rfl
  refine ⟨c', (answers_set rate version struct hr).mpr ⟨_, h6, lookup_answer _ _⟩, h2, h3,
    steps_keep (keeps_hidden rate version) (keepsR_hidden rate version) h4, fun get hg => ?_⟩
  obtain ⟨d', hd'⟩ := shows_console rate version c' h2
  have hx' := h5 d' hd'
  have := get_answers rate version struct h2 hd' hg (not_pastLeaf hx')
  rwa [hx'] at this

/-- C83, the rest: a set that is answered, whatever its path and value are, changes nothing that a get shows
at a path that parts from its own outside of the tables. -/
theorem C83_others {c c' : Console} (hc : Loaded c) {a r u : List Item} {k k' : Item} (ha : ¬InTable a)
    (hk : k' ≠ k) {v : Item} {req : List Item} (hr : IsSet req (a ++ k :: r) v) {y : Item}
    (h : Answers (processRequest rate version struct req c) c' y) {req0 : List Item} (hr0 : IsGet req0 [])
    {full : Item} (hfull : Answers (processRequest rate version struct req0 c) c full) :
    ∃ full', Answers (processRequest rate version struct req0 c') c' full' ∧
      full'.follow (a ++ k' :: u) = full.follow (a ++ k' :: u) := by
  have hd := dump_of_answers rate version struct hc hr0 hfull
  obtain ⟨l, h1, -⟩ := (answers_set rate version struct hr).mp h
  unfold request at h1
  have hne : (!(a ++ k :: r).isEmpty) = true := by simp
  rw [hne] at h1
  cases hren : render (consoleTree rate version) true true (some v) { s := c, path := a ++ k :: r, out := [] } with
  | error e => rw [hren] at h1; cases h1
  | ok st' =>
    rw [hren] at h1
    cases h1
    have hl : Loaded st'.s := by
      have := render_any _ (wf_console rate version) (grow_console rate version) true true (some v)
        { s := c, path := a ++ k :: r, out := [] } hc
      rw [hren] at this
      exact this.1
    obtain ⟨d', hd'⟩ := shows_console rate version st'.s hl
    have hp : ¬PastLeaf [] d' := by rintro ⟨q, k, r, y, h1, _⟩; simp at h1
    refine ⟨d', get_answers rate version struct hl hd' hr0 hp, ?_⟩
    exact render_other _ (wf_console rate version) (grow_console rate version) true (some v) a hk r u
      (apart_console rate version ha k) { s := c, path := a ++ k :: r, out := [] } st' rfl hc hren hd hd'

/-- The hypotheses are met: setting the offset of the decoder leaves the tables as they are. -/
example : ∃ c' y full full', Answers (processRequest rate version struct
      (setReq [.text "decoder", .text "offset"] (.int 7)) dfltConsole) c' y ∧
    Answers (processRequest rate version struct (getReq []) dfltConsole) dfltConsole full ∧
    Answers (processRequest rate version struct (getReq []) c') c' full' ∧
    full'.follow [.text "tables"] = full.follow [.text "tables"] := by
  obtain ⟨full, h0, -⟩ := C50_get_partial rate version struct dfltConsole_loaded
  have h : ∃ c' y, Answers (processRequest rate version struct
      (setReq [.text "decoder", .text "offset"] (.int 7)) dfltConsole) c' y :=
    ⟨_, _, (answers_set rate version struct (isSet_setReq _ _)).mpr ⟨_, rfl, lookup_answer _ _⟩⟩
  obtain ⟨c', y, h⟩ := h
  obtain ⟨full', h1, h2⟩ := C83_others rate version struct dfltConsole_loaded (a := []) (k := .text "decoder")
    (k' := .text "tables") (r := [.text "offset"]) (u := [])
    (by rintro (⟨_, _, h⟩ | ⟨_, h⟩) <;> cases h) (by simp) (isSet_setReq _ _) h (isGet_getReq _) (h0 _ (isGet_getReq _))
  exact ⟨c', y, full, full', h, h0 _ (isGet_getReq _), h1, h2⟩

/-- C83 in full: what was received is sent back as it is. -/
def C83_full : Prop :=
  ∀ c0 c, Loaded c0 → Titled c0 → KnockReady rate c0 → Loaded c → KnockReady rate c →
    ∀ req0 full, IsGet req0 [] → Answers (processRequest rate version struct req0 c0) c0 full →
    ∀ p x, full.follow p = some x → ∀ req, IsSet req p x →
      ∃ c', Answers (processRequest rate version struct req c) c' x

end

/-- The filters of the knock sensors can be set up at 50000 samples a second. -/
theorem dflt_knockReady [LibM] : @KnockReady binary32 _ 50000 (@dfltConsole binary32) := by
  let _ := binary32
  intro i
  have h : Fl.toU32 ((lit 7000 + Fl.ofU32 50000 / Fl.fin 64) / (Fl.ofU32 50000 / Fl.fin 64)) = .ok 9 := by
    decide +kernel
  unfold knockConfigure
  rw [show ((@dfltConsole binary32).cfg.knock i).frequency = lit 7000 from rfl]
  dsimp only
  rw [h]
  exact ⟨_, rfl⟩

theorem dflt_titled [FloatFmt] : Titled dfltConsole := fun _ =>
  have h : IsTitle "" := ⟨by decide, by simp⟩
  ⟨h, h, h⟩

/-- The shipped configuration with no values in the dwell axis. -/
def emptyDwell [FloatFmt] : Console :=
  { dfltConsole with cfg := { dfltConfig with
    dwell := some { dfltDwell with cols := { dfltDwell.cols with num := 0 } } } }

theorem emptyDwell_loaded [FloatFmt] : Loaded emptyDwell :=
  have h := dfltConsole_loaded
  ⟨h.1, h.2.1, ⟨_, rfl, Nat.zero_le _⟩, h.2.2.2⟩

/-- The values of the dwell axis. -/
def dwellValues : List Item := [.text "tables", .text "dwell", .text "horizontal-axis", .text "values"]

theorem dwellValues_dflt [FloatFmt] [LibM] (version : String) (full : Item)
    (hd : dump (consoleTree 50000 version) dfltConsole = .ok full) :
    ∃ x, .ok (.arr false [.flt (lit 5), .flt (lit 10), .flt (lit 14), .flt (lit 18)]) = Except.ok (ε := Fault) x ∧
      full.follow dwellValues = some x :=
  follow_dump _ (wf_console 50000 version) dfltConsole dfltConsole_loaded dwellValues full hd

mutual
/-- `Item.Small`, computed. -/
def Item.smallB : Item → Bool
  | .int n => n < 2 ^ 31
  | .arr _ l => Item.smallAllB l
  | .map l => Item.smallAllB l
  | _ => true
def Item.smallAllB : List Item → Bool
  | [] => true
  | x :: l => x.smallB && Item.smallAllB l
end

mutual
theorem small_of_smallB : ∀ x : Item, x.smallB = true → x.Small
  | .int n, h => by
    rw [Item.smallB] at h
    rw [Item.Small]
    exact of_decide_eq_true h
  | .arr _ l, h => by
    rw [Item.smallB] at h
    rw [Item.Small]
    exact smallAll_of_smallAllB l h
  | .map l, h => by
    rw [Item.smallB] at h
    rw [Item.Small]
    exact smallAll_of_smallAllB l h
  | .flt _, _ => by simp [Item.Small]
  | .bool _, _ => by simp [Item.Small]
  | .text _, _ => by simp [Item.Small]
  | .null, _ => by simp [Item.Small]
  | .half _, _ => by simp [Item.Small]
  | .dbl _, _ => by simp [Item.Small]
  | .other, _ => by simp [Item.Small]
theorem smallAll_of_smallAllB : ∀ l : List Item, Item.smallAllB l = true → Item.SmallAll l
  | [], _ => by simp [Item.SmallAll]
  | x :: l, h => by
    rw [Item.smallAllB, Bool.and_eq_true] at h
    rw [Item.SmallAll]
    exact ⟨small_of_smallB x h.1, smallAll_of_smallAllB l h.2⟩
end

/-- The hypotheses are met: the whole shipped configuration is sent to a console whose dwell axis is empty;
the axis has its values again. -/
example (struct : List Item) : ∃ full c',
    Answers (@processRequest binary32 ⟨id, id⟩ 50000 "v" struct (getReq []) (@dfltConsole binary32))
      (@dfltConsole binary32) full ∧
    Answers (@processRequest binary32 ⟨id, id⟩ 50000 "v" struct (setReq [] full.sized) (@emptyDwell binary32)) c' full ∧
    full.follow dwellValues = some (.arr false [.flt (.fin 5), .flt (.fin 10), .flt (.fin 14), .flt (.fin 18)]) := by
  let _ := binary32
  let _ : LibM := ⟨id, id⟩
  obtain ⟨full, h0, -⟩ := C50_get_partial 50000 "v" struct dfltConsole_loaded
  have hd := dump_of_answers 50000 "v" struct dfltConsole_loaded (isGet_getReq _) (h0 _ (isGet_getReq _))
  have hs : (match @dump _ (@consoleTree binary32 ⟨id, id⟩ 50000 "v") (@dfltConsole binary32) with
      | .ok d => d.smallB | .error _ => false) = true := by
    decide +kernel
  rw [hd] at hs
  obtain ⟨c', h1, -⟩ := C83_restore_partial 50000 "v" struct dfltConsole_loaded dflt_titled dflt_knockReady
    emptyDwell_loaded dflt_knockReady (isGet_getReq _) (h0 _ (isGet_getReq _)) (p := [])
    ⟨by simp, by simp⟩ rfl (small_of_smallB _ hs) (isSet_setReq _ _)
  obtain ⟨x, hx, hf⟩ := dwellValues_dflt "v" full hd
  rw [show lit 5 = .fin 5 by decide +kernel, show lit 10 = .fin 10 by decide +kernel,
    show lit 14 = .fin 14 by decide +kernel, show lit 18 = .fin 18 by decide +kernel] at hx
  exact ⟨full, c', h0 _ (isGet_getReq _), h1, by rw [hf, Except.ok.inj hx]⟩

/-- It fails: a list sent with no length, as the console sends them, leaves an axis as short as it is. -/
theorem C83_full_false [LibM] (version : String) (struct : List Item) :
    ¬@C83_full binary32 _ 50000 version struct := by
  let _ := binary32
  intro h
  obtain ⟨full, h0, -⟩ := C50_get_partial 50000 version struct dfltConsole_loaded
  have hd := dump_of_answers 50000 version struct dfltConsole_loaded (isGet_getReq _) (h0 _ (isGet_getReq _))
  obtain ⟨x, hx, hf⟩ := dwellValues_dflt version full hd
  obtain ⟨c', h1⟩ := h _ _ dfltConsole_loaded dflt_titled dflt_knockReady emptyDwell_loaded dflt_knockReady _ _
    (isGet_getReq _) (h0 _ (isGet_getReq _)) _ _ hf _ (isSet_setReq _ _)
  have h2 : request (consoleTree 50000 version) true dwellValues (some x) emptyDwell = .ok (emptyDwell, [.arr false []]) := by
    have h1 : render (consoleTree 50000 version) true true (some x) ⟨emptyDwell, dwellValues, []⟩ =
        .ok ⟨emptyDwell, [], [.arr false []]⟩ := by
      refine render_fields (n := tablesNode) (by simp) (by simp) _ _ _ ?_
      refine render_fields (n := table1Node (fld% cfg.dwell) 2) (by simp) (by simp) _ _ _ ?_
      unfold table1Node
      dsimp only
      rw [render, if_neg (by rintro ⟨⟩)]
      refine render_fields (t := "horizontal-axis") (by simp) (List.mem_cons_of_mem _ List.mem_cons_self) _ _ _ ?_
      refine render_fields (t := "values") (by simp) (List.mem_cons_of_mem _ List.mem_cons_self) _ _ _ ?_
      rw [render]
      cases hx
      rfl
    unfold request
    rw [show (!List.isEmpty dwellValues) = true from rfl, h1]
  have h3 : Answers (processRequest 50000 version struct (setReq dwellValues x) emptyDwell) emptyDwell (.arr false []) :=
    (answers_set 50000 version struct (isSet_setReq _ _)).mpr ⟨_, h2, lookup_answer _ _⟩
  have := (h1.unique h3).2
  rw [← Except.ok.inj hx] at this
  cases this

end Verif
