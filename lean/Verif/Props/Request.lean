/-
Console requests.  C49: setting a value.  C50: reading.  C51: enumerated settings.  C62: every request gets
one answer.

`Loaded c` says that the ten tables of the configuration are there and no axis has more than 24 values;
src/config.c (the shipped configuration) has them all and no request removes one (`C49_set` gives `Loaded`
back).
-/
import Mathlib.Tactic.FinCases
import Verif.Proofs.ConsoleSet
import Verif.Model.Default
import Verif.Props.Sensors

namespace Verif

section
variable [FloatFmt] [LibM] (rate : BitVec 32) (version : String) (struct : List Item)

/-! ### Requests and the tree -/

omit [FloatFmt] [LibM] in
theorem mapFind_eq (k : String) : ∀ l : List Item, mapFind k l = lookupKey k l
  | [] => rfl
  | [a] => by cases a <;> rfl
  | a :: v :: rest => by cases a <;> simp [mapFind, lookupKey, mapFind_eq k rest]

omit [FloatFmt] [LibM] in
theorem lookup_replaceKey {t : String} {f : Item → Item} {y : Item} :
    ∀ l, lookupKey t l = some y → lookupKey t (replaceKey t f l) = some (f y)
  | [], h => by cases h
  | [a], h => by cases a <;> cases h
  | a :: v :: rest, h => by
    have ih := lookup_replaceKey (t := t) (f := f) (y := y) rest
    cases a with
    | text t' =>
      by_cases ht : t' = t
      · simp [lookupKey, replaceKey, ht] at h ⊢
        rw [h]
      · simp [lookupKey, replaceKey, ht] at h ⊢
        exact ih h
    | _ => exact ih h

theorem process_get {req p : List Item} (h : IsGet req p) (c : Console) :
    processRequest rate version struct req c =
      match request (consoleTree rate version) false p none c with
      | .error e => .error e
      | .ok (c', r) => .ok (c', [.text "type", .text "response", .text "id", .int (requestId req)] ++
          (.text "response" :: r ++ reportSuccess true), .none) := by
  obtain ⟨b, hb⟩ := h.path
  unfold processRequest pathRequest
  simp only [mapFind_eq, h.method, hb, itemIs]
  cases request (consoleTree rate version) false p none c <;> simp

theorem process_set {req p : List Item} {v : Item} (h : IsSet req p v) (c : Console) :
    processRequest rate version struct req c =
      match request (consoleTree rate version) true p (some v) c with
      | .error e => .error e
      | .ok (c', r) => .ok (c', [.text "type", .text "response", .text "id", .int (requestId req)] ++
          (.text "response" :: r ++ reportSuccess true), .none) := by
  obtain ⟨b, hb⟩ := h.path
  unfold processRequest pathRequest
  simp only [mapFind_eq, h.method, hb, itemIs, h.value]
  cases request (consoleTree rate version) true p (some v) c <;> simp

omit [FloatFmt] [LibM] in
theorem lookup_answer (i : Int) (x : Item) :
    lookupKey "response" ([.text "type", .text "response", .text "id", .int i] ++
      (.text "response" :: [x] ++ reportSuccess true)) = some x ∧
    lookupKey "success" ([.text "type", .text "response", .text "id", .int i] ++
      (.text "response" :: [x] ++ reportSuccess true)) = some (.bool true) := by
  constructor <;> simp [lookupKey, reportSuccess]

theorem answers_get {req p : List Item} (h : IsGet req p) {c c' : Console} {x : Item} :
    Answers (processRequest rate version struct req c) c' x ↔
      ∃ r, request (consoleTree rate version) false p none c = .ok (c', r) ∧
        lookupKey "response" ([.text "type", .text "response", .text "id", .int (requestId req)] ++
          (.text "response" :: r ++ reportSuccess true)) = some x ∧
        lookupKey "success" ([.text "type", .text "response", .text "id", .int (requestId req)] ++
          (.text "response" :: r ++ reportSuccess true)) = some (.bool true) := by
  rw [process_get rate version struct h]
  unfold Answers
  cases request (consoleTree rate version) false p none c with
  | error e => simp
  | ok cr =>
    obtain ⟨c1, r⟩ := cr
    simp only [Except.ok.injEq, Prod.mk.injEq, and_true]
    constructor
    · rintro ⟨l, ⟨h1, h2⟩, h3⟩
      exact ⟨r, ⟨h1, rfl⟩, by rw [h2]; exact h3⟩
    · rintro ⟨r', ⟨h1, h2⟩, h3⟩
      rw [← h2] at h3
      exact ⟨_, ⟨h1, rfl⟩, h3⟩

theorem answers_set {req p : List Item} {v : Item} (h : IsSet req p v) {c c' : Console} {x : Item} :
    Answers (processRequest rate version struct req c) c' x ↔
      ∃ r, request (consoleTree rate version) true p (some v) c = .ok (c', r) ∧
        lookupKey "response" ([.text "type", .text "response", .text "id", .int (requestId req)] ++
          (.text "response" :: r ++ reportSuccess true)) = some x ∧
        lookupKey "success" ([.text "type", .text "response", .text "id", .int (requestId req)] ++
          (.text "response" :: r ++ reportSuccess true)) = some (.bool true) := by
  rw [process_set rate version struct h]
  unfold Answers
  cases request (consoleTree rate version) true p (some v) c with
  | error e => simp
  | ok cr =>
    obtain ⟨c1, r⟩ := cr
    simp only [Except.ok.injEq, Prod.mk.injEq, and_true]
    constructor
    · rintro ⟨l, ⟨h1, h2⟩, h3⟩
      exact ⟨r, ⟨h1, rfl⟩, by rw [h2]; exact h3⟩
    · rintro ⟨r', ⟨h1, h2⟩, h3⟩
      rw [← h2] at h3
      exact ⟨_, ⟨h1, rfl⟩, h3⟩

theorem request_get {c : Console} (hc : Loaded c) {full : Item} (hd : dump (consoleTree rate version) c = .ok full)
    {p : List Item} (hp : ¬PastLeaf p full) :
    request (consoleTree rate version) false p none c = .ok (c, [(full.follow p).getD .null]) := by
  obtain ⟨p', h⟩ := render_get_path _ (wf_console rate version) c hc p full hd hp none []
  unfold request
  rw [h]
  rfl

theorem get_answers {c : Console} (hc : Loaded c) {full : Item}
    (hd : dump (consoleTree rate version) c = .ok full) {req p : List Item} (hr : IsGet req p)
    (hp : ¬PastLeaf p full) :
    Answers (processRequest rate version struct req c) c ((full.follow p).getD .null) :=
  (answers_get rate version struct hr).mpr ⟨_, request_get rate version hc hd hp, lookup_answer _ _⟩

/-- What a full dump answers is the dump. -/
theorem dump_of_answers {c c' : Console} (hc : Loaded c) {full : Item} {req : List Item} (hr : IsGet req [])
    (h : Answers (processRequest rate version struct req c) c' full) :
    dump (consoleTree rate version) c = .ok full := by
  obtain ⟨d, hd⟩ := shows_console rate version c hc
  have hp : ¬PastLeaf [] d := by rintro ⟨q, k, r, y, h1, _⟩; simp at h1
  obtain ⟨r, h1, h2, _⟩ := (answers_get rate version struct hr).mp h
  rw [request_get rate version hc hd hp] at h1
  cases h1
  rw [(lookup_answer _ _).1] at h2
  rw [hd, ← Option.some.inj h2]
  rfl

theorem request_set {c : Console} (hc : Loaded c) {full : Item} (hd : dump (consoleTree rate version) c = .ok full)
    {p : List Item} (hp : ¬PastLeaf p full) {v : Item} (hv : (consoleTree rate version).calm v p c) :
    request (consoleTree rate version) true p (some v) c = setResult (consoleTree rate version) p v c [] := by
  have h := render_set _ (wf_console rate version) c hc p full hd hp v hv []
  unfold request
  rw [← h]
  cases render (consoleTree rate version) true (!p.isEmpty) (some v) { s := c, path := p, out := [] } <;> rfl

/-! ### C50 -/

/-- C50 on every path that does not go on after a leaf: a get answers with the part of the full dump that
the path addresses, or null if there is none, and changes nothing. -/
theorem C50_get_partial {c : Console} (hc : Loaded c) :
    ∃ full, (∀ req, IsGet req [] → Answers (processRequest rate version struct req c) c full) ∧
      ∀ p req, ¬PastLeaf p full → IsGet req p →
        Answers (processRequest rate version struct req c) c ((full.follow p).getD .null) := by
  obtain ⟨full, hd⟩ := shows_console rate version c hc
  refine ⟨full, fun req hr => ?_, fun p req hp hr => get_answers rate version struct hc hd hr hp⟩
  have hp : ¬PastLeaf [] full := by rintro ⟨q, k, r, y, h1, _⟩; simp at h1
  exact get_answers rate version struct hc hd hr hp

/-! ### C49 -/

omit [LibM] in
/-- What a leaf stores. -/
theorem stored_leaf {I : Console → Prop} {m : Node Console} (hm : m.isLeaf = true) {c : Console} {x : Item}
    (hw : WF I m) (hi : I c) (hx : dump m c = .ok x) (v : Item) :
    Stored x v (shown m (leafSet m (some v) c)) := by
  cases m with
  | u32 l =>
    rw [dump] at hx
    cases hx
    cases v with
    | int n =>
      intro hn
      have : getIntChecked n = some n := if_pos (by omega)
      have h1 : ∀ w : BitVec 32, l.get (l.set w c) = w := fun w => (hw c w hi).1
      simp only [leafSet, u32Of, this, Option.map_some, setOpt, shown, h1]
      rw [BitVec.toNat_ofInt]
      congr 1
      omega
    | _ => rfl
  | flt l =>
    rw [dump] at hx
    cases hx
    have h1 : ∀ w, l.get (l.set w c) = w := fun w => (hw c w hi).1
    cases v with
    | int n =>
      intro hn
      have : getInt n = n := by
        unfold getInt
        rw [BitVec.toInt_ofInt]
        exact Int.bmod_eq_of_le (by omega) (by omega)
      simp [leafSet, floatOf, setOpt, shown, h1, this]
    | flt y => simp [Stored, leafSet, floatOf, setOpt, shown, h1]
    | half y => simp [Stored, leafSet, floatOf, setOpt, shown, h1]
    | dbl y => simp [Stored, leafSet, floatOf, setOpt, shown, h1]
    | _ => rfl
  | bool l =>
    rw [dump] at hx
    cases hx
    have h1 : ∀ w, l.get (l.set w c) = w := fun w => (hw c w hi).1
    cases v with
    | bool y => simp [Stored, leafSet, boolOf, setOpt, shown, h1]
    | _ => rfl
  | enum cs l =>
    have h1 : x = .null ∨ ∃ t, x = .text t := by
      rw [dump] at hx
      cases hx
      unfold enumOut
      generalize cs.filter (fun m => decide (m.1 = l.get c)) = fl
      cases fl with
      | nil => exact Or.inl rfl
      | cons a as => exact Or.inr ⟨a.2, rfl⟩
    have h2 : ∀ v, (∀ t, v ≠ .text t) → shown (.enum cs l) (leafSet (.enum cs l) (some v) c) = x := by
      intro v hv
      have h3 : enumSet cs (some v) (l.get c) = l.get c := by
        unfold enumSet
        split
        · rename_i h; cases h; exact absurd rfl (hv _)
        · rfl
      rw [leafSet, h3, hw.2.1]
      rw [dump] at hx
      cases hx
      rfl
    rcases h1 with rfl | ⟨t, rfl⟩
    · cases v with
      | text t => exact enumOut_leaf _ _
      | _ => exact h2 _ (by simp)
    · cases v with
      | text t => exact enumOut_leaf _ _
      | _ => exact h2 _ (by simp)
  | text l =>
    rw [dump] at hx
    cases hx
    cases v with
    | text t => rfl
    | _ => rfl
  | const t =>
    rw [dump] at hx
    cases hx
    cases v <;> rfl
  | map _ _ _ => cases hm
  | arr _ _ _ => cases hm
  | deref _ _ => cases hm
  | oob => cases hm

omit [FloatFmt] [LibM] in
/-- The node at a path is well-formed too. -/
theorem wf_at {σ : Type} {I : σ → Prop} {n m : Node σ} (hw : WF I n) {p : List Item} {s : σ}
    (h : n.at p s = some m) : WF I m := by
  induction n generalizing p with
  | map ids child post ih =>
    cases p with
    | nil => rw [Node.at] at h; cases h; exact hw
    | cons k r =>
      rw [Node.at] at h
      cases hf : (List.range ids.length).find? (fun i => pathMatchStr (k :: r) (ids.getD i "")) with
      | none => rw [hf] at h; cases h
      | some i =>
        rw [hf] at h
        exact ih i (hw.1 i (List.mem_range.mp (List.mem_of_find?_eq_some hf))) h
  | arr resize count elem ih =>
    cases p with
    | nil => rw [Node.at] at h; cases h; exact hw
    | cons k r =>
      rw [Node.at] at h
      cases hf : (List.range (count s)).find? (fun i => pathMatchInt (k :: r) i) with
      | none => rw [hf] at h; cases h
      | some i => rw [hf] at h; exact ih i (hw.1 i) h
  | deref f n ih => rw [Node.at] at h; exact ih hw.1 h
  | _ =>
    cases p with
    | nil => simp only [Node.at, List.isEmpty_nil, if_true, Option.some.injEq] at h; rw [← h]; exact hw
    | cons k r => simp [Node.at] at h

omit [FloatFmt] [LibM] in
/-- Replacing at a path and looking there again. -/
theorem follow_replace {p : List Item} {d x : Item} (h : d.follow p = some x) (r : Item) :
    (d.replace p r).follow p = some r := by
  induction p generalizing d with
  | nil => rfl
  | cons k p ih =>
    simp only [Item.follow] at h
    cases hs : Item.step k d with
    | none => rw [hs] at h; cases h
    | some y =>
      rw [hs] at h
      have h1 := ih h
      simp only [Item.replace, Item.follow]
      have : Item.step k (Item.stepMap k (fun x => Item.replace p x r) d) = some (y.replace p r) := by
        cases d with
        | map l =>
          cases k with
          | text t =>
            simp only [Item.step, Item.stepMap] at hs ⊢
            exact lookup_replaceKey l hs
          | _ => cases hs
        | arr b l =>
          cases k with
          | int n =>
            simp only [Item.step, Item.stepMap] at hs ⊢
            by_cases hn : 0 ≤ n
            · simp only [hn, if_true] at hs ⊢
              simp [hs]
            · simp [hn] at hs
          | _ => cases hs
        | _ => cases hs
      rw [this]
      exact h1

/-- The outcome of a set at a leaf. -/
theorem set_leaf {c : Console} (hc : Loaded c) {full : Item}
    (hd : dump (consoleTree rate version) c = .ok full) {p : List Item} {x : Item}
    (hx : full.follow p = some x) (hl : x.isLeaf = true) {v : Item}
    (hv : v.isLeaf = true ∨ Item.text "values" ∉ p) {c' : Console} {rs : List Item}
    (h : request (consoleTree rate version) true p (some v) c = .ok (c', rs)) :
    ∃ r, rs = [r] ∧ Stored x v r ∧ r.isLeaf = true ∧ Loaded c' ∧ c'.hidden = c.hidden ∧
      dump (consoleTree rate version) c' = .ok (full.replace p r) := by
  have hw := wf_console rate version
  have hf := follow_dump _ hw c hc p full hd
  cases hat : (consoleTree rate version).at p c with
  | none => rw [hat] at hf; rw [hf] at hx; cases hx
  | some m =>
    rw [hat] at hf
    obtain ⟨y, h1, h2⟩ := hf
    rw [hx] at h2
    cases h2
    have hml := at_leaf hat h1 hl
    have hcalm : (consoleTree rate version).calm v p c := by
      rcases hv with hv | hv
      · exact calm_leaf hv _ _ _
      · refine calm_console rate version v p c hv fun m' hm' => ?_
        rw [hat] at hm'
        cases hm'
        exact hml
    rw [request_set rate version hc hd (not_pastLeaf hx) hcalm] at h
    unfold setResult at h
    rw [hat] at h
    dsimp only at h
    obtain ⟨h3, h4⟩ := dump_leafSet _ hw c hc p full hd m hat hml (some v)
    cases hp : runPosts (consoleTree rate version) p c (leafSet m (some v) c) with
    | error e => rw [hp] at h; cases h
    | ok s' =>
      rw [hp] at h
      cases h
      have h5 : Loaded (leafSet m (some v) c) := steps_inv hw hc h3
      obtain ⟨h6, h7⟩ := dump_runPosts _ hw c _ c' h5 p hp
      refine ⟨_, rfl, stored_leaf hml (wf_at hw hat) hc h1 v, ?_, steps_inv hw h5 h6, ?_, by rw [h7, h4]⟩
      · cases m with
        | enum cs l => exact enumOut_leaf _ _
        | map _ _ _ => cases hml
        | arr _ _ _ => cases hml
        | deref _ _ => cases hml
        | oob => cases hml
        | _ => rfl
      · rw [steps_eq hw Console.hidden (keeps_hidden rate version) h5 h6,
          steps_eq hw Console.hidden (keeps_hidden rate version) hc h3]

/-- C49, for a set of a value at a path that leads to a single setting: if the request is answered with
`r`, then `r` is what the value means for that setting (`Stored`), the full dump afterwards is the full
dump before with `r` at the path and nothing else changed, a get of the path answers `r`, and nothing that
no request shows has changed either.  Excepted: a list or map sent to a path through the values of an axis
(see `C49_full_false`). -/
theorem C49_set_partial {c : Console} (hc : Loaded c) {req0 : List Item} (h0 : IsGet req0 []) {full : Item}
    (hfull : Answers (processRequest rate version struct req0 c) c full) {p : List Item} {x : Item}
    (hx : full.follow p = some x) (hl : x.isLeaf = true) {v : Item}
    (hv : v.isLeaf = true ∨ Item.text "values" ∉ p) {req : List Item} (hreq : IsSet req p v)
    {c' : Console} {r : Item} (hr : Answers (processRequest rate version struct req c) c' r) :
    Stored x v r ∧ Loaded c' ∧ c'.hidden = c.hidden ∧
      Answers (processRequest rate version struct req0 c') c' (full.replace p r) ∧
      ∀ reqp, IsGet reqp p → Answers (processRequest rate version struct reqp c') c' r := by
  have hd := dump_of_answers rate version struct hc h0 hfull
  obtain ⟨rs, h1, h2, _⟩ := (answers_set rate version struct hreq).mp hr
  obtain ⟨r', rfl, h3, h4, h5, h6, h7⟩ := set_leaf rate version hc hd hx hl hv h1
  rw [(lookup_answer _ _).1] at h2
  cases h2
  refine ⟨h3, h5, h6, ?_, ?_⟩
  · have hp : ¬PastLeaf [] (full.replace p r) := by rintro ⟨q, k, r, y, h1, _⟩; simp at h1
    exact get_answers rate version struct h5 h7 h0 hp
  · intro reqp hq
    have hfol := follow_replace hx r
    have := get_answers rate version struct h5 h7 hq (not_pastLeaf hfol)
    rw [hfol] at this
    exact this

/-- A set of a value at a single setting is answered, except below a knock sensor (where the filter is set
up anew, see `C49_knock_full_false`). -/
theorem C49_answered_partial {c : Console} (hc : Loaded c) {req0 : List Item} (h0 : IsGet req0 []) {full : Item}
    (hfull : Answers (processRequest rate version struct req0 c) c full) {p : List Item}
    (hp : ¬PastLeaf p full) (hk : ¬KnockPath p) {v : Item} (hv : v.isLeaf = true)
    {req : List Item} (hreq : IsSet req p v) :
    ∃ c' r, Answers (processRequest rate version struct req c) c' r := by
  have hd := dump_of_answers rate version struct hc h0 hfull
  have h := request_set rate version hc hd hp (calm_leaf hv _ _ _)
  unfold setResult at h
  cases hat : (consoleTree rate version).at p c with
  | none =>
    rw [hat] at h
    dsimp only at h
    rw [posts_console rate version p c _ hk] at h
    exact ⟨_, _, (answers_set rate version struct hreq).mpr ⟨_, h, lookup_answer _ _⟩⟩
  | some m =>
    rw [hat] at h
    dsimp only at h
    rw [posts_console rate version p c _ hk] at h
    exact ⟨_, _, (answers_set rate version struct hreq).mpr ⟨_, h, lookup_answer _ _⟩⟩

/-- C49, the last clause: a set of a single value whose path does not exist is answered with null and
changes nothing that is shown, and nothing at all outside the knock sensors. -/
theorem C49_absent_partial {c : Console} (hc : Loaded c) {req0 : List Item} (h0 : IsGet req0 []) {full : Item}
    (hfull : Answers (processRequest rate version struct req0 c) c full) {p : List Item}
    (hx : full.follow p = none) (hp : ¬PastLeaf p full) {v : Item} (hv : v.isLeaf = true)
    {req : List Item} (hreq : IsSet req p v)
    {c' : Console} {r : Item} (hr : Answers (processRequest rate version struct req c) c' r) :
    r = .null ∧ c'.hidden = c.hidden ∧ (¬KnockPath p → c' = c) ∧
      Answers (processRequest rate version struct req0 c') c' full := by
  have hw := wf_console rate version
  have hd := dump_of_answers rate version struct hc h0 hfull
  obtain ⟨rs, h1, h2, _⟩ := (answers_set rate version struct hreq).mp hr
  rw [request_set rate version hc hd hp (calm_leaf hv _ _ _)] at h1
  have hf := follow_dump _ hw c hc p full hd
  cases hat : (consoleTree rate version).at p c with
  | some m =>
    rw [hat] at hf
    obtain ⟨y, _, hy⟩ := hf
    rw [hx] at hy; cases hy
  | none =>
    unfold setResult at h1
    rw [hat] at h1
    dsimp only at h1
    cases hps : runPosts (consoleTree rate version) p c c with
    | error e => rw [hps] at h1; cases h1
    | ok s' =>
      rw [hps] at h1
      cases h1
      obtain ⟨h6, h7⟩ := dump_runPosts _ hw c _ c' hc p hps
      have h8 : lookupKey "response" _ = some Item.null := (lookup_answer (requestId req) .null).1
      refine ⟨?_, steps_eq hw Console.hidden (keeps_hidden rate version) hc h6, fun hk => ?_, ?_⟩
      · simp only [List.nil_append] at h2
        rw [h8] at h2
        exact (Option.some.inj h2).symm
      · rw [posts_console rate version p c _ hk] at hps
        cases hps; rfl
      · have hp0 : ¬PastLeaf [] full := by rintro ⟨q, k, r, y, h1, _⟩; simp at h1
        exact get_answers rate version struct (steps_inv hw hc h6) (by rw [h7, hd]) h0 hp0

/-- C49: a single value sent to a map or a list changes nothing that is shown. -/
theorem C49_container_partial {c : Console} (hc : Loaded c) {req0 : List Item} (h0 : IsGet req0 []) {full : Item}
    (hfull : Answers (processRequest rate version struct req0 c) c full) {p : List Item} {x : Item}
    (hx : full.follow p = some x) (hl : x.isLeaf = false) {v : Item} (hv : v.isLeaf = true)
    {req : List Item} (hreq : IsSet req p v)
    {c' : Console} {r : Item} (hr : Answers (processRequest rate version struct req c) c' r) :
    c'.hidden = c.hidden ∧ (¬KnockPath p → c' = c) ∧
      Answers (processRequest rate version struct req0 c') c' full := by
  have hw := wf_console rate version
  have hd := dump_of_answers rate version struct hc h0 hfull
  obtain ⟨rs, h1, h2, _⟩ := (answers_set rate version struct hreq).mp hr
  rw [request_set rate version hc hd (not_pastLeaf hx) (calm_leaf hv _ _ _)] at h1
  have hf := follow_dump _ hw c hc p full hd
  cases hat : (consoleTree rate version).at p c with
  | none => rw [hat] at hf; rw [hf] at hx; cases hx
  | some m =>
    rw [hat] at hf
    obtain ⟨y, hy1, hy⟩ := hf
    rw [hx] at hy; cases hy
    have hm := at_container hy1 hl
    have hsame : leafSet m (some v) c = c := by
      cases m <;> first | rfl | cases hm
    unfold setResult at h1
    rw [hat] at h1
    dsimp only at h1
    rw [hsame] at h1
    cases hps : runPosts (consoleTree rate version) p c c with
    | error e => rw [hps] at h1; cases h1
    | ok s' =>
      rw [hps] at h1
      cases h1
      obtain ⟨h6, h7⟩ := dump_runPosts _ hw c _ c' hc p hps
      refine ⟨steps_eq hw Console.hidden (keeps_hidden rate version) hc h6, fun hk => ?_, ?_⟩
      · rw [posts_console rate version p c _ hk] at hps
        cases hps; rfl
      · have hp0 : ¬PastLeaf [] full := by rintro ⟨q, k, r, y, h1, _⟩; simp at h1
        exact get_answers rate version struct (steps_inv hw hc h6) (by rw [h7, hd]) h0 hp0


/-! ### C51 -/

omit [FloatFmt] [LibM] in
theorem enumSet_hit {cs : List (Int × String)} (hn : (cs.map Prod.snd).Nodup) {m : Int × String} (hm : m ∈ cs)
    (cur : Int) : enumSet cs (some (.text m.2)) cur = m.1 := by
  unfold enumSet
  dsimp only
  induction cs generalizing cur with
  | nil => cases hm
  | cons a as ih =>
    rw [List.foldl_cons]
    simp only [List.map_cons, List.nodup_cons] at hn
    have hskip : ∀ (l : List (Int × String)) x, m.2 ∉ l.map Prod.snd →
        l.foldl (fun c k => if m.2 = k.2 then k.1 else c) x = x := by
      intro l
      induction l with
      | nil => intro x _; rfl
      | cons b bs ihb =>
        intro x hx
        simp only [List.map_cons, List.mem_cons, not_or] at hx
        rw [List.foldl_cons, if_neg hx.1, ihb _ hx.2]
    rcases List.mem_cons.mp hm with rfl | h
    · rw [if_pos rfl]
      exact hskip _ _ hn.1
    · exact ih hn.2 h _

omit [FloatFmt] [LibM] in
theorem enumSet_miss {cs : List (Int × String)} {v : Item} (hv : ∀ s ∈ cs.map Prod.snd, v ≠ .text s)
    (cur : Int) : enumSet cs (some v) cur = cur := by
  unfold enumSet
  split
  · rename_i t h
    cases h
    induction cs generalizing cur with
    | nil => rfl
    | cons a as ih =>
      rw [List.foldl_cons, if_neg (fun h => hv a.2 (by simp) (by rw [h]))]
      exact ih _ (fun s hs => hv s (by rw [List.map_cons]; exact List.mem_cons_of_mem _ hs))
  · rfl

omit [FloatFmt] [LibM] in
theorem enumOut_hit {cs : List (Int × String)} (hn : (cs.map Prod.fst).Nodup) {m : Int × String} (hm : m ∈ cs) :
    (enumOut cs m.1).headD .null = .text m.2 := by
  have : cs.filter (fun k => decide (k.1 = m.1)) = [m] := by
    induction cs with
    | nil => cases hm
    | cons a as ih =>
      simp only [List.map_cons, List.nodup_cons] at hn
      rcases List.mem_cons.mp hm with rfl | h
      · rw [List.filter_cons_of_pos (by simp)]
        congr 1
        rw [List.filter_eq_nil_iff]
        intro k hk
        simp only [decide_eq_true_eq]
        intro he
        exact hn.1 (by rw [← he]; exact List.mem_map_of_mem hk)
      · rw [List.filter_cons_of_neg, ih hn.2 h]
        simp only [decide_eq_true_eq]
        intro he
        exact hn.1 (by rw [he]; exact List.mem_map_of_mem h)
  simp [enumOut, this]

/-- An enumerated setting: the texts `ts`, and a code that is always one of the listed ones. -/
def IsEnum (n : Node Console) (ts : List String) : Prop :=
  ∃ cs l, n = .enum cs l ∧ cs.map Prod.snd = ts ∧ ∀ s, l.get s ∈ cs.map Prod.fst

omit [FloatFmt] [LibM] in
theorem isEnum_code {α β : Type} {l : Lens Console α} {l' : Lens α β} {code : β → Int} {ofCode : Int → β}
    {cs : List (Int × String)} (h : ∀ x, code x ∈ cs.map Prod.fst) :
    IsEnum (.enum cs (l.comp (l'.comp (codeLens code ofCode)))) (cs.map Prod.snd) :=
  ⟨_, _, rfl, rfl, fun _ => h _⟩

theorem at_enum (c : Console) : ∀ e ∈ enumFields, ∃ n, (consoleTree rate version).at e.1 c = some n ∧ IsEnum n e.2 := by
  have sens : ∀ i : Fin 10, ∀ r, (consoleTree rate version).at (.text "sensors" ::
      .text (["map", "iat", "clt", "brv", "tps", "aap", "frt", "ego", "frp", "eth"].getD i "") :: r) c =
      (sensorNode (Lens.comp (fld% cfg.sensors) (Lens.ix i))).at r c := by
    intro i r
    rw [show consoleTree rate version = Node.fields _ from rfl, at_fields (n := sensorsNode rate) (by simp) (by simp)]
    revert i
    intro i
    fin_cases i <;> rfl
  have sensIx : ∀ t ∈ ["map", "iat", "clt", "brv", "tps", "aap", "frt", "ego", "frp", "eth"],
      ∃ i : Fin 10, t = ["map", "iat", "clt", "brv", "tps", "aap", "frt", "ego", "frp", "eth"].getD i "" := by
    intro t ht
    obtain ⟨i, hi, h⟩ := List.mem_iff_getElem.mp ht
    exact ⟨⟨i, hi⟩, by rw [List.getD_eq_getElem?_getD, List.getElem?_eq_getElem hi, h]; rfl⟩
  have hcons : ∀ (t : String) (n : Node Console) (r : List Item), (t, n) ∈ [
    ("decoder", decoderNode),
    ("sensors", sensorsNode rate),
    ("outputs", outputsNode),
    ("fueling", fuelingNode),
    ("ignition", ignitionNode),
    ("tables", tablesNode),
    ("boost-control", boostNode),
    ("check-engine-light", celNode),
    ("freq", freqListNode),
    ("test", testNode),
    ("info", .fields [("version", .const version)])] →
    (consoleTree rate version).at (.text t :: r) c = n.at r c := by
    intro t n r h
    unfold consoleTree
    exact at_fields (by simp) h r c
  intro e he
  simp only [enumFields, List.mem_append, List.mem_singleton, List.mem_map, List.mem_range] at he
  rcases he with ((((rfl | ⟨i, hi, rfl⟩) | ⟨t, ht, rfl⟩) | ⟨t, ht, rfl⟩) | ⟨i, hi, rfl⟩) | ⟨i, hi, rfl⟩
  · exact ⟨_, rfl, _, _, rfl, rfl, fun s => by
      show s.cfg.decoder.type.code ∈ _
      cases s.cfg.decoder.type <;> decide⟩
  · rw [hcons "outputs" outputsNode _ (by simp)]
    unfold outputsNode
    rw [at_fixedArr (by decide) i hi]
    exact ⟨_, rfl, isEnum_code (by intro x; cases x <;> decide)⟩
  · obtain ⟨i, rfl⟩ := sensIx t ht
    rw [sens]
    exact ⟨_, rfl, isEnum_code (by intro x; cases x <;> decide)⟩
  · obtain ⟨i, rfl⟩ := sensIx t ht
    rw [sens]
    exact ⟨_, rfl, isEnum_code (by intro x; cases x <;> decide)⟩
  · rw [hcons "freq" freqListNode _ (by simp)]
    unfold freqListNode
    rw [at_fixedArr (by decide) i hi]
    exact ⟨_, rfl, isEnum_code (by intro x; cases x <;> decide)⟩
  · rw [hcons "freq" freqListNode _ (by simp)]
    unfold freqListNode
    rw [at_fixedArr (by decide) i hi]
    exact ⟨_, rfl, isEnum_code (by intro x; cases x <;> decide)⟩

omit [FloatFmt] [LibM] in
theorem enumFields_path : ∀ e ∈ enumFields, Item.text "values" ∉ e.1 ∧ ¬KnockPath e.1 := by
  intro e he
  simp only [enumFields, List.mem_append, List.mem_singleton, List.mem_map, List.mem_range] at he
  rcases he with ((((rfl | ⟨i, hi, rfl⟩) | ⟨t, ht, rfl⟩) | ⟨t, ht, rfl⟩) | ⟨i, hi, rfl⟩) | ⟨i, hi, rfl⟩
  all_goals refine ⟨?_, ?_⟩
  all_goals first
    | (simp; done)
    | (rintro ⟨r, h | h⟩ <;> simp at h <;> done)
    | skip
  all_goals first
    | (rintro ⟨r, h | h⟩ <;>
       · simp only [List.cons.injEq, Item.text.injEq, true_and] at h
         rw [h.1] at ht
         exact absurd ht (by decide))
    | (simp only [List.mem_cons, Item.text.injEq, List.not_mem_nil, or_false, not_or]
       exact ⟨by decide, fun h => absurd (h ▸ ht) (by decide), by decide⟩)

/-- A set at a path that leads to a single setting outside the knock sensors. -/
theorem request_leaf {c : Console} (hc : Loaded c) {p : List Item} {m : Node Console}
    (hat : (consoleTree rate version).at p c = some m) (hm : m.isLeaf = true) (hk : ¬KnockPath p) {v : Item}
    (hv : v.isLeaf = true ∨ Item.text "values" ∉ p) :
    request (consoleTree rate version) true p (some v) c =
      .ok (leafSet m (some v) c, [shown m (leafSet m (some v) c)]) := by
  obtain ⟨full, hd⟩ := shows_console rate version c hc
  have hf := follow_dump _ (wf_console rate version) c hc p full hd
  rw [hat] at hf
  obtain ⟨y, h1, h2⟩ := hf
  have hcalm : (consoleTree rate version).calm v p c := by
    rcases hv with hv | hv
    · exact calm_leaf hv _ _ _
    · refine calm_console rate version v p c hv fun m' hm' => ?_
      rw [hat] at hm'
      cases hm'
      exact hm
  rw [request_set rate version hc hd (not_pastLeaf h2) hcalm]
  unfold setResult
  rw [hat]
  dsimp only
  rw [posts_console rate version p _ _ hk]
  rfl

/-- A get at a path that leads somewhere. -/
theorem request_at {c : Console} (hc : Loaded c) {p : List Item} {m : Node Console}
    (hat : (consoleTree rate version).at p c = some m) {x : Item} (hx : dump m c = .ok x) :
    request (consoleTree rate version) false p none c = .ok (c, [x]) := by
  obtain ⟨full, hd⟩ := shows_console rate version c hc
  have hf := follow_dump _ (wf_console rate version) c hc p full hd
  rw [hat] at hf
  obtain ⟨y, h1, h2⟩ := hf
  rw [hx] at h1
  cases h1
  rw [request_get rate version hc hd (not_pastLeaf h2), h2]
  rfl

/-- C51, reading: every enumerated setting shows one of its texts. -/
theorem C51_get {c : Console} (hc : Loaded c) {e : List Item × List String} (he : e ∈ enumFields) :
    ∃ t ∈ e.2, ∀ req, IsGet req e.1 → Answers (processRequest rate version struct req c) c (.text t) := by
  obtain ⟨n, hat, cs, l, rfl, hcs, hl⟩ := at_enum rate version c e he
  have hw := wf_at (wf_console rate version) hat
  obtain ⟨-, -, -, h1, h2⟩ := hw
  obtain ⟨m, hm, hmc⟩ := List.mem_map.mp (hl c)
  refine ⟨m.2, by rw [← hcs]; exact List.mem_map_of_mem hm, fun req hr => ?_⟩
  refine (answers_get rate version struct hr).mpr ⟨_, request_at rate version hc hat (x := .text m.2) ?_, lookup_answer _ _⟩
  rw [dump, ← hmc, enumOut_hit h1 hm]

/-- C51, writing: a set of an enumerated setting is answered with the text the setting then has, which is
one of its texts and which a later get answers too.  It is the text sent if that is one of them, and
otherwise, whatever was sent, nothing has changed. -/
theorem C51_set {c : Console} (hc : Loaded c) {e : List Item × List String} (he : e ∈ enumFields) {v : Item}
    {req : List Item} (hreq : IsSet req e.1 v) :
    ∃ c' t, t ∈ e.2 ∧ Answers (processRequest rate version struct req c) c' (.text t) ∧
      (∀ reqp, IsGet reqp e.1 → Answers (processRequest rate version struct reqp c') c' (.text t)) ∧
      (∀ s ∈ e.2, v = .text s → t = s) ∧ ((∀ s ∈ e.2, v ≠ .text s) → c' = c) := by
  obtain ⟨n, hat, cs, l, rfl, hcs, hl⟩ := at_enum rate version c e he
  obtain ⟨hval, hk⟩ := enumFields_path e he
  have hw := wf_at (wf_console rate version) hat
  have h := request_leaf rate version hc hat rfl hk (Or.inr hval) (v := v)
  obtain ⟨hw1, hw2, hw3, h1, h2⟩ := hw
  set c' := l.set (enumSet cs (some v) (l.get c)) c with hc'
  have hload : Loaded c' := hw1 _ _ hc
  obtain ⟨m, hm, hmc⟩ := List.mem_map.mp (hl c')
  have hsh : (enumOut cs (l.get c')).headD .null = .text m.2 := by rw [← hmc, enumOut_hit h1 hm]
  have hat' : ∃ n', (consoleTree rate version).at e.1 c' = some n' ∧ dump n' c' = .ok (.text m.2) := by
    obtain ⟨full, hd⟩ := shows_console rate version c hc
    obtain ⟨-, hd'⟩ := dump_leafSet _ (wf_console rate version) c hc e.1 full hd _ hat rfl (some v)
    have hf := follow_dump _ (wf_console rate version) c hc e.1 full hd
    rw [hat] at hf
    obtain ⟨y, -, hy⟩ := hf
    have hf' := follow_dump _ (wf_console rate version) c' hload e.1 _ hd'
    rw [follow_replace hy] at hf'
    cases hat' : (consoleTree rate version).at e.1 c' with
    | none => rw [hat'] at hf'; cases hf'
    | some n' =>
      rw [hat'] at hf'
      obtain ⟨z, hz, hz'⟩ := hf'
      cases hz'
      refine ⟨n', rfl, ?_⟩
      rw [hz]
      show Except.ok ((enumOut cs (l.get c')).headD .null) = _
      rw [hsh]
  refine ⟨c', m.2, by rw [← hcs]; exact List.mem_map_of_mem hm, ?_, ?_, ?_, ?_⟩
  · refine (answers_set rate version struct hreq).mpr ⟨_, h, ?_⟩
    rw [show shown (.enum cs l) (leafSet (.enum cs l) (some v) c) = .text m.2 from hsh]
    exact lookup_answer _ _
  · intro reqp hr
    obtain ⟨n', hn', hx⟩ := hat'
    exact (answers_get rate version struct hr).mpr ⟨_, request_at rate version hload hn' hx, lookup_answer _ _⟩
  · rintro s hs rfl
    rw [← hcs] at hs
    obtain ⟨k, hk, rfl⟩ := List.mem_map.mp hs
    have : l.get c' = k.1 := by rw [hc', enumSet_hit h2 hk, hw3 _ _ hc hk]
    rw [this, enumOut_hit h1 hk] at hsh
    exact (Item.text.inj hsh).symm
  · intro hv
    rw [hc', enumSet_miss (by rw [hcs]; exact hv), hw2]

/-! ### Texts -/

theorem at_title (c : Console) : ∀ p ∈ titleFields, (∃ l, (consoleTree rate version).at p c = some (.text l)) ∧
    Item.text "values" ∉ p ∧ ¬KnockPath p := by
  intro p hp
  refine ⟨?_, ?_, ?_⟩
  · revert p
    simp only [titleFields, List.flatMap_cons, List.flatMap_nil, List.map_cons, List.map_nil, List.cons_append,
      List.nil_append, List.forall_mem_cons, List.not_mem_nil]
    refine ⟨⟨_, rfl⟩, ⟨_, rfl⟩, ⟨_, rfl⟩, ⟨_, rfl⟩, ⟨_, rfl⟩, ⟨_, rfl⟩, ⟨_, rfl⟩, ⟨_, rfl⟩, ⟨_, rfl⟩, ⟨_, rfl⟩,
      ⟨_, rfl⟩, ⟨_, rfl⟩, ⟨_, rfl⟩, ⟨_, rfl⟩, ⟨_, rfl⟩, ⟨_, rfl⟩, ⟨_, rfl⟩, ⟨_, rfl⟩, ⟨_, rfl⟩, ⟨_, rfl⟩,
      ⟨_, rfl⟩, ⟨_, rfl⟩, ⟨_, rfl⟩, ⟨_, rfl⟩, ⟨_, rfl⟩, fun _ h => h.elim⟩
  · revert p
    simp [titleFields]
  · rintro ⟨r, h | h⟩ <;> subst h <;> simp [titleFields] at hp

/-- C49 for the texts: a text of at most 24 bytes without a zero is stored in a title or an axis name, and
a longer one changes nothing. -/
theorem C49_text_partial {c : Console} (hc : Loaded c) {p : List Item} (hp : p ∈ titleFields) {t : String}
    {req : List Item} (hreq : IsSet req p (.text t)) :
    ∃ c' r, Answers (processRequest rate version struct req c) c' r ∧
      (t.utf8ByteSize ≤ 24 → '\x00' ∉ t.toList → r = .text t) ∧ (24 < t.utf8ByteSize → c' = c) := by
  obtain ⟨⟨l, hat⟩, hval, hk⟩ := at_title rate version c p hp
  have hw := wf_at (wf_console rate version) hat
  have h := request_leaf rate version hc hat rfl hk (Or.inl rfl) (v := .text t)
  refine ⟨_, _, (answers_set rate version struct hreq).mpr ⟨_, h, lookup_answer _ _⟩, fun h1 h2 => ?_, fun h1 => ?_⟩
  · have : titleOf (some (.text t)) = some t := by
      rw [titleOf, if_pos h1, cString]
      congr 1
      have : ∀ l : List Char, '\x00' ∉ l → l.takeWhile (· ≠ '\x00') = l := by
        intro l
        induction l with
        | nil => intro _; rfl
        | cons a as ih =>
          intro h
          simp only [List.mem_cons, not_or] at h
          rw [List.takeWhile_cons_of_pos (by simpa using fun h' => h.1 h'.symm), ih h.2]
      rw [this _ h2, String.ofList_toList]
    show Item.text (l.get (setOpt l (titleOf (some (.text t))) c)) = _
    rw [this]
    exact congrArg _ (hw c t hc).1
  · show setOpt l (titleOf (some (.text t))) c = c
    rw [titleOf, if_neg (by show ¬ t.utf8ByteSize ≤ 24; omega)]
    rfl

/-! ### Where C49 and C50 fail -/

/-- The shipped configuration, with its texts left empty. -/
def dfltConsole : Console :=
  { cfg := dfltConfig, title := fun _ => "", colName := fun _ => "", rowName := fun _ => "",
    freq := fun i => if i.val < 2 then ⟨.rising, .trigger⟩ else if i.val = 2 then ⟨.rising, .freq⟩ else ⟨.falling, .freq⟩,
    logging := false, testRpm := 0, testArmed := false }

omit [LibM] in
theorem dfltConsole_loaded : Loaded dfltConsole :=
  ⟨⟨_, rfl, Nat.le_of_ble_eq_true rfl, Nat.le_of_ble_eq_true rfl⟩,
   ⟨_, rfl, Nat.le_of_ble_eq_true rfl, Nat.le_of_ble_eq_true rfl⟩,
   ⟨_, rfl, Nat.le_of_ble_eq_true rfl⟩,
   ⟨_, rfl, Nat.le_of_ble_eq_true rfl, Nat.le_of_ble_eq_true rfl⟩,
   ⟨_, rfl, Nat.le_of_ble_eq_true rfl⟩,
   ⟨_, rfl, Nat.le_of_ble_eq_true rfl⟩,
   ⟨_, rfl, Nat.le_of_ble_eq_true rfl, Nat.le_of_ble_eq_true rfl⟩,
   ⟨_, rfl, Nat.le_of_ble_eq_true rfl, Nat.le_of_ble_eq_true rfl⟩,
   ⟨_, rfl, Nat.le_of_ble_eq_true rfl⟩,
   ⟨_, rfl, Nat.le_of_ble_eq_true rfl⟩⟩

omit [FloatFmt] [LibM] in
def getReq (p : List Item) : List Item := [.text "id", .int 5, .text "method", .text "get", .text "path", .arr true p]
omit [FloatFmt] [LibM] in
def setReq (p : List Item) (v : Item) : List Item :=
  [.text "id", .int 5, .text "method", .text "set", .text "path", .arr true p, .text "value", v]
omit [FloatFmt] [LibM] in
theorem isGet_getReq (p : List Item) : IsGet (getReq p) p := ⟨rfl, _, rfl⟩
omit [FloatFmt] [LibM] in
theorem isSet_setReq (p : List Item) (v : Item) : IsSet (setReq p v) p v := ⟨rfl, ⟨_, rfl⟩, rfl⟩

omit [FloatFmt] [LibM] in
theorem Answers.unique {res : Except Fault (Console × List Item × Effect)} {c c' : Console} {x y : Item}
    (h : Answers res c x) (h' : Answers res c' y) : c' = c ∧ y = x := by
  obtain ⟨l, h1, h2, -⟩ := h
  obtain ⟨l', h1', h2', -⟩ := h'
  rw [h1] at h1'
  cases h1'
  rw [h2] at h2'
  cases h2'
  exact ⟨rfl, rfl⟩

/-- C50 in full: a get of any path is answered with what the full dump has there, and with null if it has
nothing there. -/
def C50_full : Prop :=
  ∀ c, Loaded c → ∀ req0 full, IsGet req0 [] → Answers (processRequest rate version struct req0 c) c full →
    ∀ p req, IsGet req p → Answers (processRequest rate version struct req c) c ((full.follow p).getD .null)

/-- It fails: the rest of a path that goes on after a setting is ignored. -/
theorem C50_full_false : ¬C50_full rate version struct := by
  intro h
  obtain ⟨full, h0, -⟩ := C50_get_partial rate version struct dfltConsole_loaded
  have h1 := h _ dfltConsole_loaded (getReq []) full (isGet_getReq _) (h0 _ (isGet_getReq _))
    [.text "decoder", .text "offset", .text "x"] _ (isGet_getReq _)
  have hd := dump_of_answers rate version struct dfltConsole_loaded (isGet_getReq _) (h0 _ (isGet_getReq _))
  have h2 : Answers (processRequest rate version struct (getReq [.text "decoder", .text "offset", .text "x"]) dfltConsole)
      dfltConsole (.flt dfltConsole.cfg.decoder.offset) :=
    (answers_get rate version struct (isGet_getReq _)).mpr ⟨_, rfl, lookup_answer _ _⟩
  have hf : full.follow [.text "decoder", .text "offset", .text "x"] = none :=
    follow_dump _ (wf_console rate version) dfltConsole dfltConsole_loaded
      [.text "decoder", .text "offset", .text "x"] full hd
  rw [hf] at h1
  cases (h1.unique h2).2

/-- C49 in full: a set of any value at any path that is answered changes at most what the full dump has at
that path, and nothing at all if the full dump has nothing there. -/
def C49_full : Prop :=
  ∀ c, Loaded c → ∀ req0 full, IsGet req0 [] → Answers (processRequest rate version struct req0 c) c full →
    ∀ p v req, IsSet req p v → ∀ c' r, Answers (processRequest rate version struct req c) c' r →
      (full.follow p = none → c' = c) ∧
      ∀ x, full.follow p = some x → x.isLeaf = true →
        Answers (processRequest rate version struct req0 c') c' (full.replace p r)

/-- It fails: a path that goes on after a setting sets it. -/
theorem C49_full_false : ¬C49_full rate version struct := by
  intro h
  obtain ⟨full, h0, -⟩ := C50_get_partial rate version struct dfltConsole_loaded
  have hd := dump_of_answers rate version struct dfltConsole_loaded (isGet_getReq _) (h0 _ (isGet_getReq _))
  have hf : full.follow [.text "decoder", .text "rpm-limit-stop", .text "x"] = none :=
    follow_dump _ (wf_console rate version) dfltConsole dfltConsole_loaded
      [.text "decoder", .text "rpm-limit-stop", .text "x"] full hd
  have h1 := (h _ dfltConsole_loaded (getReq []) full (isGet_getReq _) (h0 _ (isGet_getReq _))
    [.text "decoder", .text "rpm-limit-stop", .text "x"] (.int 1) _ (isSet_setReq _ _) _ _
    ((answers_set rate version struct (isSet_setReq _ _)).mpr ⟨_, rfl, lookup_answer _ _⟩)).1 hf
  have h2 := congrArg (fun c => c.cfg.rpmStop) h1
  exact absurd h2 (by decide : ¬(1 : BitVec 32) = 6700)

omit [LibM] in
/-- A set through a map of settings. -/
theorem render_fields {σ : Type} {l : List (String × Node σ)} (hn : (l.map Prod.fst).Nodup) {t : String}
    {n : Node σ} (h : (t, n) ∈ l) (r : List Item) (v : Item) (s : σ) {s' : σ} {p' o : List Item}
    (hr : render n true (!r.isEmpty) (some v) { s := s, path := r, out := [] } = .ok { s := s', path := p', out := o }) :
    render (Node.fields l) true true (some v) { s := s, path := .text t :: r, out := [] } =
      .ok { s := s', path := p', out := o } := by
  unfold Node.fields
  rw [render]
  have hfl := fieldLoop_filtered (fun i => descendMap true true (some v) ((l.map Prod.fst).getD i ""))
    (fun i f v st' => render (l.getD i ("", .oob)).2 true f v st') (List.range (l.map Prod.fst).length)
    { s := s, path := .text t :: r, out := [] } (fun i => pathMatchStr (.text t :: r) ((l.map Prod.fst).getD i ""))
    (!r.isEmpty, some v, { s := s, path := r, out := [] })
    (fun i => by simp [descendMap, descend, mapValue])
  simp only [openOut, if_true]
  rw [hfl]
  obtain ⟨j, hj, hjl⟩ := List.mem_iff_getElem.mp h
  cases hf : (List.range (l.map Prod.fst).length).find?
      (fun i => pathMatchStr (.text t :: r) ((l.map Prod.fst).getD i "")) with
  | none =>
    rw [List.find?_eq_none] at hf
    have := hf j (by simpa using hj)
    simp [pathMatchStr, List.getD, hj, hjl] at this
  | some i =>
    obtain ⟨hi, hk⟩ := find_string hf
    have hij : i = j := by
      have h1 : (l.map Prod.fst).getD i "" = (l.map Prod.fst)[i] := by
        rw [List.getD_eq_getElem?_getD, List.getElem?_eq_getElem hi]; rfl
      rw [h1] at hk
      have h2 : (l.map Prod.fst)[j]'(by simpa using hj) = t := by simp [hjl]
      cases hk
      exact (List.Nodup.getElem_inj_iff hn).mp h2.symm
    subst hij
    have : (l.getD i ("", Node.oob)).2 = n := by
      rw [List.getD_eq_getElem?_getD, List.getElem?_eq_getElem hj, hjl]; rfl
    dsimp only
    rw [this, hr]
    rfl

/-- It also fails without going past a setting: a list sent to a value that an axis does not have resizes
the axis. -/
theorem C49_resize_full_false :
    ∃ c', Answers (processRequest rate version struct
        (setReq [.text "tables", .text "dwell", .text "horizontal-axis", .text "values", .int 99]
          (.arr true [.int 1])) dfltConsole) c' .null ∧
      (c'.cfg.dwell.getD noTable1).cols.num = 1 ∧ (dfltConsole.cfg.dwell.getD noTable1).cols.num = 4 := by
  let c' : Console := { dfltConsole with cfg := { dfltConfig with
    dwell := some { dfltDwell with cols := { dfltDwell.cols with num := 1 } } } }
  have h : request (consoleTree rate version) true
      [.text "tables", .text "dwell", .text "horizontal-axis", .text "values", .int 99]
      (some (.arr true [.int 1])) dfltConsole = .ok (c', [.null]) := by
    have h1 : render (consoleTree rate version) true true (some (.arr true [.int 1]))
        ⟨dfltConsole, [.text "tables", .text "dwell", .text "horizontal-axis", .text "values", .int 99], []⟩ =
        .ok ⟨c', [.int 99], [.null]⟩ := by
      refine render_fields (n := tablesNode) (by simp) (by simp) _ _ _ ?_
      refine render_fields (n := table1Node (fld% cfg.dwell) 2) (by simp) (by simp) _ _ _ ?_
      unfold table1Node
      dsimp only
      rw [render, if_neg (by rintro ⟨⟩)]
      refine render_fields (t := "horizontal-axis") (by simp) (List.mem_cons_of_mem _ List.mem_cons_self) _ _ _ ?_
      refine render_fields (t := "values") (by simp) (List.mem_cons_of_mem _ List.mem_cons_self) _ _ _ ?_
      rw [render]
      rfl
    unfold request
    rw [show (!List.isEmpty [Item.text "tables", Item.text "dwell", Item.text "horizontal-axis", Item.text "values",
      Item.int 99]) = true from rfl, h1]
  exact ⟨c', (answers_set rate version struct (isSet_setReq _ _)).mpr ⟨_, h, lookup_answer _ _⟩, rfl, rfl⟩

/-- Numbers from 2^31 on are not stored in an integer setting, although it holds 32 bits. -/
theorem C49_uint_full_false {m : Int} (hm : 2 ^ 31 ≤ m) (c : Console) :
    Answers (processRequest rate version struct (setReq [.text "decoder", .text "rpm-limit-stop"] (.int m)) c) c
      (.int c.cfg.rpmStop.toNat) := by
  have h : u32Of (some (.int m)) = none := by
    rw [u32Of, getIntChecked, if_neg (by omega)]; rfl
  refine (answers_set rate version struct (isSet_setReq _ _)).mpr ⟨_, ?_, lookup_answer _ _⟩
  have hs : setOpt (fld% cfg.rpmStop) (u32Of (some (.int m))) c = c := by rw [h]; rfl
  show Except.ok (setOpt (fld% cfg.rpmStop) (u32Of (some (.int m))) c,
    [Item.int ((setOpt (fld% cfg.rpmStop) (u32Of (some (.int m))) c).cfg.rpmStop.toNat)]) = _
  rw [hs]

/-- Negative numbers are stored in an integer setting modulo 2^32. -/
theorem C49_negative_full_false (c : Console) :
    ∃ c', Answers (processRequest rate version struct (setReq [.text "decoder", .text "rpm-limit-stop"] (.int (-1))) c)
      c' (.int 4294967295) :=
  ⟨_, (answers_set rate version struct (isSet_setReq _ _)).mpr ⟨_, rfl, lookup_answer _ _⟩⟩

/-- Integers that do not fit 32 bits are stored in a float setting modulo 2^32. -/
theorem C49_wide_full_false (c : Console) :
    ∃ c', Answers (processRequest rate version struct (setReq [.text "decoder", .text "offset"] (.int (2 ^ 32 + 5))) c)
      c' (.flt (FloatFmt.rnd ((5 : Int) : ℚ))) :=
  ⟨_, (answers_set rate version struct (isSet_setReq _ _)).mpr ⟨_, rfl, lookup_answer _ _⟩⟩

/-- A set below a knock sensor need not be answered at all: with a frequency that is not a number the
filter's bin is a float to integer conversion C does not define. -/
theorem C49_knock_full_false (c : Console) :
    processRequest rate version struct (setReq [.text "sensors", .text "knock1", .text "frequency"] (.flt .nan)) c =
      .error .floatToInt := by
  rw [process_set rate version struct (isSet_setReq _ _)]
  rfl

/-! ### C62 -/

omit [FloatFmt] [LibM] in
theorem fieldLoop_one {σ : Type} {desc : Nat → RSt σ → Option (Bool × Option Item × RSt σ)}
    {body : Nat → Bool → Option Item → RSt σ → Except Fault (RSt σ)}
    (hd : ∀ i st f v st', desc i st = some (f, v, st') → st'.out = st.out)
    (o : List Item) :
    ∀ is completed st b st', (∀ i ∈ is, ∀ f v st st', body i f v st = .ok st' → ∃ x, st'.out = st.out ++ [x]) →
      (completed = false → st.out = o) → (completed = true → ∃ x, st.out = o ++ [x]) →
      fieldLoop desc true body is completed st = .ok (b, st') →
      (b = false → st'.out = o) ∧ (b = true → ∃ x, st'.out = o ++ [x])
  | [], completed, st, b, st', hb, h0, h1, h => by
    cases h
    exact ⟨h0, h1⟩
  | i :: is, completed, st, b, st', hb, h0, h1, h => by
    have hb' := fun j hj => hb j (List.mem_cons_of_mem i hj)
    rw [fieldLoop] at h
    cases completed with
    | true => exact fieldLoop_one hd o is true st b st' hb' h0 h1 h
    | false =>
      rw [if_neg (by decide)] at h
      cases hi : desc i st with
      | none => rw [hi] at h; exact fieldLoop_one hd o is false st b st' hb' h0 h1 h
      | some t =>
        obtain ⟨f, v, st1⟩ := t
        rw [hi] at h
        dsimp only at h
        cases hbi : body i f v st1 with
        | error e => rw [hbi] at h; cases h
        | ok st2 =>
          rw [hbi] at h
          obtain ⟨x, hx⟩ := hb i List.mem_cons_self _ _ _ _ hbi
          refine fieldLoop_one hd o is true st2 b st' hb' (by simp) (fun _ => ⟨x, ?_⟩) h
          rw [hx, hd _ _ _ _ _ hi, h0 rfl]

omit [FloatFmt] [LibM] in
theorem descend_out {σ : Type} {hit : Bool} {w : Option (Option Item)} {key : List Item} {st st' : RSt σ} {f : Bool}
    {v : Option Item} (h : descend hit true w key st = some (f, v, st')) : st'.out = st.out := by
  unfold descend at h
  cases w with
  | none => cases h
  | some w =>
    dsimp only at h
    rw [if_pos rfl] at h
    cases hit <;> simp at h
    obtain ⟨-, -, rfl⟩ := h
    rfl

omit [LibM] in
/-- A renderer writes one item. -/
theorem render_one {σ : Type} {I : σ → Prop} (n : Node σ) (hw : WF I n) (isSet filtered : Bool) (value : Option Item)
    (st st' : RSt σ) (h : render n isSet filtered value st = .ok st') : ∃ x, st'.out = st.out ++ [x] := by
  induction n generalizing filtered value st st' with
  | u32 l => cases h; exact ⟨_, rfl⟩
  | flt l => cases h; exact ⟨_, rfl⟩
  | bool l => cases h; exact ⟨_, rfl⟩
  | text l => cases h; exact ⟨_, rfl⟩
  | const l => cases h; exact ⟨_, rfl⟩
  | oob => cases h
  | enum cs l =>
    cases h
    obtain ⟨-, -, -, h1, -⟩ := hw
    exact ⟨_, by rw [← enumOut_nodup h1]⟩
  | deref null n ih =>
    rw [render] at h
    split at h
    · cases h
    · exact ih hw.1 _ _ _ _ h
  | map ids child post ih =>
    rw [render] at h
    split at h
    · cases h
    · rename_i completed st1 hl
      split at h
      · cases h
      · rename_i s2 hs
        cases h
        cases filtered with
        | false => exact ⟨_, rfl⟩
        | true =>
          obtain ⟨h0, h1⟩ := fieldLoop_one (fun i a f v b hd => descend_out hd) st.out _ false _ _ _
            (fun i hi f v a b hb => ih i (hw.1 i (List.mem_range.mp hi)) f v a b hb) (fun _ => rfl) (by simp) hl
          cases completed with
          | false => exact ⟨.null, by simp [wrap, addNull, h0 rfl]⟩
          | true => simpa [wrap, addNull] using h1 rfl
  | arr resize count elem ih =>
    rw [render] at h
    split at h
    · cases h
    · rename_i completed st1 hl
      cases h
      cases filtered with
      | false => exact ⟨_, rfl⟩
      | true =>
        obtain ⟨h0, h1⟩ := fieldLoop_one (fun i a f v b hd => descend_out hd) st.out _ false _ _ _
          (fun i _ f v a b hb => ih i (hw.1 i) f v a b hb) (by intro _; rfl) (by simp) hl
        cases completed with
        | false => exact ⟨.null, by simp [wrap, addNull, h0 rfl]⟩
        | true => simpa [wrap, addNull] using h1 rfl

/-- How often a map has this key. -/
def keyCount (k : String) : List Item → Nat
  | .text t :: _ :: rest => (if t = k then 1 else 0) + keyCount k rest
  | _ :: _ :: rest => keyCount k rest
  | _ => 0

/-- The requests C62 holds for: one with a method, which is one of the six or has no path or no value. -/
def Understood (req : List Item) : Prop :=
  ∃ m, lookupKey "method" req = some m ∧
    (m ∈ [.text "ping", .text "structure", .text "flash", .text "bootloader", .text "get", .text "set"] ∨
      (∀ b p, lookupKey "path" req ≠ some (.arr b p)) ∨ lookupKey "value" req = none)

/-- A well formed answer to a request: it says it is one, has the request's number if that is an `int`, and
says once whether the request succeeded. -/
structure WellAnswered (req l : List Item) : Prop where
  type : lookupKey "type" l = some (.text "response")
  id : ∀ n, lookupKey "id" req = some (.int n) → -2 ^ 31 ≤ n → n < 2 ^ 31 → lookupKey "id" l = some (.int n)
  once : keyCount "success" l = 1
  flag : ∃ b, lookupKey "success" l = some (.bool b)

omit [FloatFmt] [LibM] in
theorem wellAnswered_of {req r : List Item} (h1 : keyCount "success" r = 1)
    (h2 : ∃ b, lookupKey "success" r = some (.bool b)) :
    WellAnswered req ([.text "type", .text "response", .text "id", .int (requestId req)] ++ r) := by
  refine ⟨by simp [lookupKey], fun n hn h3 h4 => ?_, by simpa [keyCount] using h1, by simpa [lookupKey] using h2⟩
  have : requestId req = n := by
    unfold requestId
    rw [mapFind_eq, hn]
    simp only [getInt]
    rw [BitVec.toInt_ofInt]
    have := Int.bmod_eq_of_le (n := n) (m := 2 ^ 32) (by omega) (by omega)
    exact this
  simp [lookupKey, this]

/-- C62, for requests that have a method the console knows, or lack a path or a value: if one is answered at
all (see `C49_knock_full_false`), the answer has the request's number and says exactly once whether it
succeeded. -/
theorem C62_answer_partial (x y : Item) {req : List Item} (hu : Understood req) {c c' : Console} {l : List Item}
    {e : Effect} (h : processRequest rate version [.text "response", x, .text "types", y] req c = .ok (c', l, e)) :
    WellAnswered req l := by
  obtain ⟨m, hm, hu⟩ := hu
  unfold processRequest at h
  rw [mapFind_eq, hm] at h
  dsimp only at h
  have hone : ∀ isSet p v c1 r, request (consoleTree rate version) isSet p v c = .ok (c1, r) → ∃ y, r = [y] := by
    intro isSet p v c1 r hr
    unfold request at hr
    split at hr
    · cases hr
    · rename_i st hst
      cases hr
      obtain ⟨y, hy⟩ := render_one _ (wf_console rate version) _ _ _ _ _ hst
      exact ⟨y, hy⟩
  split at h
  · cases h
    rw [List.append_assoc]
    exact wellAnswered_of rfl ⟨_, rfl⟩
  split at h
  · cases h
    rw [List.append_assoc]
    exact wellAnswered_of rfl ⟨_, rfl⟩
  split at h
  · cases h
    exact wellAnswered_of rfl ⟨_, rfl⟩
  split at h
  · cases h
    exact wellAnswered_of rfl ⟨_, rfl⟩
  split at h
  · cases h
  · rename_i c1 r hp
    cases h
    unfold pathRequest at hp
    rw [mapFind_eq, mapFind_eq] at hp
    split at hp
    · rename_i b p hpath
      split at hp
      · split at hp
        · cases hp
        · rename_i c2 r2 hr
          cases hp
          obtain ⟨y, rfl⟩ := hone _ _ _ _ _ hr
          exact wellAnswered_of rfl ⟨_, rfl⟩
      · split at hp
        · cases hp
          exact wellAnswered_of rfl ⟨_, rfl⟩
        · split at hp
          · split at hp
            · cases hp
            · rename_i c2 r2 hr
              cases hp
              obtain ⟨y, rfl⟩ := hone _ _ _ _ _ hr
              exact wellAnswered_of rfl ⟨_, rfl⟩
          · rename_i v hv hns
            exfalso
            rcases hu with hu | hu | hu
            · simp only [List.mem_cons, List.not_mem_nil, or_false] at hu
              rcases hu with rfl | rfl | rfl | rfl | rfl | rfl <;> simp_all [itemIs]
            · exact hu _ _ hpath
            · rw [hu] at hv; cases hv
    · cases hp
      exact wellAnswered_of rfl ⟨_, rfl⟩

/-- C62 in full. -/
def C62_full : Prop :=
  ∀ x y req c c' l e, processRequest rate version [.text "response", x, .text "types", y] req c = .ok (c', l, e) → WellAnswered req l

/-- It fails: a request for a method the console does not know, with a path and a value, is answered
without a `success`. -/
theorem C62_full_false : ¬C62_full rate version := by
  intro h
  have := (h .null .null [.text "method", .text "dump", .text "path", .arr true [], .text "value", .null] dfltConsole _ _ _ rfl).once
  cases this

/-- A request without a method is told twice that it failed. -/
theorem C62_twice_full_false (x y : Item) (c : Console) :
    ∃ l, processRequest rate version [.text "response", x, .text "types", y] [.text "id", .int 5] c = .ok (c, l, .none) ∧
      keyCount "success" l = 2 :=
  ⟨_, rfl, rfl⟩

/-! ### The hypotheses are met -/

/-- The offset of the shipped configuration can be read and set: all of C49's and C50's hypotheses hold. -/
example : ∃ full, Loaded dfltConsole ∧ IsGet (getReq []) [] ∧
    Answers (processRequest rate version struct (getReq []) dfltConsole) dfltConsole full ∧
    full.follow [.text "decoder", .text "offset"] = some (.flt dfltConsole.cfg.decoder.offset) ∧
    ¬PastLeaf [.text "decoder", .text "offset"] full ∧ ¬KnockPath [.text "decoder", .text "offset"] ∧
    IsSet (setReq [.text "decoder", .text "offset"] (.flt (lit 12))) [.text "decoder", .text "offset"] (.flt (lit 12)) ∧
    ∃ c', Answers (processRequest rate version struct (setReq [.text "decoder", .text "offset"] (.flt (lit 12)))
        dfltConsole) c' (.flt (lit 12)) ∧ c'.cfg.decoder.offset = lit 12 := by
  obtain ⟨full, h0, -⟩ := C50_get_partial rate version struct dfltConsole_loaded
  have hd := dump_of_answers rate version struct dfltConsole_loaded (isGet_getReq _) (h0 _ (isGet_getReq _))
  have hf := follow_dump _ (wf_console rate version) dfltConsole dfltConsole_loaded
    [.text "decoder", .text "offset"] full hd
  have hat : (consoleTree rate version).at [.text "decoder", .text "offset"] dfltConsole =
      some (.flt (fld% cfg.decoder.offset)) := rfl
  rw [hat] at hf
  obtain ⟨x, hx, hx'⟩ := hf
  cases hx
  refine ⟨full, dfltConsole_loaded, isGet_getReq _, h0 _ (isGet_getReq _), hx', not_pastLeaf hx', ?_, isSet_setReq _ _,
    { dfltConsole with cfg := { dfltConfig with decoder := { dfltDecoder with offset := lit 12 } } },
    (answers_set rate version struct (isSet_setReq _ _)).mpr ⟨_, rfl, lookup_answer _ _⟩, rfl⟩
  rintro ⟨r, h | h⟩ <;> simp at h

/-- A path to a whole table and one to a table that does not exist. -/
example : ∃ full, Answers (processRequest rate version struct (getReq []) dfltConsole) dfltConsole full ∧
    (∃ x, full.follow [.text "decoder"] = some x ∧ x.isLeaf = false) ∧
    full.follow [.text "tables", .text "boost"] = none := by
  obtain ⟨full, h0, -⟩ := C50_get_partial rate version struct dfltConsole_loaded
  have hd := dump_of_answers rate version struct dfltConsole_loaded (isGet_getReq _) (h0 _ (isGet_getReq _))
  have hf := follow_dump _ (wf_console rate version) dfltConsole dfltConsole_loaded [.text "decoder"] full hd
  have hat : (consoleTree rate version).at [.text "decoder"] dfltConsole = some decoderNode := rfl
  rw [hat] at hf
  obtain ⟨x, hx, hx'⟩ := hf
  refine ⟨full, h0 _ (isGet_getReq _), ⟨x, hx', ?_⟩, follow_dump _ (wf_console rate version) dfltConsole
    dfltConsole_loaded [.text "tables", .text "boost"] full hd⟩
  have : dump decoderNode dfltConsole = .ok (.map _) := rfl
  rw [this] at hx
  cases hx
  rfl

omit [FloatFmt] [LibM] in
example : ([.text "sensors", .text "iat", .text "method"], ["linear", "linear-window", "therm"]) ∈ enumFields ∧
    [.text "tables", .text "ve", .text "title"] ∈ titleFields := by
  constructor
  · simp [enumFields]
  · simp [titleFields]

omit [FloatFmt] [LibM] in
example : Understood (setReq [.text "decoder"] .null) ∧ Understood [.text "method", .text "dump"] := by
  constructor
  · exact ⟨_, rfl, Or.inl (by simp)⟩
  · exact ⟨_, rfl, Or.inr (Or.inr rfl)⟩

end

end Verif
