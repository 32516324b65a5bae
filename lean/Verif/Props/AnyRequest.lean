/-
C82: what requests cannot do, whatever they contain.

`Serves c reqs c'`: the console handles the requests `reqs` one after the other and `c` becomes `c'`.
-/
import Verif.Proofs.Resize
import Verif.Props.Request
import Verif.Props.Config

namespace Verif

section
variable [FloatFmt] [LibM] (rate : BitVec 32) (version : String) (struct : List Item)

/-- A history of requests that are all answered. -/
inductive Serves : Console → List (List Item) → Console → Prop
  | nil (c) : Serves c [] c
  | cons {c c1 c' : Console} {req l : List Item} {e : Effect} {reqs : List (List Item)}
      (h : processRequest rate version struct req c = .ok (c1, l, e)) (hs : Serves c1 reqs c') :
      Serves c (req :: reqs) c'

theorem knockFails {e : Fault} (h : KnockFails rate e) : e = .floatToInt := by
  obtain ⟨k, h⟩ := h
  unfold knockConfigure at h
  dsimp only at h
  generalize (k.frequency + Fl.ofU32 rate / Fl.fin 64) / (Fl.ofU32 rate / Fl.fin 64) = q at h
  cases q with
  | nan => cases h; rfl
  | inf b => cases h; rfl
  | fin q =>
    unfold Fl.toU32 at h
    dsimp only at h
    split at h
    · cases h
    · cases h; rfl

theorem request_any {c : Console} (hc : Loaded c) (b : Bool) (p : List Item) (v : Option Item) :
    Out (fun x => Loaded x.1 ∧ x.1.hidden = c.hidden) (· = .floatToInt)
      (request (consoleTree rate version) b p v c) := by
  have h := render_any _ (wf_console rate version) (grow_console rate version) b (!p.isEmpty) v
    { s := c, path := p, out := [] } hc
  unfold request
  revert h
  cases render (consoleTree rate version) b (!p.isEmpty) v { s := c, path := p, out := [] } with
  | error e => exact fun h => knockFails rate h
  | ok st => exact fun h => ⟨h.1, steps_keep (keeps_hidden rate version) (keepsR_hidden rate version) h.2⟩

theorem process_any {c : Console} (hc : Loaded c) (req : List Item) :
    Out (fun x => Loaded x.1 ∧ x.1.hidden = c.hidden) (· = .floatToInt)
      (processRequest rate version struct req c) := by
  unfold processRequest
  dsimp only
  split
  · exact ⟨hc, rfl⟩
  · rename_i m _
    split
    · exact ⟨hc, rfl⟩
    split
    · exact ⟨hc, rfl⟩
    split
    · exact ⟨hc, rfl⟩
    split
    · exact ⟨hc, rfl⟩
    have : Out (fun x => Loaded x.1 ∧ x.1.hidden = c.hidden) (· = .floatToInt)
        (pathRequest rate version req m c) := by
      unfold pathRequest
      split
      · rename_i b p _
        split
        · have h := request_any rate version hc false p none
          revert h
          cases request (consoleTree rate version) false p none c <;> exact id
        · split
          · exact ⟨hc, rfl⟩
          · rename_i v _
            split
            · have h := request_any rate version hc true p (some v)
              revert h
              cases request (consoleTree rate version) true p (some v) c <;> exact id
            · exact ⟨hc, rfl⟩
      · exact ⟨hc, rfl⟩
    revert this
    cases pathRequest rate version req m c <;> exact id

/-- C82, without the lookups afterwards: after any requests the tables are all there with at most 24 values
on each axis and what no request addresses is as before, and the handling of whatever request comes next
accesses nothing outside the tables (it can fail only where a knock frequency is converted to an integer,
see `C49_knock_full_false`). -/
theorem C82_tables_partial {c c' : Console} {reqs : List (List Item)} (hc : Loaded c)
    (h : Serves rate version struct c reqs c') :
    Loaded c' ∧ c'.hidden = c.hidden ∧
      ∀ req, (∃ c1 l e, processRequest rate version struct req c' = .ok (c1, l, e)) ∨
        processRequest rate version struct req c' = .error .floatToInt := by
  have key : ∀ {c c' reqs}, Loaded c → Serves rate version struct c reqs c' → Loaded c' ∧ c'.hidden = c.hidden := by
    intro c c' reqs hc h
    induction h with
    | nil => exact ⟨hc, rfl⟩
    | @cons _ _ _ req _ _ _ h _ ih =>
      have h1 := process_any rate version struct hc req
      rw [h] at h1
      obtain ⟨h2, h3⟩ := ih h1.1
      exact ⟨h2, h3.trans h1.2⟩
  obtain ⟨h1, h2⟩ := key hc h
  refine ⟨h1, h2, fun req => ?_⟩
  have h3 := process_any rate version struct h1 req
  revert h3
  cases processRequest rate version struct req c' with
  | error e => exact fun h => Or.inr (by rw [show e = .floatToInt from h])
  | ok x => exact fun _ => Or.inl ⟨_, _, _, rfl⟩

/-- C82 in full: lookups in the tables are safe after any requests if they were before. -/
def C82_full : Prop :=
  ∀ c c' reqs, Loaded c → LookupsSafe c.cfg → Serves rate version struct c reqs c' → LookupsSafe c'.cfg

/-- The values of the dwell axis can be replaced by none. -/
theorem empty_axis_request :
    ∃ c' l, processRequest rate version struct
        (setReq [.text "tables", .text "dwell", .text "horizontal-axis", .text "values"] (.arr true []))
          dfltConsole = .ok (c', l, .none) ∧ ∃ t, c'.cfg.dwell = some t ∧ t.cols.num = 0 := by
  let c' : Console := { dfltConsole with cfg := { dfltConfig with
    dwell := some { dfltDwell with cols := { dfltDwell.cols with num := 0 } } } }
  have h : request (consoleTree rate version) true
      [.text "tables", .text "dwell", .text "horizontal-axis", .text "values"]
      (some (.arr true [])) dfltConsole = .ok (c', [.arr false []]) := by
    have h1 : render (consoleTree rate version) true true (some (.arr true []))
        ⟨dfltConsole, [.text "tables", .text "dwell", .text "horizontal-axis", .text "values"], []⟩ =
        .ok ⟨c', [], [.arr false []]⟩ := by
      refine render_fields (n := tablesNode) (by simp) (by simp) _ _ _ ?_
      refine render_fields (n := table1Node (fld% cfg.dwell) 2) (by simp) (by simp) _ _ _ ?_
      unfold table1Node
      dsimp only
      rw [render, if_neg (by rintro ⟨⟩)]
      refine render_fields (t := "horizontal-axis") (by simp) (List.mem_cons_of_mem _ List.mem_cons_self) _ _ _ ?_
      refine render_fields (t := "values") (by simp) (List.mem_cons_of_mem _ List.mem_cons_self) _ _ _ ?_
      rw [render]
      rfl
    unfold request
    rw [show (!List.isEmpty [Item.text "tables", Item.text "dwell", Item.text "horizontal-axis",
      Item.text "values"]) = true from rfl, h1]
  rw [process_set rate version struct (isSet_setReq _ _), h]
  exact ⟨c', _, rfl, _, rfl, rfl⟩

/-- The hypotheses are met: two requests change the shipped configuration, an axis of the dwell table and the
rev limit. -/
example : ∃ c', Loaded dfltConsole ∧
    Serves rate version struct dfltConsole
      [setReq [.text "tables", .text "dwell", .text "horizontal-axis", .text "values"] (.arr true []),
       setReq [.text "decoder", .text "rpm-limit-stop"] (.int 5000)] c' ∧
    c'.cfg.rpmStop = 5000 ∧ (∃ t, c'.cfg.dwell = some t ∧ t.cols.num = 0) ∧ Loaded c' := by
  obtain ⟨c1, l, h1, ht⟩ := empty_axis_request rate version struct
  have h2 : ∃ l2, processRequest rate version struct
      (setReq [.text "decoder", .text "rpm-limit-stop"] (.int 5000)) c1 =
        .ok ({ c1 with cfg.rpmStop := 5000 }, l2, .none) :=
    ⟨_, process_set rate version struct (isSet_setReq _ _) c1⟩
  obtain ⟨l2, h2⟩ := h2
  have hs := Serves.cons h1 (.cons h2 (.nil _))
  exact ⟨_, dfltConsole_loaded, hs, rfl, ht, (C82_tables_partial rate version struct dfltConsole_loaded hs).1⟩

end

/-- It fails: an empty list sent as the values of an axis is accepted, and the next lookup reads before the
start of the array. -/
theorem C82_full_false [LibM] (rate : BitVec 32) (version : String) (struct : List Item) :
    ¬@C82_full binary32 _ rate version struct := by
  let _ := binary32
  intro h
  obtain ⟨c', l, h1, t, ht, hn⟩ := empty_axis_request rate version struct
  have h2 := h dfltConsole c' _ dfltConsole_loaded C07_default_safe.2 (.cons h1 (.nil _))
  obtain ⟨r, hr⟩ := h2.dwell t ht (.fin 0) (by simp)
  rw [(C07_empty_axis t hn _).2] at hr
  cases hr

end Verif
