/-
C87: every request is answered, with the whole answer.
-/
import Verif.Proofs.ReplyConsole
import Verif.Props.AnyRequest

namespace Verif

section
variable [FloatFmt] [LibM] (bits : Fl → BitVec 32) (returns : Bool) (rate : BitVec 32) (version : String)

/-- C87, for a request that is handled: what is written is the whole answer or nothing, and it is nothing only if the
answer is longer than the 16384 bytes there is room for, or the platform has left for the bootloader. -/
theorem C87_whole {req l : List Item} {c c' : Console} {e : Effect}
    (h : processRequest rate version (Wire.items structureWires) req c = .ok (c', l, e)) :
    ∃ r, rawRequest bits returns rate version req c = .ok (c', r, e) ∧
      (r = some (Wire.bytes bits (.map false (answerWires req l))) ∨
        r = none ∧ (16384 < (Wire.bytes bits (.map false (answerWires req l))).length ∨
          e = .bootloader ∧ returns = false)) := by
  unfold rawRequest
  rw [h]
  refine ⟨_, rfl, ?_⟩
  rw [sendReply_eq]
  split
  · rename_i hb
    simp only [Bool.and_eq_true, decide_eq_true_eq, Bool.not_eq_eq_eq_not, Bool.not_true] at hb
    exact .inr ⟨rfl, .inr hb⟩
  · split
    · exact .inl rfl
    · rename_i hl
      refine .inr ⟨rfl, .inl ?_⟩
      have : txCapacity = 16384 := rfl
      omega

theorem raw_of_size {req l : List Item} {c c' : Console} {e : Effect}
    (h : processRequest rate version (Wire.items structureWires) req c = .ok (c', l, e))
    (he : returns = true ∨ e ≠ .bootloader) (hl : 2 + Wire.sizes (answerWires req l) ≤ 16384) :
    rawRequest bits returns rate version req c =
      .ok (c', some (Wire.bytes bits (.map false (answerWires req l))), e) := by
  obtain ⟨r, h1, h2 | ⟨-, h2 | ⟨h2, h3⟩⟩⟩ := C87_whole bits returns rate version h
  · rw [h1, h2]
  · rw [wire_size, Wire.size] at h2
    simp only [Bool.false_eq_true, if_false] at h2
    omega
  · rcases he with he | he
    · rw [he] at h3; cases h3
    · exact absurd h2 he

omit [FloatFmt] [LibM] in
theorem id_size (req : List Item) : (Item.int (requestId req)).size ≤ 5 := by
  have h : -2 ^ 31 ≤ requestId req ∧ requestId req < 2 ^ 31 := by
    unfold requestId
    split
    · unfold getInt
      rename_i n _
      generalize BitVec.ofInt 32 n = m
      have h1 := BitVec.toInt_lt (x := m)
      have h2 := BitVec.le_toInt (x := m)
      exact ⟨h2, h1⟩
    · omega
  simp only [Item.size]
  apply headSize_le
  split <;> omega

omit [FloatFmt] [LibM] in
theorem not_structure {req : List Item} {m : Item} (hm : lookupKey "method" req = some m)
    (h : ¬itemIs m "structure" = true) (l : List Item) : Wire.sizes (answerWires req l) = Item.sizes l := by
  have : isStructure req = false := by
    unfold isStructure
    rw [mapFind_eq, hm]
    simpa using h
  rw [answerWires, this]
  simp only [Bool.false_eq_true, if_false]
  exact wires_size l

omit [FloatFmt] [LibM] in
theorem itemIs_iff {m : Item} {s : String} : itemIs m s = true ↔ m = .text s := by
  unfold itemIs
  split
  · simp
  · rename_i h
    simp only [Bool.false_eq_true, false_iff]
    rintro rfl
    exact h _ rfl

/-- The answer fits if every answer to a get or set does. -/
theorem answer_fits {req l : List Item} {c c' : Console} {e : Effect} {K : Nat} (hK : K + 42 ≤ 16384)
    (hp : ∀ b p isSet v c1 r, lookupKey "path" req = some (.arr b p) →
      (isSet = false → lookupKey "method" req = some (.text "get")) →
      (isSet = true → lookupKey "method" req = some (.text "set")) →
      request (consoleTree rate version) isSet p v c = .ok (c1, r) → ∃ x, r = [x] ∧ x.size ≤ K)
    (h : processRequest rate version (Wire.items structureWires) req c = .ok (c', l, e)) :
    2 + Wire.sizes (answerWires req l) ≤ 16384 := by
  have hid := id_size req
  have t1 : (Item.text "type").size = 5 := rfl
  have t2 : (Item.text "response").size = 9 := rfl
  have t3 : (Item.text "id").size = 3 := rfl
  have t4 : (Item.text "pong").size = 5 := rfl
  have t5 : (Item.text "success").size = 8 := rfl
  have t6 : (Item.text "error").size = 6 := rfl
  have hhead : Item.sizes [.text "type", .text "response", .text "id", .int (requestId req)] ≤ 22 := by
    simp only [Item.sizes]
    omega
  have hsucc : ∀ b, Item.sizes (reportSuccess b) = 9 := fun b => by cases b <;> rfl
  unfold processRequest at h
  rw [mapFind_eq] at h
  dsimp only at h
  split at h
  · rename_i hm
    cases h
    have : isStructure req = false := by
      unfold isStructure
      rw [mapFind_eq, hm]
    rw [answerWires, this]
    simp only [Bool.false_eq_true, if_false]
    have : Item.sizes (reportError "request has no 'method'") ≤ 200 := by decide
    rw [wires_size, sizes_append, sizes_append, hsucc]
    omega
  · rename_i m hm
    split at h
    · rename_i hx
      cases h
      rw [not_structure hm (by rw [itemIs_iff] at hx ⊢; rw [hx]; simp), sizes_append, sizes_append, hsucc]
      simp only [Item.sizes] at *
      omega
    split at h
    · rename_i hx
      cases h
      have : isStructure req = true := by
        unfold isStructure
        rw [mapFind_eq, hm]
        exact hx
      rw [answerWires, this]
      simp only [if_true]
      rw [wire_sizes_append, wire_sizes_append, structure_size, wires_size, wires_size, hsucc]
      omega
    rename_i hns
    split at h
    · cases h
      rw [not_structure hm hns, sizes_append, hsucc]
      omega
    split at h
    · cases h
      rw [not_structure hm hns, sizes_append, hsucc]
      omega
    split at h
    · cases h
    · rename_i c1 r hr
      cases h
      rw [not_structure hm hns, sizes_append]
      suffices Item.sizes r ≤ 18 + K ∨ Item.sizes r ≤ 200 by omega
      unfold pathRequest at hr
      rw [mapFind_eq, mapFind_eq] at hr
      split at hr
      · rename_i b p hpath
        split at hr
        · rename_i hg
          split at hr
          · cases hr
          · rename_i c2 r2 hr2
            cases hr
            obtain ⟨x, rfl, hx⟩ := hp b p false _ _ _ hpath (fun _ => by rw [hm, itemIs_iff.mp hg])
              (fun h => nomatch h) hr2
            rw [List.cons_append, Item.sizes, sizes_append, hsucc]
            simp only [Item.sizes]
            omega
        · split at hr
          · cases hr
            exact .inr (by decide)
          · split at hr
            · rename_i hg
              split at hr
              · cases hr
              · rename_i c2 r2 hr2
                cases hr
                obtain ⟨x, rfl, hx⟩ := hp b p true _ _ _ hpath (fun h => nomatch h)
                  (fun _ => by rw [hm, itemIs_iff.mp hg]) hr2
                rw [List.cons_append, Item.sizes, sizes_append, hsucc]
                simp only [Item.sizes]
                omega
            · cases hr
              exact .inr (by decide)
      · cases hr
        exact .inr (by decide)

omit [FloatFmt] [LibM] in
theorem table_bounds (k : Fin 10) : table2Bound ((fun _ => 24 : Fin 10 → Nat) k) ((fun _ => 24 : Fin 10 → Nat) k) ≤ 3400 ∧
    106 + table1Bound ((fun _ => 24 : Fin 10 → Nat) k) ≤ 3400 := by
  simp only [table2Bound, table1Bound]
  omega

theorem request_sized (hv : version.utf8ByteSize ≤ 255) {isSet : Bool} {p : List Item} {v : Option Item}
    {c c' : Console} {r : List Item} (hc : Sized (fun _ => 24) (fun _ => 24) c)
    (h : request (consoleTree rate version) isSet p v c = .ok (c', r)) : Sized (fun _ => 24) (fun _ => 24) c' := by
  unfold request at h
  split at h
  · cases h
  · rename_i st hst
    cases h
    exact (small_console rate hv (fun _ _ => ⟨le_rfl, le_rfl⟩) _ _ ⟨c, p, []⟩ _ hc hst).1

/-- No request makes a table or a text longer than there is room for. -/
theorem process_sized (hv : version.utf8ByteSize ≤ 255) {struct req l : List Item} {c c' : Console} {e : Effect}
    (hc : Sized (fun _ => 24) (fun _ => 24) c) (h : processRequest rate version struct req c = .ok (c', l, e)) :
    Sized (fun _ => 24) (fun _ => 24) c' := by
  unfold processRequest at h
  dsimp only at h
  repeat' split at h
  all_goals first | (cases h; exact hc) | (cases h; done) | skip
  rename_i c1 r hr
  cases h
  unfold pathRequest at hr
  repeat' split at hr
  all_goals first | (cases hr; exact hc) | (cases hr; done) | skip
  all_goals
    rename_i hr2
    cases hr
    exact request_sized rate version hv hc hr2

theorem serves_sized (hv : version.utf8ByteSize ≤ 255) {struct : List Item} {reqs : List (List Item)} {c c' : Console}
    (hc : Sized (fun _ => 24) (fun _ => 24) c) (h : Serves rate version struct c reqs c') :
    Sized (fun _ => 24) (fun _ => 24) c' := by
  induction h with
  | nil => exact hc
  | cons h _ ih => exact ih (process_sized rate version hv hc h)

/-- C87, for requests for less than everything: whatever requests came before, a request that is handled and whose path
names neither the whole configuration nor all tables together is answered with the whole answer. -/
theorem C87_answered_partial (hv : version.utf8ByteSize ≤ 255) {c0 c c' : Console}
    (hc : Sized (fun _ => 24) (fun _ => 24) c0) {reqs : List (List Item)}
    (hs : Serves rate version (Wire.items structureWires) c0 reqs c) {req l : List Item} {e : Effect}
    (hpath : ∀ b p, lookupKey "path" req = some (.arr b p) → p ≠ [] ∧ p ≠ [.text "tables"])
    (hboot : returns = true ∨ e ≠ .bootloader)
    (h : processRequest rate version (Wire.items structureWires) req c = .ok (c', l, e)) :
    rawRequest bits returns rate version req c =
      .ok (c', some (Wire.bytes bits (.map false (answerWires req l))), e) := by
  have hc := serves_sized rate version hv hc hs
  refine raw_of_size bits returns rate version h hboot (answer_fits rate version (K := 3400) (by omega) ?_ h)
  intro b p isSet v c1 r hp _ _ hr
  exact small_path rate hv (fun _ _ => ⟨le_rfl, le_rfl⟩) hc table_bounds (by omega) (hpath b p hp).1 (hpath b p hp).2 hr

theorem reads_fit (hv : version.utf8ByteSize ≤ 255) {rows cols : Fin 10 → Nat} {c c' : Console}
    (hc : Sized rows cols c) (hfit : 5027 + tablesBound rows cols + table1Bound (cols 9) ≤ 16384)
    {req l : List Item} {e : Effect} (hget : lookupKey "method" req ≠ some (.text "set"))
    (hboot : returns = true ∨ e ≠ .bootloader)
    (h : processRequest rate version (Wire.items structureWires) req c = .ok (c', l, e)) :
    rawRequest bits returns rate version req c =
      .ok (c', some (Wire.bytes bits (.map false (answerWires req l))), e) := by
  refine raw_of_size bits returns rate version h hboot (answer_fits rate version
    (K := 4985 + tablesBound rows cols + table1Bound (cols 9)) (by omega) ?_ h)
  intro b p isSet v c1 r _ _ hset hr
  cases isSet with
  | true => exact absurd (hset rfl) hget
  | false =>
    unfold request at hr
    split at hr
    · cases hr
    · rename_i st hst
      cases hr
      obtain ⟨-, x, h1, h2⟩ := small_console (b := false) rate hv (fun h => nomatch h) _ _ ⟨c, p, []⟩ _ hc hst
      exact ⟨x, h1, h2⟩

/-- C87, for configurations that are not too large: if no table has more than 17 rows or 17 columns, apart from those
of one row, any request that only reads is answered with the whole answer. -/
theorem C87_reads_partial (hv : version.utf8ByteSize ≤ 255) {c c' : Console} (hc : Sized (fun _ => 24) (fun _ => 24) c)
    (hfit : ∀ t ∈ [c.cfg.ve, c.cfg.lambda, c.cfg.timing, c.cfg.tempEnrich, c.cfg.tipinAmount], ∀ T, t = some T →
      T.rows.num ≤ 17 ∧ T.cols.num ≤ 17)
    {req l : List Item} {e : Effect} (hget : lookupKey "method" req ≠ some (.text "set"))
    (hboot : returns = true ∨ e ≠ .bootloader)
    (h : processRequest rate version (Wire.items structureWires) req c = .ok (c', l, e)) :
    rawRequest bits returns rate version req c =
      .ok (c', some (Wire.bytes bits (.map false (answerWires req l))), e) := by
  refine reads_fit bits returns rate version hv (rows := fun _ => 17)
    (cols := fun k => if k = 0 ∨ k = 1 ∨ k = 3 ∨ k = 6 ∨ k = 7 then 17 else 24) (c := c) ?_ (by decide) hget hboot h
  have hfit' : ∀ t ∈ [c.cfg.ve, c.cfg.lambda, c.cfg.timing, c.cfg.tempEnrich, c.cfg.tipinAmount], ∀ T, t = some T →
      T.rows.num ≤ (fun _ => 17 : Fin 10 → Nat) 0 ∧ T.cols.num ≤ 17 := hfit
  exact ⟨hfit' _ (by simp), hfit' _ (by simp), hc.dwell, hfit' _ (by simp), hc.deadtime, hc.pwCorrection,
    hfit' _ (by simp), hfit' _ (by simp), hc.tipinDuration, hc.duty, hc.title, hc.colName, hc.rowName⟩

/-- C87 in full: every request that is handled is answered with the whole answer. -/
def C87_full : Prop :=
  ∀ c c' req l e, Sized (fun _ => 24) (fun _ => 24) c → Loaded c →
    processRequest rate version (Wire.items structureWires) req c = .ok (c', l, e) →
    rawRequest bits returns rate version req c =
      .ok (c', some (Wire.bytes bits (.map false (answerWires req l))), e)

omit [FloatFmt] [LibM] in
theorem sized_of_loaded {c : Console} (h : Loaded c) (ht : ∀ k, (c.title k).utf8ByteSize ≤ maxTitle)
    (hc : ∀ k, (c.colName k).utf8ByteSize ≤ maxTitle) (hr : ∀ k, (c.rowName k).utf8ByteSize ≤ maxTitle) :
    Sized (fun _ => 24) (fun _ => 24) c := by
  have h2 : ∀ {t : Option Table2d}, Has2 t → ∀ T, t = some T →
      T.rows.num ≤ (fun _ => 24 : Fin 10 → Nat) 0 ∧ T.cols.num ≤ (fun _ => 24 : Fin 10 → Nat) 0 := by
    rintro t ⟨T, rfl, h⟩ _ ⟨⟩
    exact h
  have h1 : ∀ {t : Option Table1d}, Has1 t → ∀ T, t = some T → T.cols.num ≤ (fun _ => 24 : Fin 10 → Nat) 0 := by
    rintro t ⟨T, rfl, h⟩ _ ⟨⟩
    exact h
  obtain ⟨a, b, c, d, e, f, g, h, i, j⟩ := h
  exact ⟨h2 a, h2 b, h1 c, h2 d, h1 e, h1 f, h2 g, h2 h, h1 i, h1 j, ht, hc, hr⟩

omit [LibM] in
theorem dfltConsole_sized : Sized (fun _ => 24) (fun _ => 24) dfltConsole :=
  sized_of_loaded dfltConsole_loaded (fun _ => Nat.le_of_ble_eq_true rfl) (fun _ => Nat.le_of_ble_eq_true rfl)
    (fun _ => Nat.le_of_ble_eq_true rfl)

/-- It fails where the platform does not come back from the bootloader: the request is carried out unanswered. -/
theorem C87_bootloader_full_false : ¬C87_full bits false rate version := by
  intro h
  have := h dfltConsole dfltConsole [.text "method", .text "bootloader"] _ _ dfltConsole_sized dfltConsole_loaded rfl
  exact nomatch this

/-- A configuration with tables of 24 rows and columns. -/
def bigConsole : Console :=
  let big (T : Table2d) : Table2d := { T with rows := { T.rows with num := 24 }, cols := { T.cols with num := 24 } }
  { dfltConsole with cfg := { dfltConfig with
    ve := dfltConfig.ve.map big
    lambda := dfltConfig.lambda.map big
    timing := dfltConfig.timing.map big
    tempEnrich := dfltConfig.tempEnrich.map big
    tipinAmount := dfltConfig.tipinAmount.map big } }

omit [LibM] in
theorem bigConsole_loaded : Loaded bigConsole :=
  ⟨⟨_, rfl, Nat.le_of_ble_eq_true rfl, Nat.le_of_ble_eq_true rfl⟩,
   ⟨_, rfl, Nat.le_of_ble_eq_true rfl, Nat.le_of_ble_eq_true rfl⟩,
   ⟨_, rfl, Nat.le_of_ble_eq_true rfl⟩,
   ⟨_, rfl, Nat.le_of_ble_eq_true rfl, Nat.le_of_ble_eq_true rfl⟩,
   ⟨_, rfl, Nat.le_of_ble_eq_true rfl⟩,
   ⟨_, rfl, Nat.le_of_ble_eq_true rfl⟩,
   ⟨_, rfl, Nat.le_of_ble_eq_true rfl, Nat.le_of_ble_eq_true rfl⟩,
   ⟨_, rfl, Nat.le_of_ble_eq_true rfl, Nat.le_of_ble_eq_true rfl⟩,
   ⟨_, rfl, Nat.le_of_ble_eq_true rfl⟩,
   ⟨_, rfl, Nat.le_of_ble_eq_true rfl⟩⟩

omit [LibM] in
theorem bigConsole_sized : Sized (fun _ => 24) (fun _ => 24) bigConsole :=
  sized_of_loaded bigConsole_loaded (fun _ => Nat.le_of_ble_eq_true rfl) (fun _ => Nat.le_of_ble_eq_true rfl)
    (fun _ => Nat.le_of_ble_eq_true rfl)

/-- Nothing is written if the answer is too long. -/
theorem raw_silent {req l : List Item} {c c' : Console} {e : Effect}
    (h : processRequest rate version (Wire.items structureWires) req c = .ok (c', l, e)) (hs : isStructure req = false)
    (hl : 16382 < Item.sizes l) : rawRequest bits returns rate version req c = .ok (c', none, e) := by
  obtain ⟨r, h1, h2⟩ := C87_whole bits returns rate version h
  rcases h2 with h2 | ⟨h2, -⟩
  · exfalso
    unfold rawRequest at h1
    rw [h] at h1
    simp only [Except.ok.injEq, Prod.mk.injEq, true_and, and_true] at h1
    split at h1
    · rw [h2] at h1; cases h1
    · rw [sendReply_eq] at h1
      split at h1
      · rename_i hle
        rw [answerWires, hs] at hle
        simp only [Bool.false_eq_true, if_false] at hle
        rw [answer_size] at hle
        have : txCapacity = 16384 := rfl
        omega
      · rw [h2] at h1; cases h1
  · rw [h1, h2]

end

/-- The mathematical library does not matter here. -/
@[instance_reducible] def noLibM : @LibM := ⟨id, id⟩

/-- A set of all tables with 24 rows and columns, all of whose values are 7. -/
def tablesSet : List Item :=
  let row : Item := .arr true (List.replicate 24 (.int 7))
  let axis : Item := .map [.text "values", row]
  let one : Item := .map [.text "horizontal-axis", axis, .text "data", row]
  let two : Item := .map [.text "horizontal-axis", axis, .text "vertical-axis", axis,
    .text "data", .arr true (List.replicate 24 row)]
  setReq [.text "tables"] (.map [.text "ve", two, .text "lambda", two, .text "dwell", one, .text "timing", two,
    .text "injector_dead_time", one, .text "temp-enrich", two, .text "tipin-amount", two])

/-- It fails for a get of the tables once they are large: nothing at all is written. -/
theorem C87_full_false (bits : Fl → BitVec 32) (returns : Bool) : ¬@C87_full binary32 noLibM bits returns 4000000 "1" := by
  let _ := binary32
  let _ := noLibM
  intro h
  have key : ∃ c' l, processRequest 4000000 "1" (Wire.items structureWires) (getReq [.text "tables"]) bigConsole =
      .ok (c', l, .none) ∧ 16382 < Item.sizes l := by
    have : (match processRequest 4000000 "1" (Wire.items structureWires) (getReq [.text "tables"]) bigConsole with
      | .ok (_, l, .none) => Item.sizes l
      | _ => 0) > 16382 := by decide +kernel
    split at this
    · rename_i c' l hr
      exact ⟨c', l, hr, this⟩
    · omega
  obtain ⟨c', l, h1, h2⟩ := key
  have h3 := h bigConsole c' _ l _ bigConsole_sized bigConsole_loaded h1
  rw [raw_silent bits returns 4000000 "1" h1 (by decide) h2] at h3
  cases h3

/-- And for a set of all tables of the shipped configuration, which is carried out but not answered. -/
theorem C87_set_full_false (bits : Fl → BitVec 32) (returns : Bool) :
    ∃ c', @rawRequest binary32 noLibM bits returns 4000000 "1" tablesSet (@dfltConsole binary32) = .ok (c', none, .none) ∧
      (@dfltConsole binary32).cfg.dwell.map (·.cols.num) = some 4 ∧ c'.cfg.dwell.map (·.cols.num) = some 24 := by
  let _ := binary32
  let _ := noLibM
  have key : ∃ c' l, processRequest 4000000 "1" (Wire.items structureWires) tablesSet dfltConsole =
      .ok (c', l, .none) ∧ 16382 < Item.sizes l ∧ c'.cfg.dwell.map (·.cols.num) = some 24 := by
    have : (match processRequest 4000000 "1" (Wire.items structureWires) tablesSet dfltConsole with
      | .ok (c', l, .none) => decide (16382 < Item.sizes l) && decide (c'.cfg.dwell.map (·.cols.num) = some 24)
      | _ => false) = true := by decide +kernel
    split at this
    · rename_i c' l hr
      simp only [Bool.and_eq_true, decide_eq_true_eq] at this
      exact ⟨c', l, hr, this⟩
    · cases this
  obtain ⟨c', l, h1, h2, h3⟩ := key
  exact ⟨c', raw_silent bits returns 4000000 "1" h1 (by decide) h2, rfl, h3⟩

/-! ### The hypotheses are met -/

section
variable [FloatFmt] [LibM] (bits : Fl → BitVec 32) (rate : BitVec 32)

/-- A set of one value of the shipped configuration is answered on a microcontroller. -/
example : ∃ c' l, rawRequest bits false rate "1.0" (setReq [.text "decoder", .text "offset"] (.flt (lit 12))) dfltConsole =
    .ok (c', some (Wire.bytes bits (.map false (Item.wires l))), .none) ∧ c'.cfg.decoder.offset = lit 12 :=
  ⟨_, _, C87_answered_partial bits false rate "1.0" (by decide) dfltConsole_sized (.nil _)
    (fun b p h => by cases h; simp) (.inr (by simp))
    (process_set rate "1.0" _ (isSet_setReq _ _) dfltConsole), rfl⟩

/-- The whole shipped configuration can be read, even on a microcontroller. -/
example : ∃ l, rawRequest bits false rate "1.0" (getReq []) dfltConsole =
    .ok (dfltConsole, some (Wire.bytes bits (.map false (Item.wires l))), .none) := by
  obtain ⟨full, h0, -⟩ := C50_get_partial rate "1.0" (Wire.items structureWires) dfltConsole_loaded
  obtain ⟨l, h, -⟩ := h0 _ (isGet_getReq [])
  refine ⟨l, C87_reads_partial bits false rate "1.0" (by decide) dfltConsole_sized ?_ (by simp [getReq, lookupKey])
    (.inr (by simp)) h⟩
  intro t ht T hT
  simp only [List.mem_cons, List.not_mem_nil, or_false] at ht
  rcases ht with rfl | rfl | rfl | rfl | rfl <;> (cases hT; exact ⟨Nat.le_of_ble_eq_true rfl, Nat.le_of_ble_eq_true rfl⟩)

end
end Verif
