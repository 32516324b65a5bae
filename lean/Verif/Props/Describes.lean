/-
C88: the answer to a "structure" request describes the configuration a client gets.
-/
import Verif.Proofs.Describes
import Verif.Props.Request

namespace Verif

/-- The named types of the answer. -/
def structureTypeItems : List Item :=
  [.text "sensor", (descSensor true).item, .text "output", (descOutput true).item,
    .text "table1d", (descTable1 true).item, .text "table2d", (descTable2 true).item]

section
variable {types : List Item}

/-- The fields one by one. -/
macro "fit_leaves" : tactic => `(tactic| repeat' first
  | exact List.Forall₂.nil
  | refine List.Forall₂.cons ⟨rfl, ?_⟩ ?_
  | exact fit_flt
  | exact fit_u32
  | exact fit_bool
  | exact fit_text
  | exact fit_const)

/-- The names of the fields. -/
macro "fit_names" : tactic => `(tactic| (simp only [List.map_cons, List.map_nil]; decide))

theorem fit_decoder : Fit types Loaded descDecoder decoderNode := by
  refine fit_fields ?_ (by fit_names)
  fit_leaves
  refine fit_enum (choices := [(0, "even"), (1, "even+camsync"), (2, "missing"), (3, "missing+camsync")]) fun s => ?_
  show ∃ t, (s.cfg.decoder.type.code, t) ∈ _
  cases s.cfg.decoder.type <;> simp [DecType.code]

theorem fit_output (l : Lens Console OEvent) : Fit types Loaded (descOutput true) (outputNode l) := by
  refine fit_fields ?_ (by fit_names)
  fit_leaves
  refine fit_enum (choices := [(0, "disabled"), (1, "fuel"), (2, "ignition")]) fun s => ?_
  show ∃ t, ((l.get s).type.code, t) ∈ _
  cases (l.get s).type <;> simp [EvType.code]

theorem fit_sensor (l : Lens Console Sensor) : Fit types Loaded (descSensor true) (sensorNode l) := by
  refine fit_fields ?_ (by fit_names)
  fit_leaves
  · refine fit_enum (choices := [(0, "none"), (1, "adc"), (2, "freq"), (3, "pulsewidth"), (4, "const")]) fun s => ?_
    show ∃ t, ((l.get s).source.code, t) ∈ _
    cases (l.get s).source <;> simp [SensorSource.code]
  · refine fit_enum (choices := [(0, "linear"), (1, "linear-window"), (2, "therm")]) fun s => ?_
    show ∃ t, ((l.get s).method.code, t) ∈ _
    cases (l.get s).method <;> simp [SensorMethod.code]

theorem fit_axis (l : Lens Console Axis) (name : Lens Console String) :
    Fit types Loaded descAxis (axisNode l name) := by
  refine fit_fields ?_ (by fit_names)
  fit_leaves
  refine fit_floats (fun s _ => Nat.min_le_right _ _) fun i s y hy => ?_
  split at hy
  · cases hy; exact ⟨_, rfl⟩
  · cases hy

theorem fit_table1 (t : Lens Console (Option Table1d)) (k : Fin 10) (ht : ∀ c, Loaded c → Has1 (t.get c)) :
    Fit types Loaded (descTable1 true) (table1Node t k) := by
  refine fit_deref (fit_fields ?_ (by fit_names))
  fit_leaves
  · exact fit_axis _ _
  · refine fit_floats (fun s hs => ?_) fun i s y hy => ?_
    · obtain ⟨T, h1, h2⟩ := ht s hs
      show ((Lens.some noTable1).get (t.get s)).cols.num ≤ _
      rw [h1]
      exact h2
    · split at hy
      · cases hy; exact ⟨_, rfl⟩
      · cases hy

theorem fit_table2 (t : Lens Console (Option Table2d)) (k : Fin 10) (ht : ∀ c, Loaded c → Has2 (t.get c)) :
    Fit types Loaded (descTable2 true) (table2Node t k) := by
  refine fit_deref (fit_fields ?_ (by fit_names))
  fit_leaves
  · exact fit_axis _ _
  · exact fit_axis _ _
  · refine fit_lists (fun s hs => ?_) (fun s hs => ?_) fun r i s y hy => ?_
    · obtain ⟨T, h1, h2⟩ := ht s hs
      show ((Lens.some noTable2).get (t.get s)).rows.num ≤ _
      rw [h1]
      exact h2.1
    · obtain ⟨T, h1, h2⟩ := ht s hs
      show ((Lens.some noTable2).get (t.get s)).cols.num ≤ _
      rw [h1]
      exact h2.2
    · split at hy
      · cases hy; exact ⟨_, rfl⟩
      · cases hy

end

local notation "T" => structureTypeItems

theorem type_sensor : lookupKey "sensor" T = some (descSensor true).item := by simp [structureTypeItems, lookupKey]
theorem type_output : lookupKey "output" T = some (descOutput true).item := by simp [structureTypeItems, lookupKey]
theorem type_table1 : lookupKey "table1d" T = some (descTable1 true).item := by simp [structureTypeItems, lookupKey]
theorem type_table2 : lookupKey "table2d" T = some (descTable2 true).item := by simp [structureTypeItems, lookupKey]

theorem fit_tables : Fit T Loaded (descTables false) tablesNode := by
  refine fit_fields ?_ (by fit_names)
  exact
    .cons ⟨rfl, fit_named type_table2 (fit_table2 _ _ fun _ ⟨h, _⟩ => h)⟩
    (.cons ⟨rfl, fit_named type_table2 (fit_table2 _ _ fun _ ⟨_, h, _⟩ => h)⟩
    (.cons ⟨rfl, fit_named type_table1 (fit_table1 _ _ fun _ ⟨_, _, h, _⟩ => h)⟩
    (.cons ⟨rfl, fit_named type_table2 (fit_table2 _ _ fun _ ⟨_, _, _, h, _⟩ => h)⟩
    (.cons ⟨rfl, fit_named type_table1 (fit_table1 _ _ fun _ ⟨_, _, _, _, h, _⟩ => h)⟩
    (.cons ⟨rfl, fit_named type_table1 (fit_table1 _ _ fun _ ⟨_, _, _, _, _, h, _⟩ => h)⟩
    (.cons ⟨rfl, fit_named type_table2 (fit_table2 _ _ fun _ ⟨_, _, _, _, _, _, h, _⟩ => h)⟩
    (.cons ⟨rfl, fit_named type_table2 (fit_table2 _ _ fun _ ⟨_, _, _, _, _, _, _, h, _⟩ => h)⟩
    (.cons ⟨rfl, fit_named type_table1 (fit_table1 _ _ fun _ ⟨_, _, _, _, _, _, _, _, h, _⟩ => h)⟩ .nil))))))))

theorem fit_outputs : Fit T Loaded (descOutputs false) outputsNode :=
  fit_fixed fun _ => fit_named type_output (fit_output _)

theorem fit_fueling : Fit T Loaded descFueling fuelingNode := by
  refine fit_fields ?_ (by fit_names)
  fit_leaves
  refine fit_fields ?_ (by fit_names)
  fit_leaves

theorem fit_ignition : Fit T Loaded descIgnition ignitionNode := by
  refine fit_fields ?_ (by fit_names)
  fit_leaves

theorem fit_boost : Fit T Loaded (descBoost false) boostNode := by
  refine fit_fields ?_ (by fit_names)
  fit_leaves
  exact fit_named type_table1 (fit_table1 _ _ fun _ ⟨_, _, _, _, _, _, _, _, _, h⟩ => h)

theorem fit_cel : Fit T Loaded descCel celNode := by
  refine fit_fields ?_ (by fit_names)
  fit_leaves

theorem fit_freqs : Fit T Loaded descFreqs freqListNode := by
  refine fit_fixed fun i => fit_fields ?_ (by fit_names)
  fit_leaves
  · refine fit_enum (choices := [(0, "rising"), (1, "falling"), (2, "both")]) fun s => ?_
    show ∃ t, ((s.freq i).edge.code, t) ∈ _
    cases (s.freq i).edge <;> simp [TrigEdge.code]
  · refine fit_enum (choices := [(0, "none"), (1, "freq"), (2, "trigger")]) fun s => ?_
    show ∃ t, ((s.freq i).type.code, t) ∈ _
    cases (s.freq i).type <;> simp [FreqType.code]

theorem fit_test : Fit T Loaded descTest testNode := by
  refine fit_fields ?_ (by fit_names)
  fit_leaves

section
variable [FloatFmt] [LibM] (rate : BitVec 32) (version : String)

theorem fit_knock (l : Lens Console Knock) : Fit T Loaded descKnock (knockNode rate l) := by
  refine fit_fields ?_ (by fit_names)
  fit_leaves

theorem fit_sensors : Fit T Loaded (descSensors false) (sensorsNode rate) := by
  refine fit_map _ (by decide) (by decide) fun i hi => ?_
  have hi : i < 12 := hi
  by_cases h : i < numSensors
  · rw [dif_pos h]
    have : ((sensorNames.map (fun n => (n, descSensor false)) ++ [("knock1", descKnock), ("knock2", descKnock)]).getD i
        ("", .null)).2 = descSensor false := by
      have h : i < 10 := h
      interval_cases i <;> rfl
    rw [this]
    exact fit_named type_sensor (fit_sensor _)
  · rw [dif_neg h]
    have h : ¬i < 10 := h
    obtain rfl | rfl : i = 10 ∨ i = 11 := by omega
    · exact fit_knock rate _
    · exact fit_knock rate _

theorem fit_console : Fit T Loaded structureResponse (consoleTree rate version) := by
  refine fit_fields ?_ (by fit_names)
  exact .cons ⟨rfl, fit_decoder⟩ (.cons ⟨rfl, fit_sensors rate⟩ (.cons ⟨rfl, fit_outputs⟩ (.cons ⟨rfl, fit_fueling⟩
    (.cons ⟨rfl, fit_ignition⟩ (.cons ⟨rfl, fit_tables⟩ (.cons ⟨rfl, fit_boost⟩ (.cons ⟨rfl, fit_cel⟩
    (.cons ⟨rfl, fit_freqs⟩ (.cons ⟨rfl, fit_test⟩ (.cons ⟨rfl, fit_fields (by fit_leaves) (by fit_names)⟩ .nil))))))))))

/-- C88: whatever a get of the whole configuration answers is of the form that the answer to a "structure" request,
made at any other time, announces: the same names in the same order, the announced kinds of values, one of the
announced choices, and tables no larger than announced. -/
theorem C88_describes {c c' : Console} (hc : Loaded c) {req : List Item} (hr : IsGet req []) {full : Item}
    (h : Answers (processRequest rate version (Wire.items structureWires) req c) c' full) {c0 c0' : Console}
    {sreq l : List Item} {e : Effect} (hs : lookupKey "method" sreq = some (.text "structure"))
    (h0 : processRequest rate version (Wire.items structureWires) sreq c0 = .ok (c0', l, e)) :
    ∃ d types, lookupKey "response" l = some d ∧ lookupKey "types" l = some (.map types) ∧ Describes types d full := by
  have hd := dump_of_answers rate version _ hc hr h
  refine ⟨structureResponse.item, T, ?_, ?_, fit_console rate version c full hc hd⟩ <;>
  · unfold processRequest at h0
    rw [mapFind_eq, hs] at h0
    simp only [itemIs] at h0
    cases h0
    rfl

/-! ### The hypotheses are met -/

/-- The shipped configuration is described, and by a description that is not that of a single number. -/
example : ∃ full l d types,
    Answers (processRequest rate version (Wire.items structureWires) (getReq []) dfltConsole) dfltConsole full ∧
    processRequest rate version (Wire.items structureWires) [.text "method", .text "structure"] dfltConsole =
      .ok (dfltConsole, l, .none) ∧
    lookupKey "response" l = some d ∧ lookupKey "types" l = some (.map types) ∧ Describes types d full ∧
    full.follow [.text "decoder", .text "offset"] = some (.flt dfltConsole.cfg.decoder.offset) := by
  obtain ⟨full, h0, -⟩ := C50_get_partial rate version (Wire.items structureWires) dfltConsole_loaded
  have h1 := h0 _ (isGet_getReq _)
  have hd := dump_of_answers rate version _ dfltConsole_loaded (isGet_getReq _) h1
  have hf := follow_dump _ (wf_console rate version) dfltConsole dfltConsole_loaded [.text "decoder", .text "offset"] full hd
  obtain ⟨d, types, h2, h3, h4⟩ := C88_describes rate version dfltConsole_loaded (isGet_getReq _) h1
    (c0 := dfltConsole) (sreq := [.text "method", .text "structure"]) rfl rfl
  have hat : (consoleTree rate version).at [.text "decoder", .text "offset"] dfltConsole =
      some (.flt (fld% cfg.decoder.offset)) := rfl
  rw [hat] at hf
  obtain ⟨y, hx, hy⟩ := hf
  cases hx
  exact ⟨full, _, d, types, h1, rfl, h2, h3, h4, hy⟩

/-- A description does not fit everything. -/
example : ¬Describes [] (descU32 "x").item (.flt (lit 1)) := by
  intro h
  generalize hd : (descU32 "x").item = D at h
  generalize hx : Item.flt (lit 1) = X at h
  cases h with
  | float ht =>
    cases hd
    have ht : some (Item.text "uint32") = some (.text "float") := ht
    simp at ht
  | named _ hn _ => simp [lookupKey] at hn
  | _ => cases hx

end
end Verif
