/-
C07: a configuration accepted by `config_valid` and the lookups made with it.
-/
import Verif.Model.Default
import Verif.Model.Tasks
import Verif.Proofs.TableFl

namespace Verif
open Fl FloatFmt

/-- Every lookup in the table, at numbers, stays inside it and gives a finite number. -/
def Safe1 [FloatFmt] (o : Option Table1d) : Prop := ∀ t, o = some t → ∀ x, x ≠ nan → ∃ q, interp1 t x = .ok (fin q)

def Safe2 [FloatFmt] (o : Option Table2d) : Prop :=
  ∀ t, o = some t → ∀ x y, x ≠ nan → y ≠ nan → ∃ q, interp2 t x y = .ok (fin q)

/-- All the lookups the control code makes are safe, and the tables it uses without a test are there. -/
structure LookupsSafe [FloatFmt] (c : Config) : Prop where
  timing_there : c.timing ≠ none
  dwell_there : c.ignition.dwell = .brv → c.dwell ≠ none
  duty_there : c.boost.duty ≠ none
  timing : Safe2 c.timing
  ve : Safe2 c.ve
  lambda : Safe2 c.lambda
  tempEnrich : Safe2 c.tempEnrich
  tipinAmount : Safe2 c.tipinAmount
  deadtime : Safe1 c.deadtime
  pwCorrection : Safe1 c.pwCorrection
  tipinDuration : Safe1 c.tipinDuration
  dwell : Safe1 c.dwell
  duty : Safe1 c.boost.duty

/-- The property.  It is false, see `C07_full_false` and the theorems after it. -/
def C07_full [FloatFmt] : Prop := ∀ c, configValid c = .ok true → LookupsSafe c

/-- The check itself never reads outside a table. -/
theorem validScan_total (a : Axis) (k : Nat) (h : k < maxAxis) : ∃ b, validScan a k = .ok b := by
  induction k with
  | zero => exact ⟨true, rfl⟩
  | succ k ih =>
    obtain ⟨b, hb⟩ := ih (by omega)
    unfold validScan
    rw [hb, except_bind_ok]
    cases b
    · exact ⟨_, rfl⟩
    · have e : ((k : Int) + 1) = ((k + 1 : Nat) : Int) := by push_cast; rfl
      rw [if_pos rfl, rd_ok a.values k (by omega), except_bind_ok, e, rd_ok a.values (k + 1) (by omega), except_bind_ok]
      exact ⟨_, rfl⟩

theorem validAxis_total (a : Axis) : ∃ b, validAxis a = .ok b := by
  unfold validAxis
  split_ifs with h
  · exact ⟨_, rfl⟩
  · exact validScan_total a _ (by simp only [maxAxis] at *; omega)

theorem validTable2_total (t : Table2d) : ∃ b, validTable2 t = .ok b := by
  unfold validTable2
  obtain ⟨b, hb⟩ := validAxis_total t.cols
  rw [hb, except_bind_ok]
  cases b
  · exact ⟨_, rfl⟩
  · exact validAxis_total t.rows

theorem optValid_total {α : Type} {f : α → Except Fault Bool} (h : ∀ t, ∃ b, f t = .ok b) (o : Option α) :
    ∃ b, optValid f o = .ok b := by
  cases o
  · exact ⟨_, rfl⟩
  · exact h _

/-- What acceptance means: each checked table passes. -/
theorem configValid_iff (c : Config) : configValid c = .ok true ↔
    optValid validTable2 c.ve = .ok true ∧ optValid validTable2 c.timing = .ok true ∧
    optValid validTable1 c.deadtime = .ok true ∧ optValid validTable1 c.pwCorrection = .ok true ∧
    optValid validTable2 c.lambda = .ok true ∧ optValid validTable2 c.tipinAmount = .ok true ∧
    optValid validTable1 c.tipinDuration = .ok true := by
  obtain ⟨b1, h1⟩ := optValid_total validTable2_total c.ve
  obtain ⟨b2, h2⟩ := optValid_total validTable2_total c.timing
  obtain ⟨b3, h3⟩ := optValid_total (f := validTable1) (fun t => validAxis_total t.cols) c.deadtime
  obtain ⟨b4, h4⟩ := optValid_total (f := validTable1) (fun t => validAxis_total t.cols) c.pwCorrection
  obtain ⟨b5, h5⟩ := optValid_total validTable2_total c.lambda
  obtain ⟨b6, h6⟩ := optValid_total validTable2_total c.tipinAmount
  obtain ⟨b7, h7⟩ := optValid_total (f := validTable1) (fun t => validAxis_total t.cols) c.tipinDuration
  unfold configValid
  rw [h1, h2, h3, h4, h5, h6, h7]
  cases b1 <;> cases b2 <;> cases b3 <;> cases b4 <;> cases b5 <;> cases b6 <;> cases b7 <;> decide

/-- C07, the check: it always gives an answer, for any contents of the tables. -/
theorem C07_check_total (c : Config) : ∃ b, configValid c = .ok b := by
  obtain ⟨b1, h1⟩ := optValid_total validTable2_total c.ve
  obtain ⟨b2, h2⟩ := optValid_total validTable2_total c.timing
  obtain ⟨b3, h3⟩ := optValid_total (f := validTable1) (fun t => validAxis_total t.cols) c.deadtime
  obtain ⟨b4, h4⟩ := optValid_total (f := validTable1) (fun t => validAxis_total t.cols) c.pwCorrection
  obtain ⟨b5, h5⟩ := optValid_total validTable2_total c.lambda
  obtain ⟨b6, h6⟩ := optValid_total validTable2_total c.tipinAmount
  obtain ⟨b7, h7⟩ := optValid_total (f := validTable1) (fun t => validAxis_total t.cols) c.tipinDuration
  unfold configValid
  rw [h1, h2, h3, h4, h5, h6, h7]
  cases b1 <;> cases b2 <;> cases b3 <;> cases b4 <;> cases b5 <;> cases b6 <;> cases b7 <;> exact ⟨_, rfl⟩

/-- A scan that passes has compared all neighbours. -/
theorem validScan_step {a : Axis} {k : Nat} (h : validScan a k = .ok true) (hk : k < maxAxis) :
    ∀ i (hi : i + 1 < maxAxis), i < k → lt (a.values ⟨i + 1, hi⟩) (a.values ⟨i, by omega⟩) = false := by
  induction k with
  | zero => intro i _ h; omega
  | succ k ih =>
    obtain ⟨b, hb⟩ := validScan_total a k (by omega)
    unfold validScan at h
    rw [hb, except_bind_ok] at h
    cases b
    · cases h
    · have e : ((k : Int) + 1) = ((k + 1 : Nat) : Int) := by push_cast; rfl
      rw [if_pos rfl, rd_ok a.values k (by omega), except_bind_ok, e, rd_ok a.values (k + 1) (by omega),
        except_bind_ok] at h
      intro i hi hik
      rcases Nat.lt_or_ge i k with h1 | h1
      · exact ih hb (by omega) i hi h1
      · have : i = k := by omega
        subst this
        have := Except.ok.inj h
        simpa using this

/-- What the check leaves open about an axis: it is used, it does not fill its array, and it has no NaN. -/
structure AxisOpen (a : Axis) : Prop where
  used : 0 < a.num
  room : a.num < maxAxis
  num : ∀ i (h : i < maxAxis), i < a.num → a.values ⟨i, h⟩ ≠ nan

theorem axisNum_of_valid {a : Axis} (h : validAxis a = .ok true) (ho : AxisOpen a) : AxisNum a := by
  have h1 := ho.used
  have h2 := ho.room
  unfold validAxis at h
  rw [if_neg (by omega)] at h
  refine ⟨ho.used, by omega, ho.num, ?_⟩
  intro i hi hin
  have := validScan_step h (by omega) i hi (by omega)
  exact le_of_not_lt (ho.num _ _ hin) (ho.num _ _ (by omega)) this

/-- A table the check covers, with its axes open in the sense above. -/
def Open1 (o : Option Table1d) : Prop := ∀ t, o = some t → AxisOpen t.cols

def Open2 (o : Option Table2d) : Prop := ∀ t, o = some t → AxisOpen t.cols ∧ AxisOpen t.rows

/-- Lookups stay inside the table (the result may still be infinite or NaN). -/
def InBounds1 [FloatFmt] (o : Option Table1d) : Prop := ∀ t, o = some t → ∀ x, x ≠ nan → ∃ r, interp1 t x = .ok r

def InBounds2 [FloatFmt] (o : Option Table2d) : Prop :=
  ∀ t, o = some t → ∀ x y, x ≠ nan → y ≠ nan → ∃ r, interp2 t x y = .ok r

theorem inBounds1 [FloatFmt] {o : Option Table1d} (h : optValid validTable1 o = .ok true) (ho : Open1 o) : InBounds1 o := by
  rintro t rfl x hx
  exact interp1_no_fault (axisNum_of_valid h (ho t rfl)) (ho t rfl).room hx

theorem inBounds2 [FloatFmt] {o : Option Table2d} (h : optValid validTable2 o = .ok true) (ho : Open2 o) : InBounds2 o := by
  rintro t rfl x y hx hy
  obtain ⟨o1, o2⟩ := ho t rfl
  obtain ⟨b, hb⟩ := validAxis_total t.cols
  have h' : validTable2 t = .ok true := h
  unfold validTable2 at h'
  rw [hb, except_bind_ok] at h'
  cases b
  · cases h'
  · exact interp2_no_fault (axisNum_of_valid hb o1) (axisNum_of_valid h' o2) o1.room o2.room hx hy

/-- C07, in part: for an accepted configuration, lookups in the seven tables the check covers stay inside the table
at every operating point, provided their axes are used, do not fill the array and hold no NaN.  Missing: the tables
the check does not cover, full and empty axes, NaN entries, and finiteness of the result (next theorem). -/
theorem C07_in_bounds_partial [FloatFmt] (c : Config) (h : configValid c = .ok true)
    (h1 : Open2 c.ve) (h2 : Open2 c.timing) (h3 : Open1 c.deadtime) (h4 : Open1 c.pwCorrection) (h5 : Open2 c.lambda)
    (h6 : Open2 c.tipinAmount) (h7 : Open1 c.tipinDuration) :
    InBounds2 c.ve ∧ InBounds2 c.timing ∧ InBounds1 c.deadtime ∧ InBounds1 c.pwCorrection ∧ InBounds2 c.lambda ∧
      InBounds2 c.tipinAmount ∧ InBounds1 c.tipinDuration := by
  obtain ⟨v1, v2, v3, v4, v5, v6, v7⟩ := (configValid_iff c).mp h
  exact ⟨inBounds2 v1 h1, inBounds2 v2 h2, inBounds1 v3 h3, inBounds1 v4 h4, inBounds2 v5 h5, inBounds2 v6 h6,
    inBounds1 v7 h7⟩

/-- What makes a lookup give a finite number in any float format: breakpoints at most 2^60 in size that differ by at
least 2^-64 (also the unused entry after the last), and finite data. -/
def Good1 [FloatFmt] (t : Table1d) : Prop :=
  AxisCheck t.cols ∧ ∀ i : Fin maxAxis, t.data i = fin (t.data i).toQ ∧ |(t.data i).toQ| ≤ 2 ^ 60 ∧
    rnd (t.data i).toQ = fin (t.data i).toQ

def Good2 (t : Table2d) : Prop :=
  AxisCheck t.cols ∧ AxisCheck t.rows ∧
    ∀ j i : Fin maxAxis, t.data j i = fin (t.data j i).toQ ∧ |(t.data j i).toQ| ≤ 2 ^ 60

instance [FloatFmt] (t : Table1d) : Decidable (Good1 t) := by unfold Good1; infer_instance
instance (t : Table2d) : Decidable (Good2 t) := by unfold Good2; infer_instance

/-- C07: the number conditions that make a lookup give a finite number, one-dimensional tables. -/
theorem C07_number_1d_partial [FloatFmt] (t : Table1d) (h : Good1 t) : Safe1 (some t) := by
  rintro t' ht x hx
  cases ht
  obtain ⟨ha, hd⟩ := h
  have hf := ha.1.2
  obtain ⟨r, hr, -⟩ := interp1_bound (k := 60) (y := nums t.data) ha.axisFl
    (fun i hi _ => by simp only [nums, hi, dif_pos]; exact (hd _).1) (by norm_num)
    (fun i hi => by
      have : i < maxAxis := by omega
      simp only [nums, this, dif_pos]
      exact ⟨by simpa using (hd ⟨i, this⟩).2.1, (hd ⟨i, this⟩).2.2⟩) hx
  exact ⟨r, hr⟩

/-- C07: the same for two-dimensional tables. -/
theorem C07_number_2d_partial [FloatFmt] (t : Table2d) (h : Good2 t) : Safe2 (some t) := by
  rintro t' ht x y hx hy
  cases ht
  obtain ⟨ha, hb, hd⟩ := h
  have hf := ha.1.2
  have hg := hb.1.2
  obtain ⟨r, hr, -⟩ := interp2_bound (k := 60)
    (z := fun j i => if hj : j < maxAxis then nums (t.data ⟨j, hj⟩) i else 0) ha.axisFl hb.axisFl
    (fun j i hj hi _ _ => by simp only [nums, hi, hj, dif_pos]; exact (hd _ _).1) (by norm_num)
    (fun j i hj hi => by
      have h1 : i < maxAxis := by omega
      have h2 : j < maxAxis := by omega
      simp only [nums, h1, h2, dif_pos]
      simpa using (hd ⟨j, h2⟩ ⟨i, h1⟩).2) hx hy
  exact ⟨r, hr⟩

/-- C07 for the configuration the firmware ships with, in single precision: it is accepted, and all its lookups are
safe, including those in tables the check does not cover. -/
theorem C07_default_safe : @configValid (@dfltConfig binary32) = .ok true ∧ @LookupsSafe binary32 (@dfltConfig binary32) := by
  let _ := binary32
  refine ⟨by decide +kernel, ?_⟩
  have g1 : Good1 dfltDeadtime ∧ Good1 dfltPwc ∧ Good1 dfltTipinDur ∧ Good1 dfltDwell ∧ Good1 dfltBoost := by
    decide +kernel
  have g2 : Good2 dfltTiming ∧ Good2 dfltVe ∧ Good2 dfltLambda ∧ Good2 dfltEnrich ∧ Good2 dfltTipin := by
    decide +kernel
  obtain ⟨a1, a2, a3, a4, a5⟩ := g1
  obtain ⟨b1, b2, b3, b4, b5⟩ := g2
  exact { timing_there := by simp [dfltConfig], dwell_there := by simp [dfltConfig], duty_there := by simp [dfltConfig]
          timing := C07_number_2d_partial _ b1, ve := C07_number_2d_partial _ b2, lambda := C07_number_2d_partial _ b3
          tempEnrich := C07_number_2d_partial _ b4, tipinAmount := C07_number_2d_partial _ b5
          deadtime := C07_number_1d_partial _ a1, pwCorrection := C07_number_1d_partial _ a2
          tipinDuration := C07_number_1d_partial _ a3, dwell := C07_number_1d_partial _ a4
          duty := C07_number_1d_partial _ a5 }

/-! ### Violations -/

/-- Without a timing table the configuration is accepted, and the ignition calculation uses a null pointer. -/
theorem C07_null_timing [FloatFmt] (c : Config) (v : CalcValues) (h : configValid c = .ok true) :
    configValid { c with timing := none } = .ok true ∧
      calculateIgnition { c with timing := none } v = .error .nullDeref := by
  obtain ⟨v1, v2, v3, v4, v5, v6, v7⟩ := (configValid_iff c).mp h
  exact ⟨(configValid_iff _).mpr ⟨v1, rfl, v3, v4, v5, v6, v7⟩, rfl⟩

/-- The check does not look at the dwell, warm-up and boost tables: any contents are accepted. -/
theorem C07_unchecked_tables (c : Config) (h : configValid c = .ok true) (dw : Option Table1d) (en : Option Table2d)
    (bo : BoostCfg) : configValid { c with dwell := dw, tempEnrich := en, boost := bo } = .ok true := by
  obtain ⟨v1, v2, v3, v4, v5, v6, v7⟩ := (configValid_iff c).mp h
  exact (configValid_iff _).mpr ⟨v1, v2, v3, v4, v5, v6, v7⟩

/-- With voltage dwell and no dwell table, the ignition calculation uses a null pointer, in an accepted
configuration. -/
theorem C07_null_dwell :
    let c := { @dfltConfig exactFmt with dwell := none }
    configValid c = .ok true ∧ ∀ v, @calculateIgnition exactFmt c v = .error .nullDeref := by
  let _ := exactFmt
  refine ⟨by decide +kernel, ?_⟩
  intro v
  have : ∃ r, interp2 dfltTiming (Fl.ofU32 dfltDecoder.rpm) (dfltSensors sensorMap).value = .ok r := by
    have h : (interp2 dfltTiming (Fl.ofU32 dfltDecoder.rpm) (dfltSensors sensorMap).value).toOption.isSome = true := by
      decide +kernel
    cases h' : interp2 dfltTiming (Fl.ofU32 dfltDecoder.rpm) (dfltSensors sensorMap).value with
    | error e => rw [h'] at h; simp [Except.toOption] at h
    | ok r => exact ⟨r, rfl⟩
  obtain ⟨r, hr⟩ := this
  unfold calculateIgnition
  show (do
    let t ← deref (some dfltTiming)
    let adv ← interp2 t (Fl.ofU32 dfltDecoder.rpm) (dfltSensors sensorMap).value
    let dw ← dwellTime { dfltConfig with dwell := none }
    return { v with timingAdvance := adv, dwellUs := dw }) = _
  rw [show deref (some dfltTiming) = .ok dfltTiming from rfl, except_bind_ok, hr, except_bind_ok]
  rfl

/-- An empty axis is accepted, and every lookup in it reads before the start of the array. -/
theorem C07_empty_axis [FloatFmt] (t : Table1d) (h : t.cols.num = 0) (v : Fl) :
    validTable1 t = .ok true ∧ interp1 t v = .error .oob := by
  constructor
  · unfold validTable1 validAxis
    rw [h]; rfl
  · unfold interp1 clampAxis
    rw [h]
    have e1 : rd t.cols.values 0 = .ok (t.cols.values ⟨0, by decide⟩) := rd_ok t.cols.values 0 (by decide)
    have e2 : rd t.cols.values (((0 : Nat) : Int) - 1) = .error .oob := by
      apply rd_oob; simp
    rw [e1, except_bind_ok, e2]; rfl

/-- A full axis is accepted, and a lookup at its end reads past the array.  (An axis whose last breakpoint is
repeated after it is accepted too, and a lookup at its end is NaN: `C05_top_nan`.) -/
theorem C07_accepted_full_axis :
    let t : Table1d := { cols := { num := 24, values := fun i => fin (i : Nat) }, data := fun _ => fin 1 }
    validTable1 t = .ok true ∧ @interp1 exactFmt t (fin 23) = .error .oob := by
  decide +kernel

/-- A NaN breakpoint is accepted, and a lookup above it fails the assertion in the cell search (with assertions
compiled out, it reads whatever cell the search ends in). -/
theorem C07_accepted_nan_axis :
    let t : Table1d := { cols := { num := 2, values := fun i => if i = 1 then nan else fin 0 }, data := fun _ => fin 1 }
    validTable1 t = .ok true ∧ @interp1 exactFmt t (fin 1) = .error .assertFail := by
  decide +kernel

theorem C07_full_false : ¬ @C07_full exactFmt := by
  let _ := exactFmt
  intro h
  have hv : configValid { dfltConfig with timing := none } = .ok true := (C07_null_timing dfltConfig
    ⟨fin 0, 0, false, false, false, 0, fin 0, fin 0, fin 0, fin 0, fin 0, fin 0, fin 0, fin 0⟩ (by decide +kernel)).1
  exact (h _ hv).timing_there rfl

end Verif
