/-
C31 linear sensors, C32 fault substitution, C33 fault reporting, C34 lag filter, C36 routing.
-/
import Verif.Model.Sensors
import Verif.Props.Cuts
import Verif.Props.Fueling
import Verif.Props.Tasks
import Mathlib.Tactic.FieldSimp

namespace Verif
open Fl FloatFmt

/-! ### C31 -/

/-- `(v, r)` lies on the line through `(a, lo)` and `(b, hi)`. -/
def OnLine (a lo b hi v r : ℚ) : Prop := (r - lo) * (b - a) = (v - a) * (hi - lo)

/-- C31: a linear sensor reads the line through its two calibration points, at any raw value. -/
theorem C31_affine (s : Sensor) (a b lo hi v : ℚ) (ha : s.rawMin = fin a) (hb : s.rawMax = fin b)
    (hlo : s.rangeMin = fin lo) (hhi : s.rangeMax = fin hi) (hv : s.rawValue = fin v) (hab : a ≠ b) :
    ∃ r, @convertLinear exactFmt s = .fin r ∧ OnLine a lo b hi v r := by
  let _ := exactFmt
  have hba : b - a ≠ 0 := sub_ne_zero.mpr (Ne.symm hab)
  refine ⟨lo + (v - a) / (b - a) * (hi - lo), ?_, ?_⟩
  · unfold convertLinear
    rw [ha, hb, hlo, hhi, hv]
    simp only [feq_fin, decide_eq_true_iff]
    rw [if_neg (Ne.symm hab)]
    simp only [fin_sub, exact_rnd, fin_mul, fin_add, fin_div _ _ hba]
  · unfold OnLine
    field_simp
    ring

/-- Consequences: the endpoints, and staying in the range for raw values between them. -/
theorem C31_endpoints (a lo b hi v r : ℚ) (hab : a ≠ b) (h : OnLine a lo b hi v r) :
    (v = a → r = lo) ∧ (v = b → r = hi) ∧
    (a < b → lo ≤ hi → a ≤ v → v ≤ b → lo ≤ r ∧ r ≤ hi) := by
  have hba : b - a ≠ 0 := sub_ne_zero.mpr (Ne.symm hab)
  unfold OnLine at h
  refine ⟨fun e => ?_, fun e => ?_, fun h1 h2 h3 h4 => ?_⟩
  · subst e
    have : (r - lo) * (b - v) = 0 := by rw [h]; ring
    rcases mul_eq_zero.mp this with h | h
    · linarith
    · exact absurd h hba
  · subst e
    have : (r - hi) * (v - a) = 0 := by
      have : (r - hi) * (v - a) = (r - lo) * (v - a) - (v - a) * (hi - lo) := by ring
      rw [this, h]; ring
    rcases mul_eq_zero.mp this with h | h
    · linarith
    · exact absurd h hba
  · have hp : 0 < b - a := by linarith
    constructor
    · by_contra hc
      have : (r - lo) * (b - a) < 0 := mul_neg_of_neg_of_pos (by linarith) hp
      have : 0 ≤ (v - a) * (hi - lo) := mul_nonneg (by linarith) (by linarith)
      linarith
    · by_contra hc
      have h5 : 0 < (r - hi) * (b - a) := mul_pos (by linarith) hp
      have h6 : 0 ≤ (b - v) * (hi - lo) := mul_nonneg (by linarith) (by linarith)
      nlinarith

/-- C31: a calibration with equal raw endpoints reads 0, whatever the raw value (any float format). -/
theorem C31_degenerate [FloatFmt] (s : Sensor) (h : Fl.feq s.rawMax s.rawMin = true) :
    convertLinear s = fin 0 := by
  unfold convertLinear; rw [if_pos h]

/-- C31 in any float format: the reading at `raw_min` is exactly `range.min`, when the differences of the
calibration do not overflow. -/
theorem C31_min_exact [FloatFmt] (s : Sensor) (a b lo hi x y : ℚ) (ha : s.rawMin = fin a) (hb : s.rawMax = fin b)
    (hlo : s.rangeMin = fin lo) (hhi : s.rangeMax = fin hi) (hv : s.rawValue = fin a) (hab : a ≠ b)
    (hx : rnd (b - a) = Fl.fin x) (hx0 : x ≠ 0) (hy : rnd (hi - lo) = Fl.fin y) (hl : rnd lo = Fl.fin lo) :
    convertLinear s = fin lo := by
  unfold convertLinear
  rw [ha, hb, hlo, hhi, hv]
  simp only [feq_fin, decide_eq_true_iff]
  rw [if_neg (Ne.symm hab)]
  simp only [fin_sub, sub_self, rnd_zero, hx, hy, fin_div _ _ hx0, zero_div, fin_mul, zero_mul, fin_add,
    add_zero, hl]

/-- C31 in any float format: a larger raw value never gives a smaller reading. -/
theorem C31_monotone [FloatFmt] (s : Sensor) (a b lo hi v w : ℚ) (r q : ℚ) (ha : s.rawMin = fin a)
    (hb : s.rawMax = fin b) (hlo : s.rangeMin = fin lo) (hhi : s.rangeMax = fin hi)
    (hab : a < b) (hr : lo ≤ hi) (hvw : v ≤ w)
    (e1 : convertLinear { s with rawValue := fin v } = fin r)
    (e2 : convertLinear { s with rawValue := fin w } = fin q) : r ≤ q := by
  unfold convertLinear at e1 e2
  rw [ha, hb, hlo, hhi] at e1 e2
  simp only [feq_fin, decide_eq_true_iff] at e1 e2
  rw [if_neg hab.ne'] at e1 e2
  obtain ⟨x1, p1, hx1, hp1, hr1⟩ := add_eq_fin e1
  obtain ⟨x2, p2, hx2, hp2, hr2⟩ := add_eq_fin e2
  cases hx1; cases hx2
  obtain ⟨t1, y1, ht1, hy1, hm1⟩ := mul_eq_fin hp1
  obtain ⟨t2, y2, ht2, hy2, hm2⟩ := mul_eq_fin hp2
  rw [hy1] at hy2; cases hy2
  rw [fin_sub] at hy1
  have hy0 : 0 ≤ y1 := rnd_nonneg (by linarith) hy1
  have ht : t1 ≤ t2 := by
    rcases div_eq_fin ht1 with ⟨n1, d1, hn1, hd1, h01, hq1⟩ | ⟨n1, i1, hn1, hd1, h1⟩
    · rcases div_eq_fin ht2 with ⟨n2, d2, hn2, hd2, h02, hq2⟩ | ⟨n2, i2, hn2, hd2, h2⟩
      · rw [hd1] at hd2; cases hd2
        rw [fin_sub] at hn1 hn2 hd1
        have hd0 : 0 ≤ d1 := rnd_nonneg (by linarith) hd1
        exact rnd_fin_mono (div_le_div_of_nonneg_right (rnd_fin_mono (by linarith) hn1 hn2) hd0) hq1 hq2
      · rw [hd1] at hd2; cases hd2
    · rcases div_eq_fin ht2 with ⟨n2, d2, hn2, hd2, h02, hq2⟩ | ⟨n2, i2, hn2, hd2, h2⟩
      · rw [hd1] at hd2; cases hd2
      · rw [h1, h2]
  exact rnd_fin_mono (by have := rnd_fin_mono (mul_le_mul_of_nonneg_right ht hy0) hm1 hm2; linarith) hr1 hr2

example : @convertLinear exactFmt
    { @dfltSensors exactFmt 0 with rawValue := fin (5 / 2) } = fin 216 := by decide +kernel

/-! ### C32, C33, C36 -/

theorem updateAt_list {n : Nat} (f : Sensor → Except Fault Sensor) (l : List (Fin n)) (hl : l.Nodup)
    (ss : Fin n → Sensor) (g : Fin n → Sensor) (h : ∀ i ∈ l, f (ss i) = .ok (g i)) :
    l.foldlM (updateAt f) ss = .ok (fun j => if j ∈ l then g j else ss j) := by
  induction l generalizing ss with
  | nil => simp [List.foldlM]
  | cons a l ih =>
    obtain ⟨ha, hl⟩ := List.nodup_cons.mp hl
    rw [List.foldlM_cons]
    unfold updateAt
    rw [h a (List.mem_cons_self ..)]
    simp only [except_bind_ok, except_pure]
    change List.foldlM (updateAt f) (fun j => if j = a then g a else ss j) l = _
    rw [ih hl]
    · congr 1
      funext j
      by_cases hj : j = a
      · subst hj; simp [ha]
      · simp [hj]
    · intro i hi
      have : i ≠ a := fun e => ha (e ▸ hi)
      simp only [this, if_false]
      exact h i (List.mem_cons_of_mem _ hi)

theorem updateAt_inv {n : Nat} (f : Sensor → Except Fault Sensor) (l : List (Fin n)) (hl : l.Nodup)
    (ss ss' : Fin n → Sensor) (h : l.foldlM (updateAt f) ss = .ok ss') :
    ∀ i ∈ l, ∃ v, f (ss i) = .ok v := by
  induction l generalizing ss with
  | nil => intro i hi; simp at hi
  | cons a l ih =>
    obtain ⟨ha, hl⟩ := List.nodup_cons.mp hl
    rw [List.foldlM_cons] at h
    obtain ⟨s1, h1, h2⟩ := bind_eq_ok.mp h
    unfold updateAt at h1
    obtain ⟨v, hv, h3⟩ := bind_eq_ok.mp h1
    replace h3 := Except.ok.inj h3
    intro i hi
    rcases List.mem_cons.mp hi with e | hi
    · rw [e]; exact ⟨v, hv⟩
    · obtain ⟨w, hw⟩ := ih hl s1 h2 i hi
      rw [← h3] at hw
      have : i ≠ a := fun e => ha (e ▸ hi)
      simp only [this, if_false] at hw
      exact ⟨w, hw⟩

/-- An update of the whole array is the update of each sensor by itself. -/
theorem updateAt_each {n : Nat} (f : Sensor → Except Fault Sensor) (ss ss' : Fin n → Sensor)
    (h : (List.finRange n).foldlM (updateAt f) ss = .ok ss') (i : Fin n) : f (ss i) = .ok (ss' i) := by
  have := updateAt_inv f _ (List.nodup_finRange n) ss ss' h
  choose g hg using fun i => this i (List.mem_finRange i)
  have e := updateAt_list f _ (List.nodup_finRange n) ss g fun i _ => hg i
  rw [h] at e
  rw [hg i, Except.ok.inj e]
  simp

/-- An update of sensor `s`: which raw value it is given, when, and whether the source was valid;
`none` when the update does not concern it. -/
inductive Update
  | adc (u : AdcUpdate)
  | freq (u : FreqUpdate)

def Update.valid : Update → Bool
  | .adc u => u.valid
  | .freq u => u.valid

/-- The raw value an update carries for a sensor, if any: an ADC update carries the value of the
sensor's own input, if there is such an input; a frequency update carries the frequency or the pulse
width, for sensors on its pin. -/
def Update.rawFor (u : Update) (s : Sensor) : Option Fl :=
  match u with
  | .adc u => if h : s.source = .adc ∧ s.pin.toNat < maxAdcPins then some (u.values ⟨s.pin.toNat, h.2⟩) else none
  | .freq u =>
    if s.pin = u.pin then
      match s.source with
      | .freq => some u.frequency
      | .pulsewidth => some u.pulsewidth
      | _ => none
    else none

section
variable [FloatFmt] [LibM]

/-- The firmware's handling of an update. -/
def Update.apply (u : Update) (rate : BitVec 32) (d : Decoder) (now : Time) (ss : Fin numSensors → Sensor) :
    Except Fault (Fin numSensors → Sensor) :=
  match u with
  | .adc u => updateAdc rate d now u ss
  | .freq u => updateFreq rate d now u ss

def Update.time : Update → Time
  | .adc u => u.time
  | .freq u => u.time

/-- C36: an update leaves alone every sensor it carries no value for, and every other sensor is updated
from the value carried for it and nothing else. -/
theorem C36_routing {u : Update} {rate : BitVec 32} {d : Decoder} {now : Time} {ss ss' : Fin numSensors → Sensor}
    (h : u.apply rate d now ss = .ok ss') (i : Fin numSensors) :
    (u.rawFor (ss i) = none → ss' i = ss i) ∧
    (∀ v, u.rawFor (ss i) = some v →
      sensorConvert rate d now { ss i with fault := if u.valid then .none else .conn } v u.time = .ok (ss' i)) := by
  cases u with
  | adc u =>
    have e := updateAt_each _ _ _ h i
    unfold adcOne at e
    by_cases hc : (ss i).source = .adc ∧ (ss i).pin.toNat < maxAdcPins
    · have hr : Update.rawFor (.adc u) (ss i) = some (u.values ⟨(ss i).pin.toNat, hc.2⟩) := by
        unfold Update.rawFor; simp only; rw [dif_pos hc]
      rw [hr]
      rw [if_neg (not_not.mpr hc.1), if_neg (not_le.mpr hc.2), rd_ok _ _ hc.2] at e
      refine ⟨fun hn => by simp at hn, fun v hv => ?_⟩
      rw [← Option.some.inj hv]
      exact e
    · have hr : Update.rawFor (.adc u) (ss i) = none := by
        unfold Update.rawFor; simp only; rw [dif_neg hc]
      rw [hr]
      refine ⟨fun _ => ?_, fun v hv => by simp at hv⟩
      by_cases h1 : (ss i).source = .adc
      · rw [if_neg (not_not.mpr h1), if_pos (not_lt.mp fun h2 => hc ⟨h1, h2⟩)] at e
        exact (Except.ok.inj e).symm
      · rw [if_pos h1] at e
        exact (Except.ok.inj e).symm
  | freq u =>
    have e := updateAt_each _ _ _ h i
    unfold freqOne at e
    by_cases h1 : (ss i).pin = u.pin
    · rw [if_neg (not_not.mpr h1)] at e
      split at e
      · rename_i hs
        have hr : Update.rawFor (.freq u) (ss i) = some u.frequency := by simp [Update.rawFor, h1, hs]
        rw [hr]
        refine ⟨fun hn => by simp at hn, fun v hv => ?_⟩
        rw [← Option.some.inj hv]
        exact e
      · rename_i hs
        have hr : Update.rawFor (.freq u) (ss i) = some u.pulsewidth := by simp [Update.rawFor, h1, hs]
        rw [hr]
        refine ⟨fun hn => by simp at hn, fun v hv => ?_⟩
        rw [← Option.some.inj hv]
        exact e
      · rename_i h2 h3
        refine ⟨fun _ => (Except.ok.inj e).symm, fun v hv => ?_⟩
        unfold Update.rawFor at hv
        simp [h1] at hv
    · rw [if_pos h1] at e
      refine ⟨fun _ => (Except.ok.inj e).symm, fun v hv => ?_⟩
      simp [Update.rawFor, h1] at hv

/-- C36: constant and unassigned sensors never change. -/
theorem C36_const {u : Update} {rate : BitVec 32} {d : Decoder} {now : Time} {ss ss' : Fin numSensors → Sensor}
    (h : u.apply rate d now ss = .ok ss') (i : Fin numSensors)
    (hc : (ss i).source = .const ∨ (ss i).source = .none) : ss' i = ss i := by
  apply (C36_routing h i).1
  cases u with
  | adc u => unfold Update.rawFor; rcases hc with hc | hc <;> simp [hc]
  | freq u => unfold Update.rawFor; rcases hc with hc | hc <;> simp [hc]

/-- The reading is unusable: the source says so, or fault bounds are configured (a non-zero upper bound)
and the raw value is outside them. -/
def Bad (u : Update) (s : Sensor) (v : Fl) : Prop :=
  u.valid = false ∨ (Fl.feq s.faultMax (fin 0) = false ∧ (Fl.lt v s.faultMin = true ∨ Fl.lt s.faultMax v = true))

omit [FloatFmt] [LibM] in
theorem detect_iff (u : Update) (s : Sensor) (v : Fl) (t : Time) :
    detectFaults { s with fault := if u.valid then .none else .conn, rawValue := v, time := t } ≠ .none ↔ Bad u s v := by
  unfold detectFaults Bad
  rcases hv : u.valid
  · simp
  · simp only [if_true, ne_eq, not_true_eq_false, if_false, Bool.true_eq_false, false_or]
    by_cases h0 : Fl.feq s.faultMax (fin 0) = true
    · simp [h0]
    · have h0' : Fl.feq s.faultMax (fin 0) = false := by simpa using h0
      simp only [h0', Bool.not_false, if_true, true_and, Bool.or_eq_true]
      split_ifs with h1
      · simpa using h1
      · simpa using h1

/-- C32: an unusable reading makes the sensor read its configured fault value, with zero rate; any other
reading makes it read the conversion of that reading (by its configured method, then the lag filter). -/
theorem C32_substitution {u : Update} {rate : BitVec 32} {d : Decoder} {now : Time}
    {ss ss' : Fin numSensors → Sensor} (h : u.apply rate d now ss = .ok ss') (i : Fin numSensors) (v : Fl)
    (hv : u.rawFor (ss i) = some v) :
    (Bad u (ss i) v → (ss' i).value = (ss i).faultValue ∧ (ss' i).derivative = fin 0) ∧
    (¬ Bad u (ss i) v → ∃ w r, convertByMethod d now
        { ss i with rawValue := v, time := u.time, fault := .none } = .ok (w, r) ∧
      (ss' i).value = processLag (ss i) r) := by
  have e := (C36_routing h i).2 v hv
  unfold sensorConvert at e
  simp only at e
  have hd := detect_iff u (ss i) v u.time
  constructor
  · intro hb
    rw [if_pos (hd.mpr hb)] at e
    rw [← Except.ok.inj e]
    exact ⟨rfl, rfl⟩
  · intro hb
    rw [if_neg (fun x => hb (hd.mp x))] at e
    have hval : u.valid = true := by
      by_contra hn
      exact hb (Or.inl (by simpa using hn))
    rw [hval] at e
    obtain ⟨⟨w, r⟩, h1, h2⟩ := bind_eq_ok.mp e
    simp only at h2
    obtain ⟨dv, h3, h4⟩ := bind_eq_ok.mp h2
    refine ⟨w, r, h1, ?_⟩
    rw [← Except.ok.inj h4]
    rfl

/-- C33: what is reported for a sensor by the fault status. -/
def Reported (ss : Fin numSensors → Sensor) (i : Fin numSensors) : Prop := (faultStatus ss).getLsbD i = true

/-- C33: a sensor's bit after an update of it says whether the update's source was invalid. -/
theorem C33_connection_partial {u : Update} {rate : BitVec 32} {d : Decoder} {now : Time}
    {ss ss' : Fin numSensors → Sensor} (h : u.apply rate d now ss = .ok ss') (i : Fin numSensors) :
    (∀ v, u.rawFor (ss i) = some v → (Reported ss' i ↔ u.valid = false)) ∧
    (u.rawFor (ss i) = none → (Reported ss' i ↔ Reported ss i)) := by
  unfold Reported
  rw [faultStatus_bit, faultStatus_bit]
  constructor
  · intro v hv
    have e := (C36_routing h i).2 v hv
    have hf : (ss' i).fault = if u.valid then .none else .conn := by
      unfold sensorConvert at e
      simp only at e
      by_cases hb : Bad u (ss i) v
      · rw [if_pos ((detect_iff u (ss i) v u.time).mpr hb)] at e
        rw [← Except.ok.inj e]
      · rw [if_neg (fun x => hb ((detect_iff u (ss i) v u.time).mp x))] at e
        obtain ⟨⟨w, r⟩, h1, h2⟩ := bind_eq_ok.mp e
        simp only at h2
        obtain ⟨dv, h3, h4⟩ := bind_eq_ok.mp h2
        rw [← Except.ok.inj h4]
    rw [hf, decide_eq_true_iff]
    cases u.valid <;> simp
  · intro hn
    rw [(C36_routing h i).1 hn]

end

/-- C33 as stated: the bit says whether the latest update was unusable for any reason. -/
def C33_full : Prop := ∀ (_ : FloatFmt) (_ : LibM) (u : Update) (rate : BitVec 32) (d : Decoder) (now : Time)
  (ss ss' : Fin numSensors → Sensor), u.apply rate d now ss = .ok ss' → ∀ (i : Fin numSensors) (v : Fl),
  u.rawFor (ss i) = some v → (Reported ss' i ↔ Bad u (ss i) v)

/-- The manifold pressure sensor of the shipped configuration, driven to 0 V: outside its fault bounds. -/
def lowMap : AdcUpdate := { time := 100, valid := true, values := fun _ => fin 0 }

@[instance_reducible] def anyLibM : LibM := ⟨fun _ => fin 0, fun _ => fin 0⟩

/-- Violation: a raw value outside the fault bounds makes the sensor read its fault value, but nothing is
reported and the check-engine light stays dark. -/
theorem C33_full_false : ¬ C33_full := by
  intro hf
  let _ := exactFmt
  let _ := anyLibM
  let ss : Fin numSensors → Sensor := fun _ => dfltSensors 0
  have h1 : ∀ i ∈ List.finRange numSensors, adcOne 5000 dfltDecoder 0 lowMap (ss i) =
      .ok ((fun _ => { dfltSensors 0 with fault := .none, value := (dfltSensors 0).faultValue,
                                          derivative := fin 0, rawValue := fin 0, time := 100 }) i) := by
    intro i _
    revert i
    decide +kernel
  have h2 := updateAt_list _ _ (List.nodup_finRange numSensors) ss _ h1
  have h3 : (Update.adc lowMap).rawFor (ss 0) = some (fin 0) := by decide +kernel
  have := hf _ _ (.adc lowMap) 5000 dfltDecoder 0 ss _ h2 0 (fin 0) h3
  have hb : Bad (.adc lowMap) (ss 0) (fin 0) := Or.inr (by decide +kernel)
  have hr := this.mpr hb
  unfold Reported at hr
  rw [faultStatus_bit] at hr
  simp at hr

/-! ### C34 -/

/-- The filtered values after each of a list of readings, starting from `v`. -/
def lagged [FloatFmt] (s : Sensor) : Fl → List Fl → Fl
  | v, [] => v
  | v, x :: xs => lagged s (processLag { s with value := v } x) xs

theorem exact_processLag (s : Sensor) (v x lag : ℚ) (hv : s.value = fin v) (hl : s.lag = fin lag) :
    @processLag exactFmt s (fin x) = fin (v * (lag / 100) + x * (1 - lag / 100)) := by
  let _ := exactFmt
  unfold processLag
  rw [hl, hv]
  simp only [feq_fin, decide_eq_true_iff]
  split_ifs with h
  · rw [h]; norm_num
  · simp only [fin_sub, exact_rnd, fin_mul, fin_add, fin_div _ _ (show (100 : ℚ) ≠ 0 by norm_num)]
    congr 1
    ring

/-- C34: with a lag between 0 and 100 the filtered value stays between any bounds that hold for the
initial value and every reading, for every history of readings. -/
theorem C34_no_overshoot (s : Sensor) (lag lo hi v : ℚ) (xs : List ℚ) (hl : s.lag = fin lag) (h0 : 0 ≤ lag)
    (h1 : lag ≤ 100) (hv : lo ≤ v ∧ v ≤ hi) (hx : ∀ x ∈ xs, lo ≤ x ∧ x ≤ hi) :
    ∃ r, @lagged exactFmt s (fin v) (xs.map fin) = fin r ∧ lo ≤ r ∧ r ≤ hi := by
  induction xs generalizing v with
  | nil => exact ⟨v, rfl, hv⟩
  | cons x xs ih =>
    obtain ⟨hx1, hx2⟩ := hx x (List.mem_cons_self ..)
    have e := exact_processLag { s with value := fin v } v x lag rfl hl
    have hw : 0 ≤ lag / 100 := by positivity
    have hw1 : 0 ≤ 1 - lag / 100 := by linarith
    obtain ⟨r, hr, hb⟩ := ih (v * (lag / 100) + x * (1 - lag / 100)) ⟨by nlinarith, by nlinarith⟩
      fun y hy => hx y (List.mem_cons_of_mem _ hy)
    refine ⟨r, ?_, hb⟩
    rw [← hr, List.map_cons]
    unfold lagged
    rw [e]
    cases xs <;> rfl

/-- C34: with no lag the value follows the reading (any float format). -/
theorem C34_no_lag [FloatFmt] (s : Sensor) (x : Fl) (h : Fl.feq s.lag (fin 0) = true) : processLag s x = x := by
  unfold processLag; rw [if_pos h]

/-- C34: a constant reading is approached geometrically. -/
theorem C34_geometric (s : Sensor) (lag v x : ℚ) (n : Nat) (hl : s.lag = fin lag) :
    ∃ r, @lagged exactFmt s (fin v) (List.replicate n (fin x)) = fin r ∧ r - x = (lag / 100) ^ n * (v - x) := by
  induction n generalizing v with
  | zero => exact ⟨v, rfl, by ring⟩
  | succ n ih =>
    have e := exact_processLag { s with value := fin v } v x lag rfl hl
    obtain ⟨r, hr, hb⟩ := ih (v * (lag / 100) + x * (1 - lag / 100))
    refine ⟨r, ?_, ?_⟩
    · rw [← hr, List.replicate_succ]
      unfold lagged
      rw [e]
      cases n <;> rfl
    · rw [hb]; ring

/-- C34 for the firmware's update: after any update of a linear sensor, the new value is a fault value or
lies between the old value and the converted reading. -/
theorem C34_update [LibM] {rate : BitVec 32} {d : Decoder} {now : Time} {s s' : Sensor} {raw : Fl} {t : Time}
    {lag v x : ℚ} (h : @sensorConvert exactFmt _ rate d now s raw t = .ok s') (hm : s.method = .linear)
    (hl : s.lag = fin lag) (h0 : 0 ≤ lag) (h1 : lag ≤ 100) (hv : s.value = fin v)
    (hx : @convertLinear exactFmt { s with rawValue := raw } = fin x) :
    s'.value = s.faultValue ∨ ∃ r, s'.value = fin r ∧ min v x ≤ r ∧ r ≤ max v x := by
  let _ := exactFmt
  unfold sensorConvert at h
  simp only at h
  by_cases hb : detectFaults { s with rawValue := raw, time := t } ≠ .none
  · rw [if_pos hb] at h
    left
    rw [← Except.ok.inj h]
  · rw [if_neg hb] at h
    unfold convertByMethod at h
    simp only [hm, except_bind_ok] at h
    right
    obtain ⟨dv, h3, h4⟩ := bind_eq_ok.mp h
    refine ⟨v * (lag / 100) + x * (1 - lag / 100), ?_, ?_, ?_⟩
    · rw [← Except.ok.inj h4]
      simp only
      have hc : convertLinear { s with rawValue := raw, time := t } = fin x := hx
      rw [← exact_processLag { s with rawValue := raw, time := t } v x lag hv hl, ← hc]
      rw [hm]
    · have hw : 0 ≤ lag / 100 := by positivity
      have hw1 : 0 ≤ 1 - lag / 100 := by linarith
      nlinarith [min_le_left v x, min_le_right v x]
    · have hw : 0 ≤ lag / 100 := by positivity
      have hw1 : 0 ≤ 1 - lag / 100 := by linarith
      nlinarith [le_max_left v x, le_max_right v x]

end Verif
