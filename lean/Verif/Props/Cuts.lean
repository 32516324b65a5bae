/-
C22: rev limiter.  C23: cuts.  C25: cranking enrichment.  C26: acceleration enrichment.
-/
import Verif.Spec.Demo
import Verif.Proofs.Time
import Verif.Props.Time
import Verif.Props.Util

namespace Verif
open Fl FloatFmt

theorem timeFromUs_eq [FloatFmt] (us : BitVec 32) (h : us.toNat ≤ 2 ^ 24) : timeFromUs us = .ok (4 * us) := by
  obtain ⟨v, e, hv⟩ := C02_time_from_us_exact us h
  rw [e]
  congr 1
  apply BitVec.eq_of_toNat_eq
  rw [hv, BitVec.toNat_mul]
  show _ = 4 * us.toNat % 2 ^ 32
  omega

/-! ### C22 -/

/-- The limiter evaluated at each rpm of a history, oldest first. -/
def runLimiter (c : Config) (v : CalcValues) : List (BitVec 32) → CalcValues
  | [] => v
  | r :: rs => runLimiter c (rpmCut { c with decoder := { c.decoder with rpm := r } } v).2 rs

/-- C22: after any history, the rpm cut is active exactly when at some point of it the rpm was at or above the stop
limit and from that point on never below the start limit (or the cut was active before and the rpm was never
below the start limit). -/
theorem C22_hysteresis (c : Config) (v : CalcValues) (rs : List (BitVec 32)) :
    (runLimiter c v rs).rpmLimitCut = true ↔
      (v.rpmLimitCut = true ∧ ∀ r ∈ rs, c.rpmStart.toNat ≤ r.toNat) ∨
      ∃ pre r post, rs = pre ++ r :: post ∧ c.rpmStop.toNat ≤ r.toNat ∧
        ∀ x ∈ r :: post, c.rpmStart.toNat ≤ x.toNat := by
  induction rs generalizing v with
  | nil => simp [runLimiter]
  | cons a rs ih =>
    rw [runLimiter, ih]
    have e : (rpmCut { c with decoder := { c.decoder with rpm := a } } v).2.rpmLimitCut = true ↔
        c.rpmStart.toNat ≤ a.toNat ∧ (c.rpmStop.toNat ≤ a.toNat ∨ v.rpmLimitCut = true) := by
      simp only [rpmCut]
      by_cases h1 : a.toNat < c.rpmStart.toNat <;> by_cases h2 : c.rpmStop.toNat ≤ a.toNat <;>
        simp [h1, h2] <;> omega
    rw [e]
    constructor
    · rintro (⟨⟨h1, h2 | h2⟩, h3⟩ | ⟨pre, r, post, rfl, h1, h2⟩)
      · exact .inr ⟨[], a, rs, rfl, h2, by simpa using ⟨h1, h3⟩⟩
      · exact .inl ⟨h2, by simpa using ⟨h1, h3⟩⟩
      · exact .inr ⟨a :: pre, r, post, rfl, h1, h2⟩
    · rintro (⟨h1, h2⟩ | ⟨pre, r, post, h0, h1, h2⟩)
      · exact .inl ⟨⟨h2 a (by simp), .inr h1⟩, fun x hx => h2 x (by simp [hx])⟩
      · cases pre with
        | nil =>
          simp only [List.nil_append, List.cons.injEq] at h0
          obtain ⟨rfl, rfl⟩ := h0
          exact .inl ⟨⟨h2 a (by simp), .inl h1⟩, fun x hx => h2 x (by simp [hx])⟩
        | cons b pre =>
          simp only [List.cons_append, List.cons.injEq] at h0
          obtain ⟨rfl, rfl⟩ := h0
          exact .inr ⟨pre, r, post, rfl, h1, h2⟩

/-- C22: every evaluation of the cuts evaluates the limiter once: it changes the limiter state as `rpm_cut` does. -/
theorem C22_every_evaluation [FloatFmt] (c : Config) (v v' : CalcValues) (b : Bool)
    (h : ignitionCut c v = .ok (b, v')) : v'.rpmLimitCut = (rpmCut c v).2.rpmLimitCut := by
  unfold ignitionCut at h
  simp only at h
  split_ifs at h with h1
  · cases h; rfl
  · obtain ⟨⟨o, w⟩, h2, h3⟩ := bind_eq_ok.mp h
    unfold fuelOverduty at h2
    obtain ⟨t, ht, h2⟩ := bind_eq_ok.mp h2
    split_ifs at h2 with hz
    obtain ⟨pw, hp, h2⟩ := bind_eq_ok.mp h2
    cases h2
    simp only at h3
    split_ifs at h3
    · cases h3; rfl
    · cases h3; rfl

/-! Non-vacuity: with the shipped limits (stop 6700, start 6200) the cut comes on at 6800, stays on at 6300 and goes
off at 6100. -/
example : (runLimiter (@demoConfig exactFmt) zeroCalc [6800]).rpmLimitCut = true ∧
    (runLimiter (@demoConfig exactFmt) zeroCalc [6800, 6300]).rpmLimitCut = true ∧
    (runLimiter (@demoConfig exactFmt) zeroCalc [6800, 6300, 6100]).rpmLimitCut = false ∧
    (runLimiter (@demoConfig exactFmt) zeroCalc [6800, 6300, 6100, 6300]).rpmLimitCut = false := by
  decide +kernel

/-! ### C23 -/

/-- The injector would be open for at least the whole time available to one injection. -/
def Overduty [FloatFmt] (c : Config) (v : CalcValues) : Prop :=
  ∃ cycle pw, timeFromRpmDiff c.decoder.rpm (Fl.fin 720) = .ok cycle ∧ timeFromUs v.fuelingUs = .ok pw ∧
    cycle.toNat / c.fueling.injections.toNat ≤ pw.toNat

/-- Manifold pressure above the overboost limit. -/
def Overboost (c : Config) : Prop := Fl.lt c.boost.overboost (c.sensors sensorMap).value = true

/-- C23: the cut is on exactly when the rev limiter is active, the injectors are over their duty, or there is
overboost; and the reported flags agree: some flag is set exactly when the cut is on. -/
theorem C23_cut [FloatFmt] (c : Config) (v v' : CalcValues) (b : Bool) (h : ignitionCut c v = .ok (b, v')) :
    (b = true ↔ v'.rpmLimitCut = true ∨ Overduty c v ∨ Overboost c) ∧
    (b = true ↔ v'.rpmLimitCut = true ∨ v'.overdutyCut = true ∨ v'.boostCut = true) ∧
    (b = false → ¬ Overduty c v ∧ ¬ Overboost c ∧ v'.overdutyCut = false ∧ v'.boostCut = false) := by
  have hl := C22_every_evaluation c v v' b h
  unfold ignitionCut at h
  simp only at h
  split_ifs at h with h1
  · cases h
    have : (rpmCut c v).2.rpmLimitCut = true := h1
    simp [this]
  · obtain ⟨⟨o, w⟩, h2, h3⟩ := bind_eq_ok.mp h
    have hr : (rpmCut c v).2.rpmLimitCut = false := by simpa [rpmCut] using h1
    have hf : (rpmCut c v).2.fuelingUs = v.fuelingUs := rfl
    unfold fuelOverduty at h2
    obtain ⟨t, ht, h2⟩ := bind_eq_ok.mp h2
    split_ifs at h2 with hz
    obtain ⟨pw, hp, h2⟩ := bind_eq_ok.mp h2
    rw [hf] at hp
    cases h2
    have hdiv : (t.udiv c.fueling.injections).toNat = t.toNat / c.fueling.injections.toNat := BitVec.toNat_udiv
    have hO : Overduty c v ↔ t.toNat / c.fueling.injections.toNat ≤ pw.toNat := by
      constructor
      · rintro ⟨t', pw', e1, e2, h⟩
        rw [ht] at e1; rw [hp] at e2
        cases e1; cases e2; exact h
      · intro h; exact ⟨t, pw, ht, hp, h⟩
    rw [hdiv] at h3
    simp only at h3
    rw [hO, hl, hr]
    by_cases hd : t.toNat / c.fueling.injections.toNat ≤ pw.toNat
    · rw [if_pos (by simpa using hd)] at h3
      cases h3
      simp [hd]
    · rw [if_neg (by simpa using hd)] at h3
      cases h3
      simp only [hd, Overboost, decide_false, false_or]
      simp

/-- C23: `fuel_cut` and `ignition_cut` are the same function of the same state, and evaluating them again without
anything changing gives the same answer. -/
theorem C23_idempotent [FloatFmt] (c : Config) (v v' : CalcValues) (b : Bool) (h : ignitionCut c v = .ok (b, v')) :
    ignitionCut c v' = .ok (b, v') := by
  have rp : ∀ (v : CalcValues), (rpmCut c (rpmCut c v).2) = rpmCut c v := by
    intro v
    simp only [rpmCut]
    by_cases h1 : c.decoder.rpm.toNat < c.rpmStart.toNat <;> by_cases h2 : c.rpmStop.toNat ≤ c.decoder.rpm.toNat <;>
      simp [h1, h2]
  unfold ignitionCut at h
  simp only at h
  split_ifs at h with h1
  · cases h
    unfold ignitionCut
    simp only [rp, h1, if_true]
  · obtain ⟨⟨o, w⟩, h2, h3⟩ := bind_eq_ok.mp h
    unfold fuelOverduty at h2
    obtain ⟨t, ht, h2⟩ := bind_eq_ok.mp h2
    split_ifs at h2 with hz
    obtain ⟨pw, hp, h2⟩ := bind_eq_ok.mp h2
    simp only [except_pure, Except.ok.injEq, Prod.mk.injEq] at h2
    obtain ⟨rfl, rfl⟩ := h2
    have rp2 : ∀ (o b : Bool), rpmCut c { (rpmCut c v).2 with overdutyCut := o } =
        ((rpmCut c v).1, { (rpmCut c v).2 with overdutyCut := o }) ∧
        rpmCut c { (rpmCut c v).2 with overdutyCut := o, boostCut := b } =
        ((rpmCut c v).1, { (rpmCut c v).2 with overdutyCut := o, boostCut := b }) := by
      intro o b
      simp only [rpmCut]
      by_cases h1 : c.decoder.rpm.toNat < c.rpmStart.toNat <;> by_cases h2 : c.rpmStop.toNat ≤ c.decoder.rpm.toNat <;>
        simp [h1, h2]
    have od : ∀ (u : CalcValues), u.fuelingUs = (rpmCut c v).2.fuelingUs → fuelOverduty c u =
        .ok (decide ((t.udiv c.fueling.injections).toNat ≤ pw.toNat),
          { u with overdutyCut := decide ((t.udiv c.fueling.injections).toNat ≤ pw.toNat) }) := by
      intro u hu
      unfold fuelOverduty
      rw [ht, except_bind_ok, if_neg hz, hu, hp, except_bind_ok, except_pure]
    simp only at h3
    by_cases hd : (t.udiv c.fueling.injections).toNat ≤ pw.toNat
    · rw [if_pos (by simpa only [decide_eq_true_eq] using hd)] at h3
      cases h3
      unfold ignitionCut
      simp only [(rp2 _ false).1, h1]
      rw [od]
      · simp only [decide_eq_true hd]; rfl
      · rfl
    · rw [if_neg (by simpa only [decide_eq_true_eq] using hd)] at h3
      cases h3
      unfold ignitionCut
      simp only [boostCut, (rp2 _ _).2, h1]
      rw [od]
      · simp only [decide_eq_false hd]; rfl
      · rfl

/-- C23, the division corner: with no injections per cycle configured, evaluating the cuts divides by zero unless
the rev limiter is active (or the rpm is so low that the cycle time does not fit). -/
theorem C23_zero_injections [FloatFmt] (c : Config) (v : CalcValues) (h0 : c.fueling.injections = 0)
    (hr : (rpmCut c v).1 = false) (t : Time) (ht : timeFromRpmDiff c.decoder.rpm (Fl.fin 720) = .ok t) :
    ignitionCut c v = .error .divZero := by
  unfold ignitionCut fuelOverduty
  simp [hr, ht, h0]

/-- The flags are not all current: while the rev limiter cuts, the overboost flag keeps its old value (here it
reports a boost cut although the pressure is below the limit). -/
theorem C23_stale_flag [FloatFmt] (c : Config) (v : CalcValues) (hb : v.boostCut = true) (hno : ¬ Overboost c)
    (hr : c.rpmStop.toNat ≤ c.decoder.rpm.toNat) (hs : c.rpmStart.toNat ≤ c.rpmStop.toNat) :
    ∃ v', ignitionCut c v = .ok (true, v') ∧ v'.boostCut = true ∧ ¬ Overboost c := by
  have h1 : ¬ c.decoder.rpm.toNat < c.rpmStart.toNat := by omega
  refine ⟨(rpmCut c v).2, ?_, ?_, hno⟩
  · unfold ignitionCut
    simp [rpmCut, hr, h1]
  · exact hb

/-! Non-vacuity: no cut at the demo point; a pulse as long as the cycle, too much pressure or too high an rpm cut. -/
example :
    let c := @demoConfig binary32
    @ignitionCut binary32 c { zeroCalc with fuelingUs := 39999 } = .ok (false, { zeroCalc with fuelingUs := 39999 }) ∧
    @ignitionCut binary32 c { zeroCalc with fuelingUs := 40000 } =
      .ok (true, { zeroCalc with fuelingUs := 40000, overdutyCut := true }) ∧
    @ignitionCut binary32 { c with boost := { c.boost with overboost := fin 79 } } zeroCalc =
      .ok (true, { zeroCalc with boostCut := true }) ∧
    @ignitionCut binary32 { c with decoder := { c.decoder with rpm := 6700 } } zeroCalc =
      .ok (true, { zeroCalc with rpmLimitCut := true }) ∧
    @ignitionCut binary32 { c with fueling := { c.fueling with injections := 0 } } zeroCalc = .error .divZero := by
  decide +kernel

/-! ### C25 -/

/-- C25: for any rounding and any rpm that a float can hold, the enrichment is the cranking amount exactly when rpm
and coolant temperature are below their limits, and otherwise what the warm-up table gives (1 without a table). -/
theorem C25_enrichment [FloatFmt] (c : Config) (e : Fl) (crank clt cutoff : ℚ)
    (hr : c.decoder.rpm.toNat ≤ 2 ^ 24) (h1 : c.fueling.crankRpm = fin crank)
    (h2 : (c.sensors sensorClt).value = fin clt) (h3 : c.fueling.crankTemp = fin cutoff)
    (ht : (∃ t, c.tempEnrich = some t ∧ interp2 t (fin clt) (c.sensors sensorMap).value = .ok e) ∨
      (c.tempEnrich = none ∧ e = fin 1)) :
    (((c.decoder.rpm.toNat : ℚ) < crank ∧ clt < cutoff) → enrichment c = .ok c.fueling.crankAmt) ∧
    (¬ ((c.decoder.rpm.toNat : ℚ) < crank ∧ clt < cutoff) → enrichment c = .ok e) := by
  have hl : look2 c.tempEnrich (c.sensors sensorClt).value (c.sensors sensorMap).value (Fl.fin 1) = .ok e := by
    rw [h2]
    rcases ht with ⟨t, h, h'⟩ | ⟨h, rfl⟩
    · rw [h]; exact h'
    · rw [h]; rfl
  have hrpm : Fl.ofU32 c.decoder.rpm = fin (c.decoder.rpm.toNat : ℚ) := rnd_nat _ hr
  unfold enrichment
  rw [hl, except_bind_ok, hrpm, h1, h2, h3]
  simp only [lt_fin]
  constructor
  · rintro ⟨ha, hb⟩; simp [ha, hb]
  · intro h
    have hb : (decide ((c.decoder.rpm.toNat : ℚ) < crank) && decide (clt < cutoff)) = false := by
      rw [← Bool.not_eq_true]; simpa using h
    simp [hb]

/-! Non-vacuity: warm at 3000 rpm the shipped table gives 1; cranking at 200 rpm and 10 °C it is the cranking amount;
at 10 °C and 400 rpm (the limit itself) it is the table again. -/
example :
    let c := @demoConfig binary32
    let cold : Config := { c with sensors := fun i => if i = sensorClt then { c.sensors i with value := fin 10 } else c.sensors i }
    @enrichment binary32 c = .ok (fin 1) ∧
    @enrichment binary32 { cold with decoder := { c.decoder with rpm := 200 } } = .ok (fin (5 / 2)) ∧
    (@enrichment binary32 { cold with decoder := { c.decoder with rpm := 400 } }).toOption.map (Fl.lt (fin 1)) = some true ∧
    @enrichment binary32 { cold with decoder := { c.decoder with rpm := 400 } } ≠ .ok (fin (5 / 2)) := by
  decide +kernel

/-! ### C26 -/

/-- One call of the tip-in code in terms of its demand and the duration it would start: `now`, the demand from the
amount table, the duration (ticks) from the duration table. -/
structure TipCall where
  now : Time
  demand : Fl
  len : Time

/-- The code makes this call: both tables are there and give these values. -/
def Calls [FloatFmt] (c : Config) (s : Tipin) (k : TipCall) (r : Fl) (s' : Tipin) : Prop :=
  ∃ amt dur ms us, c.tipinAmount = some amt ∧ c.tipinDuration = some dur ∧
    interp2 amt (c.sensors sensorTps).derivative (c.sensors sensorTps).value = .ok k.demand ∧
    interp1 dur (Fl.ofInt c.decoder.rpm.toInt) = .ok ms ∧ Fl.toU32 (ms * Fl.fin 1000) = .ok us ∧
    timeFromUs us = .ok k.len ∧
    calcTipin c k.now s (c.sensors sensorTps).value (c.sensors sensorTps).derivative c.decoder.rpm = .ok (r, s')

/-- An event is running at a time. -/
def Tipin.Running (s : Tipin) (now : Time) : Prop := s.active = true ∧ (now - s.time).toNat ≤ s.length.toNat

instance (s : Tipin) (now : Time) : Decidable (s.Running now) := by unfold Tipin.Running; infer_instance

theorem tipinExpire_active (s : Tipin) (now : Time) : (tipinExpire now s).active = true ↔ s.Running now := by
  unfold tipinExpire Tipin.Running timeInRange
  have : (s.time + s.length - s.time) = s.length := by bv_omega
  rw [this]
  by_cases h1 : s.active = true
  · by_cases h2 : (now - s.time).toNat ≤ s.length.toNat <;> simp [h1, h2, -BitVec.toNat_sub]
  · simp only [Bool.not_eq_true] at h1
    simp [h1]

/-- C26, one call.  While an event is running the result is the larger of its amount and the demand, and a new event
begins only if the demand is larger; otherwise the result is the demand, and a new event begins.  A new event begins
now, with the demand as amount and the table's duration. -/
theorem C26_call [FloatFmt] (c : Config) (s s' : Tipin) (k : TipCall) (r : Fl) (h : Calls c s k r s') :
    r = s'.amount ∧ s'.active = true ∧
    (s.Running k.now → Fl.lt s.amount k.demand = false → s' = s ∧ r = s.amount) ∧
    (s.Running k.now → Fl.lt s.amount k.demand = true →
      s' = { time := k.now, length := k.len, amount := k.demand, active := true }) ∧
    (¬ s.Running k.now → s' = { time := k.now, length := k.len, amount := k.demand, active := true }) := by
  obtain ⟨amt, dur, ms, us, h1, h2, h3, h4, h5, h6, h7⟩ := h
  unfold calcTipin at h7
  rw [h1, h2] at h7
  simp only at h7
  rw [h3, except_bind_ok] at h7
  obtain ⟨t, ht, h7⟩ := bind_eq_ok.mp h7
  cases h7
  have ea : (tipinExpire k.now s).amount = s.amount := by unfold tipinExpire; split_ifs <;> rfl
  have hact := tipinExpire_active s k.now
  unfold tipinStart at ht
  rw [h4, except_bind_ok, h5, except_bind_ok, h6, except_bind_ok, ea] at ht
  by_cases hr : s.Running k.now
  · have ha := hact.mpr hr
    have es : tipinExpire k.now s = s := by
      unfold tipinExpire
      rw [if_neg]
      have hr2 := hr.2
      have : (s.time + s.length - s.time) = s.length := by bv_omega
      simp [timeInRange, this, hr2, -BitVec.toNat_sub]
    by_cases hd : Fl.lt s.amount k.demand = true
    · rw [if_pos (by simp [hd])] at ht
      cases ht
      exact ⟨rfl, rfl, fun _ hh => absurd hd (by simp [hh]), fun _ _ => rfl, fun _ => rfl⟩
    · simp only [Bool.not_eq_true] at hd
      rw [if_neg (by simp [hd, ha])] at ht
      cases ht
      rw [es]
      exact ⟨rfl, hr.1, fun _ _ => ⟨rfl, rfl⟩, fun _ hh => absurd hh (by simp [hd]), fun hh => absurd hr hh⟩
  · have ha : (tipinExpire k.now s).active = false := by
      rw [← Bool.not_eq_true, hact]; exact hr
    rw [if_pos (by simp [ha])] at ht
    cases ht
    exact ⟨rfl, rfl, fun hh => absurd hh hr, fun hh => absurd hh hr, fun _ => rfl⟩

/-- A history of calls; between calls only the operating point and the clock change. -/
inductive TipHist [FloatFmt] : List TipCall → Tipin → Prop
  | nil : TipHist [] Tipin.init
  | snoc {ks : List TipCall} {s s' : Tipin} (c : Config) (k : TipCall) (r : Fl) (h : TipHist ks s)
      (e : Calls c s k r s') : TipHist (ks ++ [k]) s'

theorem TipHist.nil_init [FloatFmt] {ks : List TipCall} {s : Tipin} (h : TipHist ks s) (h0 : ks = []) :
    s = Tipin.init := by
  cases h with
  | nil => rfl
  | snoc => simp at h0

/-- The event of a state was built up by the calls `k0 :: post`: none was running at `k0`, and one was running at
every later call. -/
inductive BuiltUp [FloatFmt] : TipCall → List TipCall → Tipin → Prop
  | fresh (k0 : TipCall) (s' : Tipin) (h : s'.amount = k0.demand) : BuiltUp k0 [] s'
  | more {k0 : TipCall} {post : List TipCall} {s : Tipin} (k : TipCall) (s' : Tipin) (h : BuiltUp k0 post s)
      (hr : s.Running k.now) (ha : s'.amount = if Fl.lt s.amount k.demand then k.demand else s.amount) :
      BuiltUp k0 (post ++ [k]) s'

theorem C26_built_up [FloatFmt] {ks : List TipCall} {s : Tipin} (h : TipHist ks s) (hne : ks ≠ []) :
    ∃ pre k0 post, ks = pre ++ k0 :: post ∧ BuiltUp k0 post s := by
  induction h with
  | nil => exact absurd rfl hne
  | @snoc ks s s' c k r h e ih =>
    obtain ⟨_, _, c1, c2, c3⟩ := C26_call c s s' k r e
    by_cases hr : s.Running k.now
    · have hks : ks ≠ [] := by
        intro h0
        rw [h.nil_init h0] at hr
        exact absurd hr.1 (by simp [Tipin.init])
      obtain ⟨pre, k0, post, rfl, hb⟩ := ih hks
      refine ⟨pre, k0, post ++ [k], by simp, .more k s' hb hr ?_⟩
      by_cases hd : Fl.lt s.amount k.demand = true
      · rw [c2 hr hd, if_pos hd]
      · simp only [Bool.not_eq_true] at hd
        rw [(c1 hr hd).1, if_neg (by simp [hd])]
    · exact ⟨ks, k, [], rfl, .fresh k s' (by rw [c3 hr])⟩

/-- C26, history: the amount in force is the largest demand since the first call of the event (for demands that are
numbers), so it never drops while events follow each other without a pause. -/
theorem C26_largest [FloatFmt] {k0 : TipCall} {post : List TipCall} {s : Tipin} (h : BuiltUp k0 post s)
    (hn : ∀ k ∈ k0 :: post, k.demand ≠ nan) :
    (∃ k ∈ k0 :: post, s.amount = k.demand) ∧ ∀ k ∈ k0 :: post, Fl.le k.demand s.amount = true := by
  induction h with
  | fresh s' h =>
    refine ⟨⟨k0, by simp, h⟩, ?_⟩
    intro k hk
    simp only [List.mem_singleton] at hk
    subst hk
    rw [h]; exact le_refl (hn k (by simp))
  | @more post s k s' _ hr ha ih =>
    obtain ⟨⟨k1, hk1, e1⟩, i2⟩ := ih fun x hx => hn x (by
      rcases List.mem_cons.mp hx with rfl | hx
      · simp
      · simp [hx])
    have hsn : s.amount ≠ nan := by
      rw [e1]; apply hn
      rcases List.mem_cons.mp hk1 with rfl | hx
      · simp
      · simp [hx]
    have hkn : k.demand ≠ nan := hn k (by simp)
    have mem : ∀ x, x ∈ k0 :: (post ++ [k]) ↔ x ∈ k0 :: post ∨ x = k := by
      intro x; simp [or_assoc]
    by_cases hd : Fl.lt s.amount k.demand = true
    · rw [if_pos hd] at ha
      refine ⟨⟨k, by simp, ha⟩, ?_⟩
      intro x hx
      rw [ha]
      rcases (mem x).mp hx with hx | rfl
      · exact le_trans (i2 x hx) (le_of_lt hd)
      · exact le_refl hkn
    · simp only [Bool.not_eq_true] at hd
      rw [if_neg (by simp [hd])] at ha
      refine ⟨⟨k1, (mem _).mpr (.inl hk1), by rw [ha, e1]⟩, ?_⟩
      intro x hx
      rw [ha]
      rcases (mem x).mp hx with hx | rfl
      · exact i2 x hx
      · exact le_of_not_lt hsn hkn hd

/-- C26 in real time: an event started at `t0` is running at `t1` exactly when its duration has not elapsed, as long
as less than one clock wrap (17.9 minutes) has passed. -/
theorem C26_running_real_time (s : Tipin) (t0 t1 : Int) (hs : s.time = stamp t0) (ha : s.active = true)
    (h01 : t0 ≤ t1) (hw : t1 - t0 < 2 ^ 32) : s.Running (stamp t1) ↔ t1 - t0 ≤ s.length.toNat := by
  unfold Tipin.Running
  rw [hs, stamp_sub]
  have := stamp_toNat (d := t1 - t0) (by omega) hw
  simp only [ha, true_and]
  omega


/-! Non-vacuity: a throttle stab at 3000 rpm with the shipped tables starts an event of 60 ms (240 000 ticks) with
amount 20 at 500 %/s and 20 %; a slower movement 10 ms later changes nothing; after the event is over the smaller
demand is taken. -/
def stab [FloatFmt] (rate : ℚ) : Config :=
  let c := @demoConfig _
  { c with sensors := fun i => if i = sensorTps then { c.sensors i with value := fin 20, derivative := fin rate } else c.sensors i }

example :
    (∃ s, @TipHist binary32 [⟨1000, fin 20, 240000⟩, ⟨41000, fin 10, 240000⟩] s ∧ s.amount = fin 20) ∧
    (∃ s, @TipHist binary32 [⟨1000, fin 20, 240000⟩, ⟨41000, fin 10, 240000⟩, ⟨300000, fin 10, 240000⟩] s ∧
      s.amount = fin 10) := by
  let _ := binary32
  have c1 : Calls (stab 500) Tipin.init ⟨1000, fin 20, 240000⟩ (fin 20) ⟨1000, 240000, fin 20, true⟩ :=
    ⟨dfltTipin, dfltTipinDur, fin 60, 60000, rfl, rfl, by decide +kernel, by decide +kernel, by decide +kernel,
      by decide +kernel, by decide +kernel⟩
  have c2 : Calls (stab 300) ⟨1000, 240000, fin 20, true⟩ ⟨41000, fin 10, 240000⟩ (fin 20) ⟨1000, 240000, fin 20, true⟩ :=
    ⟨dfltTipin, dfltTipinDur, fin 60, 60000, rfl, rfl, by decide +kernel, by decide +kernel, by decide +kernel,
      by decide +kernel, by decide +kernel⟩
  have c3 : Calls (stab 300) ⟨1000, 240000, fin 20, true⟩ ⟨300000, fin 10, 240000⟩ (fin 10) ⟨300000, 240000, fin 10, true⟩ :=
    ⟨dfltTipin, dfltTipinDur, fin 60, 60000, rfl, rfl, by decide +kernel, by decide +kernel, by decide +kernel,
      by decide +kernel, by decide +kernel⟩
  exact ⟨⟨_, .snoc _ _ _ (.snoc _ _ _ .nil c1) c2, rfl⟩, ⟨_, .snoc _ _ _ (.snoc _ _ _ (.snoc _ _ _ .nil c1) c2) c3, rfl⟩⟩

end Verif
