/-
The settings of the demonstration runs meet `Commands`.
-/
import Verif.Proofs.SensedRun

namespace Verif

attribute [local instance] binary32

theorem Commands.loosen {c : Config} {S : (Fin numSensors → Sensor) → Prop} {Ti : Tipin → Prop} {g V δ δ' : ℚ} {p q dlo dhi flo fhi : ℤ}
    (h : Commands c S Ti g p q V δ dlo dhi flo fhi) (hδ : δ ≤ δ') : Commands c S Ti g p q V δ' dlo dhi flo fhi :=
  { h with spark := fun r s v v' a b e => (h.spark r s v v' a b e).imp fun _ x => ⟨x.1, x.2.trans hδ⟩ }

/-- No enrichment is being given for the throttle. -/
def NoTipin (i : Tipin) : Prop := i.amount = .fin 0

/-- The settings of the demonstration runs, at `r` revolutions per minute. -/
def demoAtSpeed (r : BitVec 32) : Config := atSpeed demoConfig r demoConfig.sensors

theorem demo_ignition {c : Config} {d : Decoder} {evs : Fin maxEvents → OEvent} (hc : c = { demoConfig with decoder := d, events := evs })
    {r : BitVec 32} {s : Fin numSensors → Sensor} (hs : DemoSensed s) (v : CalcValues) :
    calculateIgnition (atSpeed c r s) v = calculateIgnition (demoAtSpeed r) v := by
  subst hc
  unfold calculateIgnition dwellTime
  simp only [atSpeed, demoAtSpeed, (hs sensorMap).1, (hs sensorBrv).1]

theorem demo_fueling {c : Config} {d : Decoder} {evs : Fin maxEvents → OEvent} (hc : c = { demoConfig with decoder := d, events := evs })
    {r : BitVec 32} {s : Fin numSensors → Sensor} (hs : DemoSensed s) (now : Time) (i : Tipin) (v : CalcValues) :
    calculateFueling (atSpeed c r s) now i v = calculateFueling (demoAtSpeed r) now i v := by
  subst hc
  unfold DemoSensed at hs
  unfold demoAtSpeed
  revert hs
  generalize demoConfig = c0
  intro hs
  unfold calculateFueling enrichment calcTipin
  simp only [atSpeed, (hs sensorMap).1, (hs sensorBrv).1, (hs sensorClt).1, (hs sensorTps).1, (hs sensorTps).2, (hs sensorIat).1, (hs sensorFrt).1]
  rfl

/-- The speeds from 3920 on. -/
def demoSparkOk (k : ℕ) : Bool :=
  match calculateIgnition (demoAtSpeed (BitVec.ofNat 32 (3920 + k))) zeroCalc with
  | .ok v => decide (v.dwellUs = 2574) && (match v.timingAdvance with
    | .fin a => decide (31 - 1 / 2 ≤ a) && decide (a ≤ 31 + 1 / 2)
    | _ => false)
  | .error _ => false

def demoFuelOk (k : ℕ) : Bool :=
  match calculateFueling (demoAtSpeed (BitVec.ofNat 32 (3920 + k))) 0 Tipin.init zeroCalc with
  | .ok v => decide (v.2.amount = .fin 0) && decide (3250 ≤ v.1.fuelingUs.toNat) && decide (v.1.fuelingUs.toNat ≤ 3300)
  | .error _ => false

def demoDutyOk (k : ℕ) : Bool :=
  match timeFromRpmDiff (BitVec.ofNat 32 (3920 + k)) (.fin 720) with
  | .ok t => decide (13200 < (t.udiv demoConfig.fueling.injections).toNat)
  | .error _ => true

/-- The check `f` for the twelve speeds from `12 * c` on. -/
def dozenOk (f : ℕ → Bool) (c : ℕ) : Bool := (List.range 12).all fun k => f (12 * c + k)

theorem dozens {f : ℕ → Bool} (h0 : dozenOk f 0 = true) (h1 : dozenOk f 1 = true) (h2 : dozenOk f 2 = true) (h3 : dozenOk f 3 = true)
    (h4 : dozenOk f 4 = true) (h5 : dozenOk f 5 = true) (h6 : dozenOk f 6 = true) : (List.range 82).all f = true := by
  have key : ∀ c, dozenOk f c = true → ∀ k < 12, f (12 * c + k) = true := fun c h k hk =>
    List.all_eq_true.mp h k (List.mem_range.mpr hk)
  refine List.all_eq_true.mpr fun k hk => ?_
  have hk := List.mem_range.mp hk
  have hc : k / 12 ≤ 6 := by omega
  have e : 12 * (k / 12) + k % 12 = k := Nat.div_add_mod k 12
  rw [← e]
  refine key _ ?_ _ (Nat.mod_lt _ (by norm_num))
  revert hc
  generalize k / 12 = c
  intro hc
  interval_cases c <;> assumption

theorem demo_sparks_0 : dozenOk demoSparkOk 0 = true := by decide +kernel
theorem demo_sparks_1 : dozenOk demoSparkOk 1 = true := by decide +kernel
theorem demo_sparks_2 : dozenOk demoSparkOk 2 = true := by decide +kernel
theorem demo_sparks_3 : dozenOk demoSparkOk 3 = true := by decide +kernel
theorem demo_sparks_4 : dozenOk demoSparkOk 4 = true := by decide +kernel
theorem demo_sparks_5 : dozenOk demoSparkOk 5 = true := by decide +kernel
theorem demo_sparks_6 : dozenOk demoSparkOk 6 = true := by decide +kernel
theorem demo_sparks : (List.range 82).all demoSparkOk = true :=
  dozens demo_sparks_0 demo_sparks_1 demo_sparks_2 demo_sparks_3 demo_sparks_4 demo_sparks_5 demo_sparks_6
theorem demo_fuels_0 : dozenOk demoFuelOk 0 = true := by decide +kernel
theorem demo_fuels_1 : dozenOk demoFuelOk 1 = true := by decide +kernel
theorem demo_fuels_2 : dozenOk demoFuelOk 2 = true := by decide +kernel
theorem demo_fuels_3 : dozenOk demoFuelOk 3 = true := by decide +kernel
theorem demo_fuels_4 : dozenOk demoFuelOk 4 = true := by decide +kernel
theorem demo_fuels_5 : dozenOk demoFuelOk 5 = true := by decide +kernel
theorem demo_fuels_6 : dozenOk demoFuelOk 6 = true := by decide +kernel
theorem demo_fuels : (List.range 82).all demoFuelOk = true :=
  dozens demo_fuels_0 demo_fuels_1 demo_fuels_2 demo_fuels_3 demo_fuels_4 demo_fuels_5 demo_fuels_6
theorem demo_duties : (List.range 82).all demoDutyOk = true := by decide +kernel
theorem demo_amount : (match demoConfig.tipinAmount with
    | some amt => decide (interp2 amt (demoConfig.sensors sensorTps).derivative (demoConfig.sensors sensorTps).value = .ok (.fin 0))
    | none => false) = true := by decide +kernel
theorem demo_start : 4002 ≤ demoConfig.rpmStart.toNat := by decide +kernel
theorem demo_boost : Fl.lt demoConfig.boost.overboost (demoConfig.sensors sensorMap).value = false := by decide +kernel

theorem demo_speed {r : BitVec 32} (h : SpeedIn 90 15000 15300 r) : ∃ k < 82, r = BitVec.ofNat 32 (3920 + k) := by
  obtain ⟨h1, h2⟩ := h
  norm_num at h1 h2
  have l1 : (3920 : ℚ) ≤ r.toNat := by linarith
  have l2 : (r.toNat : ℚ) < 4001 := by linarith
  have m1 : 3920 ≤ r.toNat := by exact_mod_cast l1
  have m2 : r.toNat < 4001 := by exact_mod_cast l2
  exact ⟨r.toNat - 3920, by omega, by rw [show 3920 + (r.toNat - 3920) = r.toNat by omega, BitVec.ofNat_toNat, BitVec.setWidth_eq]⟩

theorem demo_tipin {r : BitVec 32} {now : Time} {i i' : Tipin} {a : Fl} (h : NoTipin i)
    (hi : calcTipin (demoAtSpeed r) now i ((demoAtSpeed r).sensors sensorTps).value ((demoAtSpeed r).sensors sensorTps).derivative (demoAtSpeed r).decoder.rpm = .ok (a, i')) :
    a = .fin 0 ∧ NoTipin i' := by
  have ha := demo_amount
  unfold calcTipin at hi
  have e1 : (demoAtSpeed r).tipinAmount = demoConfig.tipinAmount := rfl
  have e2 : (demoAtSpeed r).sensors = demoConfig.sensors := rfl
  rw [e1, e2] at hi
  generalize (demoAtSpeed r).tipinDuration = dur at hi
  revert ha hi
  generalize demoConfig.tipinAmount = amt
  intro ha hi
  cases amt with
  | none => cases ha
  | some amt =>
      simp only [decide_eq_true_eq] at ha
      cases dur with
      | none =>
          simp only [Except.ok.injEq, Prod.mk.injEq] at hi
          exact ⟨hi.1.symm, by rw [← hi.2]; exact h⟩
      | some dur =>
          simp only [ha, bind_eq_ok, except_pure, Except.ok.injEq, Prod.mk.injEq] at hi
          obtain ⟨new, rfl, s, hs, rfl, rfl⟩ := hi
          have h' : NoTipin (tipinExpire now i) := by
            unfold tipinExpire
            split <;> exact h
          unfold tipinStart at hs
          split at hs
          · simp only [bind_eq_ok, except_pure, Except.ok.injEq] at hs
            obtain ⟨_, -, _, -, _, -, rfl⟩ := hs
            exact ⟨rfl, rfl⟩
          · simp only [except_pure, Except.ok.injEq] at hs
            subst hs
            exact ⟨h', h'⟩

/-- With no enrichment for the throttle the pulse does not depend on the time and on what was calculated before. -/
theorem demo_pulse {r : BitVec 32} {now : Time} {i i' : Tipin} {v v' : CalcValues} (h : NoTipin i) (hi : calculateFueling (demoAtSpeed r) now i v = .ok (v', i')) :
    NoTipin i' ∧ ∀ w j, calculateFueling (demoAtSpeed r) 0 Tipin.init zeroCalc = .ok (w, j) → v'.fuelingUs = w.fuelingUs := by
  unfold calculateFueling at hi ⊢
  simp only [bind_eq_ok] at hi ⊢
  obtain ⟨ve, a1, la, a2, idt, a3, ete, a4, ⟨ti, s⟩, a5, pwc, a6, us, a7, hi⟩ := hi
  obtain ⟨t1, t2⟩ := demo_tipin h a5
  simp only [except_pure, Except.ok.injEq, Prod.mk.injEq] at hi
  obtain ⟨rfl, rfl⟩ := hi
  refine ⟨t2, fun w j hw => ?_⟩
  obtain ⟨ve', b1, la', b2, idt', b3, ete', b4, ⟨ti', s'⟩, b5, pwc', b6, us', b7, hw⟩ := hw
  obtain ⟨t3, -⟩ := demo_tipin (show NoTipin Tipin.init from rfl) b5
  simp only [except_pure, Except.ok.injEq, Prod.mk.injEq] at hw
  obtain ⟨rfl, rfl⟩ := hw
  rw [a1] at b1
  rw [a2] at b2
  rw [a3] at b3
  rw [a4] at b4
  obtain rfl := Except.ok.inj b1
  obtain rfl := Except.ok.inj b2
  obtain rfl := Except.ok.inj b3
  obtain rfl := Except.ok.inj b4
  subst t1
  subst t3
  rw [a6] at b6
  obtain rfl := Except.ok.inj b6
  rw [a7] at b7
  exact Except.ok.inj b7

theorem demo_spark_at {r : BitVec 32} (hr : SpeedIn 90 15000 15300 r) {v v' : CalcValues} (h : calculateIgnition (demoAtSpeed r) v = .ok v') :
    (∃ a, v'.timingAdvance = .fin a ∧ |a - 31| ≤ 1 / 2) ∧ v'.dwellUs = 2574 := by
  obtain ⟨k, hk, rfl⟩ := demo_speed hr
  have := List.all_eq_true.mp demo_sparks k (List.mem_range.mpr hk)
  unfold demoSparkOk at this
  have e : ∀ w, calculateIgnition (demoAtSpeed (BitVec.ofNat 32 (3920 + k))) zeroCalc = .ok w → v'.timingAdvance = w.timingAdvance ∧ v'.dwellUs = w.dwellUs := by
    intro w hw
    unfold calculateIgnition at h hw
    simp only [bind_eq_ok] at h hw
    obtain ⟨t, h1, a, h2, d, h3, h⟩ := h
    obtain ⟨t', g1, a', g2, d', g3, hw⟩ := hw
    rw [h1] at g1
    obtain rfl := Except.ok.inj g1
    rw [h2] at g2
    rw [h3] at g3
    obtain rfl := Except.ok.inj g2
    obtain rfl := Except.ok.inj g3
    cases h
    cases hw
    exact ⟨rfl, rfl⟩
  revert this e
  generalize calculateIgnition (demoAtSpeed (BitVec.ofNat 32 (3920 + k))) zeroCalc = x
  intro this e
  cases x with
  | error f => cases this
  | ok w =>
      obtain ⟨e1, e2⟩ := e w rfl
      simp only [Bool.and_eq_true, decide_eq_true_eq] at this
      rw [e1, e2]
      refine ⟨?_, this.1⟩
      have t2 := this.2
      revert t2
      generalize w.timingAdvance = y
      intro t2
      cases y with
      | fin a =>
          simp only [Bool.and_eq_true, decide_eq_true_eq] at t2
          exact ⟨a, rfl, abs_le.mpr ⟨by linarith, by linarith⟩⟩
      | nan => cases t2
      | inf _ => cases t2

theorem demo_fuel_at {r : BitVec 32} (hr : SpeedIn 90 15000 15300 r) {now : Time} {i i' : Tipin} {v v' : CalcValues} (h : NoTipin i)
    (hi : calculateFueling (demoAtSpeed r) now i v = .ok (v', i')) : 3250 ≤ v'.fuelingUs.toNat ∧ v'.fuelingUs.toNat ≤ 3300 := by
  obtain ⟨k, hk, rfl⟩ := demo_speed hr
  have := List.all_eq_true.mp demo_fuels k (List.mem_range.mpr hk)
  unfold demoFuelOk at this
  have e := (demo_pulse h hi).2
  revert this e
  generalize calculateFueling (demoAtSpeed (BitVec.ofNat 32 (3920 + k))) 0 Tipin.init zeroCalc = x
  intro this e
  cases x with
  | error f => cases this
  | ok w =>
      rw [e w.1 w.2 rfl]
      simp only [Bool.and_eq_true, decide_eq_true_eq] at this
      exact ⟨this.1.2, this.2⟩

/-- The settings of the demonstration runs: at the speeds of the wheel an advance of 31 degrees to within half a degree, a dwell of 2574 microseconds and a
fuel pulse of 3250 to 3300 microseconds. -/
theorem demo_commands {c : Config} {d : Decoder} {evs : Fin maxEvents → OEvent} (hc : c = { demoConfig with decoder := d, events := evs }) :
    Commands c DemoSensed NoTipin 90 15000 15300 31 (1 / 2) 10296 10296 13000 13200 := by
  have c1 : c.rpmStart = demoConfig.rpmStart := by rw [hc]
  have c2 : c.boost = demoConfig.boost := by rw [hc]
  have c3 : c.fueling = demoConfig.fueling := by rw [hc]
  refine ⟨fun r s v v' hr hs h => ?_, fun r s v v' hr hs h => ?_, fun r s now i v v' i' hr hs hi h => ?_, fun r s now i v v' i' hs hi h => ?_, fun r hr => ?_,
    fun s hs => ?_, fun r t hr ht => ?_, by norm_num⟩
  · rw [demo_ignition hc hs] at h
    exact (demo_spark_at hr h).1
  · rw [demo_ignition hc hs] at h
    rw [(demo_spark_at hr h).2]
    decide
  · rw [demo_fueling hc hs] at h
    have := demo_fuel_at hr hi h
    omega
  · rw [demo_fueling hc hs] at h
    exact (demo_pulse hi h).1
  · obtain ⟨k, hk, rfl⟩ := demo_speed hr
    have := demo_start
    rw [c1, BitVec.toNat_ofNat]
    omega
  · rw [c2, (hs sensorMap).1]
    exact demo_boost
  · obtain ⟨k, hk, rfl⟩ := demo_speed hr
    have := List.all_eq_true.mp demo_duties k (List.mem_range.mpr hk)
    unfold demoDutyOk at this
    rw [ht] at this
    rw [c3]
    exact_mod_cast of_decide_eq_true this

/-- With these sensor values the advance depends on the speed alone. -/
theorem demo_steady {c : Config} {d : Decoder} {evs : Fin maxEvents → OEvent} (hc : c = { demoConfig with decoder := d, events := evs }) :
    SteadyAdvance c DemoSensed := by
  intro r s s' v v' w w' hs hs' h h'
  rw [demo_ignition hc hs] at h
  rw [demo_ignition hc hs'] at h'
  unfold calculateIgnition at h h'
  simp only [bind_eq_ok] at h h'
  obtain ⟨t, h1, a, h2, d, h3, h⟩ := h
  obtain ⟨t', g1, a', g2, d', g3, hw⟩ := h'
  rw [h1] at g1
  obtain rfl := Except.ok.inj g1
  rw [h2] at g2
  obtain rfl := Except.ok.inj g2
  cases h
  cases hw
  rfl

end Verif
