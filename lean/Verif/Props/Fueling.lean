/-
C24: injector pulse width.  C60: dwell and ignition timing.
-/
import Verif.Spec.Demo
import Verif.Props.Cuts
import Verif.Props.Sched
import Verif.Proofs.TableFl
import Verif.Spec.Fueling

namespace Verif
open Fl FloatFmt

/-! ### C24 -/

/-- C24, the terms: each reported term is the one the configuration selects, with 100 % efficiency, lambda 1, a dead
time of 1 ms and no pulse width correction where there is no table. -/
theorem C24_terms [FloatFmt] (c : Config) (now : Time) (s s' : Tipin) (v v' : CalcValues)
    (h : calculateFueling c now s v = .ok (v', s')) :
    (∀ t, c.ve = some t → interp2 t (ofU32 c.decoder.rpm) (c.sensors sensorMap).value = .ok v'.ve) ∧
    (c.ve = none → v'.ve = fin 100) ∧
    (∀ t, c.lambda = some t → interp2 t (ofU32 c.decoder.rpm) (c.sensors sensorMap).value = .ok v'.lambda) ∧
    (c.lambda = none → v'.lambda = fin 1) ∧
    (∀ t, c.deadtime = some t → interp1 t (c.sensors sensorBrv).value = .ok v'.idt) ∧
    (c.deadtime = none → v'.idt = fin 1) ∧
    (∀ t, c.pwCorrection = some t → interp1 t (rawPw c.fueling v'.fuelvol v'.tipin / fin 1000) = .ok v'.pwc) ∧
    (c.pwCorrection = none → v'.pwc = fin 0) ∧
    enrichment c = .ok v'.ete ∧
    calcTipin c now s (c.sensors sensorTps).value (c.sensors sensorTps).derivative c.decoder.rpm = .ok (v'.tipin, s') ∧
    v'.airmass = calcAirmass c.fueling v'.ve (c.sensors sensorMap).value (c.sensors sensorIat).value ∧
    v'.fuelvol = calcFuelVolume c.fueling v'.airmass (c.sensors sensorFrt).value / v'.lambda ∧
    toU32 ((rawPw c.fueling v'.fuelvol v'.tipin * v'.ete) + (v'.pwc * fin 1000) + (v'.idt * fin 1000)) =
      .ok v'.fuelingUs ∧
    (v'.timingAdvance = v.timingAdvance ∧ v'.dwellUs = v.dwellUs ∧ v'.rpmLimitCut = v.rpmLimitCut ∧
      v'.boostCut = v.boostCut ∧ v'.overdutyCut = v.overdutyCut) := by
  unfold calculateFueling at h
  obtain ⟨ve, h1, h⟩ := bind_eq_ok.mp h
  obtain ⟨la, h2, h⟩ := bind_eq_ok.mp h
  obtain ⟨idt, h3, h⟩ := bind_eq_ok.mp h
  obtain ⟨ete, h4, h⟩ := bind_eq_ok.mp h
  obtain ⟨⟨tip, s1⟩, h5, h⟩ := bind_eq_ok.mp h
  obtain ⟨pwc, h6, h⟩ := bind_eq_ok.mp h
  obtain ⟨us, h7, h⟩ := bind_eq_ok.mp h
  cases h
  refine ⟨?_, ?_, ?_, ?_, ?_, ?_, ?_, ?_, h4, h5, rfl, rfl, h7, rfl, rfl, rfl, rfl, rfl⟩
  · intro t ht; rw [ht] at h1; exact h1
  · intro ht; rw [ht] at h1; exact (Except.ok.inj h1).symm
  · intro t ht; rw [ht] at h2; exact h2
  · intro ht; rw [ht] at h2; exact (Except.ok.inj h2).symm
  · intro t ht; rw [ht] at h3; exact h3
  · intro ht; rw [ht] at h3; exact (Except.ok.inj h3).symm
  · intro t ht; rw [ht] at h6; exact h6
  · intro ht; rw [ht] at h6; exact (Except.ok.inj h6).symm

/-- The operating point and configuration, as numbers. -/
structure Reads (c : Config) (v : CalcValues) (f : FuelTerms) : Prop where
  ve : v.ve = fin f.ve
  lambda : v.lambda = fin f.lambda
  tipin : v.tipin = fin f.tipin
  ete : v.ete = fin f.ete
  pwc : v.pwc = fin f.pwc
  dead : v.idt = fin f.dead
  map : (c.sensors sensorMap).value = fin f.map
  iat : (c.sensors sensorIat).value = fin f.iat
  frt : (c.sensors sensorFrt).value = fin f.frt
  cyl : c.fueling.cylinderCc = fin f.cyl
  rho : c.fueling.airDensity = fin f.rho
  stoich : c.fueling.stoich = fin f.stoich
  dens : c.fueling.fuelDensity = fin f.dens
  cc : c.fueling.injectorCc = fin f.cc
  n : (c.fueling.injections.toNat : ℚ) = f.n

/-- No divisor of the equation is zero. -/
structure Divisors (f : FuelTerms) : Prop where
  iat : f.iat + 27315 / 100 ≠ 0
  stoich : f.stoich ≠ 0
  dens : f.fuelDensity ≠ 0
  lambda : f.lambda ≠ 0
  cc : f.cc ≠ 0
  n : f.n ≠ 0

/-- C24 in exact arithmetic: the commanded pulse width is the speed-density equation of the reported terms, rounded
down to a microsecond (0 for a negative result above -1; any other result does not convert). -/
theorem C24_formula (c : Config) (now : Time) (s s' : Tipin) (v v' : CalcValues) (f : FuelTerms)
    (h : @calculateFueling exactFmt c now s v = .ok (v', s')) (hf : Reads c v' f) (hd : Divisors f) :
    v'.airmass = fin f.airMass ∧ v'.fuelvol = fin f.fuelVol ∧
      -1 < f.pulseUs ∧ f.pulseUs < 2 ^ 32 ∧ v'.fuelingUs.toNat = ⌊f.pulseUs⌋.toNat := by
  let _ := exactFmt
  obtain ⟨-, -, -, -, -, -, -, -, -, -, ha, hv, hu, -⟩ := C24_terms c now s s' v v' h
  have e1 : v'.airmass = fin f.airMass := by
    rw [ha, hf.ve, hf.map, hf.iat]
    unfold calcAirmass airDensity
    rw [hf.cyl, hf.rho]
    simp only [exact_rnd, fin_add]
    rw [fin_div _ _ (by norm_num), fin_div _ _ (by norm_num), fin_div _ _ hd.iat]
    simp only [exact_rnd, fin_mul]
    rfl
  have e2 : v'.fuelvol = fin f.fuelVol := by
    rw [hv, e1, hf.lambda, hf.frt]
    unfold calcFuelVolume fuelDensity
    rw [hf.stoich, hf.dens]
    have hdz := hd.dens
    unfold FuelTerms.fuelDensity at hdz
    simp only [exact_rnd, fin_sub, fin_mul]
    rw [fin_div _ _ hd.stoich, exact_rnd, fin_div ((f.frt - 15) * 950) _ (by norm_num), exact_rnd, fin_sub, exact_rnd,
      fin_div _ _ hdz, exact_rnd, fin_div _ _ hd.lambda, exact_rnd]
    rfl
  have e3 : rawPw c.fueling v'.fuelvol v'.tipin = fin f.rawUs := by
    unfold rawPw
    rw [e2, hf.tipin, hf.cc, show ofU32 c.fueling.injections = fin f.n by
      unfold ofU32; rw [exact_rnd, hf.n]]
    rw [fin_div _ _ (by norm_num), exact_rnd, fin_add, exact_rnd, fin_div _ _ hd.cc, exact_rnd, fin_mul, exact_rnd,
      fin_div _ _ hd.n, exact_rnd]
    rfl
  rw [e3, hf.ete, hf.pwc, hf.dead] at hu
  simp only [fin_mul, fin_add, exact_rnd] at hu
  obtain ⟨q, hq, q1, q2, q3⟩ := toU32_ok hu
  cases hq
  exact ⟨e1, e2, q1, by norm_num at *; exact q2, q3⟩

/-- C24: with positive physical constants the pulse width does not fall as efficiency or pressure rises. -/
theorem C24_spec_monotone (f g : FuelTerms) (hve : f.ve ≤ g.ve) (hmap : f.map ≤ g.map)
    (h0 : 0 ≤ f.ve) (h1 : 0 ≤ f.map) (hsame : g = { f with ve := g.ve, map := g.map })
    (hcyl : 0 ≤ f.cyl) (hrho : 0 ≤ f.rho) (hiat : 0 < f.iat + 27315 / 100) (hst : 0 < f.stoich)
    (hdens : 0 < f.fuelDensity) (hl : 0 < f.lambda) (hcc : 0 < f.cc) (hn : 0 < f.n) (hete : 0 ≤ f.ete) :
    f.pulseUs ≤ g.pulseUs := by
  rw [hsame]
  have ha : f.airMass ≤ ({ f with ve := g.ve, map := g.map } : FuelTerms).airMass := by
    unfold FuelTerms.airMass
    have hr : 0 ≤ f.rho * (27315 / 100 / (f.iat + 27315 / 100)) := mul_nonneg hrho (by positivity)
    apply mul_le_mul_of_nonneg_right _ hr
    apply mul_le_mul_of_nonneg_right _ hcyl
    apply mul_le_mul _ _ (by positivity) (div_nonneg (le_trans h0 hve) (by norm_num))
    · exact div_le_div_of_nonneg_right hve (by norm_num)
    · exact div_le_div_of_nonneg_right hmap (by norm_num)
  unfold FuelTerms.pulseUs FuelTerms.rawUs FuelTerms.fuelVol
  have hd' : ({ f with ve := g.ve, map := g.map } : FuelTerms).fuelDensity = f.fuelDensity := rfl
  rw [hd']
  gcongr

/-- C24: the flow part of the pulse is inversely proportional to the injector flow. -/
theorem C24_spec_injector_flow (f : FuelTerms) (k : ℚ) (hk : k ≠ 0) :
    ({ f with cc := k * f.cc } : FuelTerms).rawUs = f.rawUs / k := by
  have e : ({ f with cc := k * f.cc } : FuelTerms).fuelVol = f.fuelVol := rfl
  unfold FuelTerms.rawUs
  rw [e]
  by_cases hc : f.cc = 0
  · simp [hc]
  · by_cases hn : f.n = 0
    · simp [hn]
    · field_simp

section
variable [FloatFmt]

theorem mulR_mono {a b k x y : ℚ} (h : a ≤ b) (hk : 0 ≤ k) (hx : (fin a * fin k : Fl) = fin x)
    (hy : (fin b * fin k : Fl) = fin y) : x ≤ y := by
  rw [fin_mul] at hx hy
  exact rnd_fin_mono (mul_le_mul_of_nonneg_right h hk) hx hy

theorem divR_mono {a b k x y : ℚ} (h : a ≤ b) (hk : 0 < k) (hx : (fin a / fin k : Fl) = fin x)
    (hy : (fin b / fin k : Fl) = fin y) : x ≤ y := by
  rw [fin_div _ _ hk.ne'] at hx hy
  exact rnd_fin_mono (div_le_div_of_nonneg_right h hk.le) hx hy

theorem addR_mono {a b k x y : ℚ} (h : a ≤ b) (hx : (fin a + fin k : Fl) = fin x)
    (hy : (fin b + fin k : Fl) = fin y) : x ≤ y := by
  rw [fin_add] at hx hy
  exact rnd_fin_mono (by linarith) hx hy

/-- A quotient by a positive finite divisor is finite only if the dividend is. -/
theorem divR_fin {a : Fl} {k x : ℚ} (h : a / fin k = fin x) : ∃ q, a = fin q := by
  rcases div_eq_fin h with ⟨q, y, rfl, -, -⟩ | ⟨q, s, rfl, h1, -⟩
  · exact ⟨q, rfl⟩
  · cases h1

/-- C24 in any float format (so in single precision): between two evaluations with the same fuel configuration, air
and fuel temperatures, and the same reported lambda, enrichments, correction and dead time, a higher or equal
efficiency and pressure never gives a shorter pulse. -/
theorem C24_monotone (c c' : Config) (now now' : Time) (s s1 t t1 : Tipin) (v v1 w w1 : CalcValues)
    (h1 : calculateFueling c now s v = .ok (v1, s1)) (h2 : calculateFueling c' now' t w = .ok (w1, t1))
    (hf : c'.fueling = c.fueling) (hi : (c'.sensors sensorIat).value = (c.sensors sensorIat).value)
    (hr : (c'.sensors sensorFrt).value = (c.sensors sensorFrt).value)
    (hsame : w1.lambda = v1.lambda ∧ w1.tipin = v1.tipin ∧ w1.ete = v1.ete ∧ w1.pwc = v1.pwc ∧ w1.idt = v1.idt)
    (ve1 ve2 map1 map2 cyl rho st dens lam cc n ete : ℚ)
    (a1 : v1.ve = fin ve1) (a2 : w1.ve = fin ve2) (hve : ve1 ≤ ve2) (hve0 : 0 ≤ ve1)
    (b1 : (c.sensors sensorMap).value = fin map1) (b2 : (c'.sensors sensorMap).value = fin map2) (hmap : map1 ≤ map2)
    (hmap0 : 0 ≤ map1)
    (c1 : c.fueling.cylinderCc = fin cyl) (hcyl : 0 ≤ cyl)
    (c2 : airDensity c.fueling (c.sensors sensorIat).value = fin rho) (hrho : 0 ≤ rho)
    (c3 : c.fueling.stoich = fin st) (hst : 0 < st)
    (c4 : fuelDensity c.fueling (c.sensors sensorFrt).value = fin dens) (hdens : 0 < dens)
    (c5 : v1.lambda = fin lam) (hlam : 0 < lam) (c6 : c.fueling.injectorCc = fin cc) (hcc : 0 < cc)
    (c7 : ofU32 c.fueling.injections = fin n) (hn : 0 < n) (c8 : v1.ete = fin ete) (hete : 0 ≤ ete) :
    v1.fuelingUs.toNat ≤ w1.fuelingUs.toNat := by
  obtain ⟨-, -, -, -, -, -, -, -, -, -, ha, hv, hu, -⟩ := C24_terms c now s s1 v v1 h1
  obtain ⟨-, -, -, -, -, -, -, -, -, -, ha', hv', hu', -⟩ := C24_terms c' now' t t1 w w1 h2
  obtain ⟨e1, e2, e3, e4, e5⟩ := hsame
  rw [hf] at ha' hv' hu'
  rw [hi] at ha'
  rw [hr] at hv'
  rw [e2, e3, e4, e5] at hu'
  rw [e1] at hv'
  obtain ⟨P, hP, -, -, -⟩ := toU32_ok hu
  obtain ⟨Q, hQ, -, -, -⟩ := toU32_ok hu'
  refine toU32_mono hu hu' ?_
  rw [hP, hQ]
  simp only [le_fin, decide_eq_true_eq]
  -- unwind the sums
  obtain ⟨p1, d1, hp1, hd1, -⟩ := add_eq_fin hP
  obtain ⟨q1, d2, hq1, hd2, -⟩ := add_eq_fin hQ
  rw [hd1] at hd2; cases hd2
  rw [hp1, hd1] at hP
  rw [hq1, hd1] at hQ
  refine addR_mono ?_ hP hQ
  obtain ⟨p2, f1, hp2, hf1, -⟩ := add_eq_fin hp1
  obtain ⟨q2, f2, hq2, hf2, -⟩ := add_eq_fin hq1
  rw [hf1] at hf2; cases hf2
  rw [hp2, hf1] at hp1
  rw [hq2, hf1] at hq1
  refine addR_mono ?_ hp1 hq1
  obtain ⟨p3, g1, hp3, hg1, -⟩ := mul_eq_fin hp2
  obtain ⟨q3, g2, hq3, hg2, -⟩ := mul_eq_fin hq2
  rw [c8] at hg1 hg2; cases hg1; cases hg2
  rw [hp3, c8] at hp2
  rw [hq3, c8] at hq2
  refine mulR_mono ?_ hete hp2 hq2
  -- the raw pulse
  unfold rawPw at hp3 hq3
  rw [c6, c7] at hp3 hq3
  obtain ⟨p4, hp4⟩ := divR_fin hp3
  obtain ⟨q4, hq4⟩ := divR_fin hq3
  rw [hp4] at hp3
  rw [hq4] at hq3
  refine divR_mono ?_ hn hp3 hq3
  obtain ⟨p5, k1, hp5, hk1, -⟩ := mul_eq_fin hp4
  obtain ⟨q5, k2, hq5, hk2, -⟩ := mul_eq_fin hq4
  cases hk1; cases hk2
  rw [hp5] at hp4
  rw [hq5] at hq4
  refine mulR_mono ?_ (by norm_num) hp4 hq4
  obtain ⟨p6, hp6⟩ := divR_fin hp5
  obtain ⟨q6, hq6⟩ := divR_fin hq5
  rw [hp6] at hp5
  rw [hq6] at hq5
  refine divR_mono ?_ hcc hp5 hq5
  obtain ⟨p7, m1, hp7, hm1, -⟩ := add_eq_fin hp6
  obtain ⟨q7, m2, hq7, hm2, -⟩ := add_eq_fin hq6
  rw [hm1] at hm2; cases hm2
  rw [hp7, hm1] at hp6
  rw [hq7, hm1] at hq6
  refine addR_mono ?_ hp6 hq6
  -- the fuel volume
  rw [hv, c5] at hp7
  rw [hv', c5] at hq7
  obtain ⟨p8, hp8⟩ := divR_fin hp7
  obtain ⟨q8, hq8⟩ := divR_fin hq7
  rw [hp8] at hp7
  rw [hq8] at hq7
  refine divR_mono ?_ hlam hp7 hq7
  unfold calcFuelVolume at hp8 hq8
  rw [c3, c4] at hp8 hq8
  obtain ⟨p9, hp9⟩ := divR_fin hp8
  obtain ⟨q9, hq9⟩ := divR_fin hq8
  rw [hp9] at hp8
  rw [hq9] at hq8
  refine divR_mono ?_ hdens hp8 hq8
  obtain ⟨p10, hp10⟩ := divR_fin hp9
  obtain ⟨q10, hq10⟩ := divR_fin hq9
  rw [hp10] at hp9
  rw [hq10] at hq9
  refine divR_mono ?_ hst hp9 hq9
  -- the air mass
  rw [ha] at hp10
  rw [ha'] at hq10
  unfold calcAirmass at hp10 hq10
  rw [c1, c2, a1, b1] at hp10
  rw [c1, c2, a2, b2] at hq10
  obtain ⟨x1, r1, hx1, hr1, -⟩ := mul_eq_fin hp10
  obtain ⟨y1, r2, hy1, hr2, -⟩ := mul_eq_fin hq10
  cases hr1; cases hr2
  rw [hx1] at hp10
  rw [hy1] at hq10
  refine mulR_mono ?_ hrho hp10 hq10
  obtain ⟨x2, r1, hx2, hr1, -⟩ := mul_eq_fin hx1
  obtain ⟨y2, r2, hy2, hr2, -⟩ := mul_eq_fin hy1
  cases hr1; cases hr2
  rw [hx2] at hx1
  rw [hy2] at hy1
  refine mulR_mono ?_ hcyl hx1 hy1
  obtain ⟨x3, x4, hx3, hx4, -⟩ := mul_eq_fin hx2
  obtain ⟨y3, y4, hy3, hy4, -⟩ := mul_eq_fin hy2
  rw [hx3, hx4, fin_mul] at hx2
  rw [hy3, hy4, fin_mul] at hy2
  have m1 : x3 ≤ y3 := divR_mono hve (by norm_num) hx3 hy3
  have m2 : x4 ≤ y4 := divR_mono hmap (by norm_num) hx4 hy4
  have n1 : 0 ≤ x3 := by
    rw [fin_div _ _ (by norm_num)] at hx3
    exact rnd_nonneg (by positivity) hx3
  have n2 : 0 ≤ x4 := by
    rw [fin_div _ _ (by norm_num)] at hx4
    exact rnd_nonneg (by positivity) hx4
  exact rnd_fin_mono (mul_le_mul m1 m2 n2 (le_trans n1 m1)) hx2 hy2

end


/-! Non-vacuity: the shipped configuration at 3000 rpm, 80 kPa, 20 °C air and fuel, 13.8 V, warm. -/

/-- The result of the fuel calculation there. -/
def demoFuel [FloatFmt] : CalcValues :=
  match calculateFueling demoConfig 1000000 Tipin.init zeroCalc with
  | .ok (v, _) => v
  | .error _ => zeroCalc

/-- The numbers of that operating point. -/
def demoTerms : FuelTerms :=
  let v := @demoFuel exactFmt
  let c := @demoConfig exactFmt
  ⟨v.ve.toQ, 80, 20, 20, v.lambda.toQ, v.tipin.toQ, v.ete.toQ, v.pwc.toQ, v.idt.toQ, 500, 12922 / 10000000, 147 / 10,
    755 / 1000, 1015, c.fueling.injections.toNat⟩

set_option maxRecDepth 4000 in
example : ∃ s', @calculateFueling exactFmt (@demoConfig exactFmt) 1000000 Tipin.init zeroCalc =
    .ok (@demoFuel exactFmt, s') ∧ Reads (@demoConfig exactFmt) (@demoFuel exactFmt) demoTerms ∧ Divisors demoTerms ∧
    demoTerms.ve = 66 ∧ (@demoFuel exactFmt).fuelingUs = 3174 ∧ (@demoFuel binary32).fuelingUs = 3174 := by
  refine ⟨{ time := 1000000, length := 240000, amount := fin 0, active := true }, by decide +kernel, ?_, ?_,
    by decide +kernel, by decide +kernel, by decide +kernel⟩
  · constructor <;> decide +kernel
  · constructor <;> decide +kernel

/-! ### C60 -/

/-- C60, fixed-duty mode, exact arithmetic: 45 degrees of rotation, that is 7.5 s divided by the rpm, rounded down to
a microsecond. -/
theorem C60_fixed_duty (c : Config) (hm : c.ignition.dwell = .fixedDuty) (hr : 0 < c.decoder.rpm.toNat) :
    ∃ d, @dwellTime exactFmt c = .ok d ∧ d.toNat = 7500000 / c.decoder.rpm.toNat := by
  let _ := exactFmt
  have hrq : (0 : ℚ) < c.decoder.rpm.toNat := by exact_mod_cast hr
  have e : (45 : ℚ) * (4000000 * 60) / (360 * c.decoder.rpm.toNat) = 30000000 / c.decoder.rpm.toNat := by
    field_simp; norm_num
  obtain ⟨t, ht, hv⟩ := C02_exact_time c.decoder.rpm 45 hr (by norm_num) (by
    rw [e, div_lt_iff₀ hrq]
    have : (1 : ℚ) ≤ c.decoder.rpm.toNat := by exact_mod_cast hr
    linarith)
  refine ⟨t.udiv 4, ?_, ?_⟩
  · unfold dwellTime
    rw [hm]
    show (do let t ← timeFromRpmDiff c.decoder.rpm (Fl.fin 45); return t.udiv 4) = _
    rw [ht]; rfl
  · rw [e] at hv
    have hf : ⌊(30000000 : ℚ) / c.decoder.rpm.toNat⌋ = ((30000000 / c.decoder.rpm.toNat : ℕ) : ℤ) := by
      have := Rat.floor_intCast_div_natCast 30000000 c.decoder.rpm.toNat
      push_cast at this ⊢
      exact this
    rw [hf] at hv
    have hu : (t.udiv 4).toNat = t.toNat / 4 := BitVec.toNat_udiv
    rw [hu]
    have : t.toNat = 30000000 / c.decoder.rpm.toNat := by exact_mod_cast hv
    rw [this, Nat.div_div_eq_div_mul, show 30000000 = 7500000 * 4 by norm_num, Nat.mul_div_mul_right _ _ (by norm_num)]

/-- C60, fixed-duty mode in any float format: within 2 µs plus one part in four million of 45 degrees. -/
theorem C60_fixed_duty_accuracy [FloatFmt] (c : Config) (hm : c.ignition.dwell = .fixedDuty)
    (hr : 0 < c.decoder.rpm.toNat) (hr1 : c.decoder.rpm.toNat ≤ 2 ^ 24) {d : BitVec 32} (h : dwellTime c = .ok d) :
    |(d.toNat : ℚ) - 7500000 / c.decoder.rpm.toNat| ≤ 2 + 7500000 / c.decoder.rpm.toNat * (4 / 2 ^ 24) := by
  have hrq : (0 : ℚ) < c.decoder.rpm.toNat := by exact_mod_cast hr
  unfold dwellTime at h
  rw [hm] at h
  simp only at h
  obtain ⟨t, ht, h⟩ := bind_eq_ok.mp h
  cases h
  have := C02_time_from_rpm_diff_accuracy c.decoder.rpm 45 hr hr1 (by norm_num) (by norm_num) ht
  have e : (45 : ℚ) * (4000000 * 60) / (360 * c.decoder.rpm.toNat) = 4 * (7500000 / c.decoder.rpm.toNat) := by
    field_simp; norm_num
  rw [e] at this
  generalize (7500000 : ℚ) / c.decoder.rpm.toNat = T at *
  have hu : (t.udiv 4).toNat = t.toNat / 4 := BitVec.toNat_udiv
  rw [hu]
  have h1 : 4 * ((t.toNat / 4 : ℕ) : ℚ) ≤ t.toNat := by exact_mod_cast Nat.mul_div_le t.toNat 4
  have h2 : (t.toNat : ℚ) ≤ 4 * ((t.toNat / 4 : ℕ) : ℚ) + 3 := by
    have : t.toNat ≤ 4 * (t.toNat / 4) + 3 := by omega
    exact_mod_cast this
  rw [abs_le] at this ⊢
  constructor <;> linarith [this.1, this.2]

/-- C60, fixed-time mode, any float format: the configured time, rounded down to a microsecond. -/
theorem C60_fixed_time [FloatFmt] (c : Config) (q : ℚ) (hm : c.ignition.dwell = .fixedTime)
    (hq : c.ignition.dwellUs = fin q) (h0 : 0 ≤ q) (h1 : q < 2 ^ 32) :
    ∃ d, dwellTime c = .ok d ∧ (d.toNat : ℤ) = ⌊q⌋ := by
  unfold dwellTime
  rw [hm, hq]
  exact toU32_fin h0 (by norm_num at h1; exact h1)

/-- C60, voltage mode, exact arithmetic: a thousand times the table value in milliseconds, rounded down. -/
theorem C60_voltage (c : Config) (t : Table1d) (ms : ℚ) (hm : c.ignition.dwell = .brv) (ht : c.dwell = some t)
    (hl : @interp1 exactFmt t (c.sensors sensorBrv).value = .ok (fin ms)) (h0 : 0 ≤ ms) (h1 : 1000 * ms < 2 ^ 32) :
    ∃ d, @dwellTime exactFmt c = .ok d ∧ (d.toNat : ℤ) = ⌊1000 * ms⌋ := by
  let _ := exactFmt
  obtain ⟨d, hd, hv⟩ := toU32_fin (q := 1000 * ms) (by positivity) (by norm_num at h1 ⊢; exact h1)
  refine ⟨d, ?_, hv⟩
  unfold dwellTime
  rw [hm, ht]
  show (do
    let t' ← deref (some t)
    let ms ← interp1 t' (c.sensors sensorBrv).value
    Fl.toU32 (Fl.fin 1000 * ms)) = _
  rw [show deref (some t) = .ok t from rfl, except_bind_ok, hl, except_bind_ok, fin_mul, exact_rnd, hd]

/-- C60: the ignition calculation reports the timing table's advance and the dwell, and nothing else changes. -/
theorem C60_reported [FloatFmt] (c : Config) (v v' : CalcValues) (h : calculateIgnition c v = .ok v') :
    (∃ t, c.timing = some t ∧ interp2 t (ofU32 c.decoder.rpm) (c.sensors sensorMap).value = .ok v'.timingAdvance) ∧
    dwellTime c = .ok v'.dwellUs ∧ v' = { v with timingAdvance := v'.timingAdvance, dwellUs := v'.dwellUs } := by
  unfold calculateIgnition at h
  obtain ⟨t, h1, h⟩ := bind_eq_ok.mp h
  obtain ⟨adv, h2, h⟩ := bind_eq_ok.mp h
  obtain ⟨dw, h3, h⟩ := bind_eq_ok.mp h
  cases h
  refine ⟨⟨t, ?_, h2⟩, h3, rfl⟩
  cases hc : c.timing with
  | none => rw [hc] at h1; cases h1
  | some t' => rw [hc] at h1; cases h1; rfl

/-- C60: the stop of an ignition event is at the event's angle, less the advance, in the next 720 degrees from the
last trigger (exact arithmetic). -/
theorem C60_stop (env : SchedEnv) (ev : OEvent) (ang adv last off : ℚ) (h1 : ev.angle = fin ang)
    (h2 : env.advance = fin adv) (h3 : env.d.lastTriggerAngle = fin last) (h4 : env.d.offset = fin off)
    (hr : 0 < env.d.toothRpm.toNat) :
    ∃ a : ℚ, (0 ≤ a ∧ a < 720 ∧ ∃ k : ℤ, a = ang - adv - last + off + k * 720) ∧
      ∃ t : Time, @ignitionStop exactFmt env ev = .ok (env.d.lastTriggerTime + t) ∧
        (t.toNat : ℤ) = ⌊a * (4000000 * 60) / (360 * env.d.toothRpm.toNat)⌋ := by
  let _ := exactFmt
  obtain ⟨a, ha, ⟨a0, a1, k, hk⟩, -⟩ := C03_exact (ang - adv - last + off) 720 (by norm_num)
  have hrq : (1 : ℚ) ≤ env.d.toothRpm.toNat := by exact_mod_cast hr
  obtain ⟨t, ht, hv⟩ := C02_exact_time env.d.toothRpm a hr a0 (by
    rw [div_lt_iff₀ (by positivity)]
    calc a * (4000000 * 60) ≤ 720 * (4000000 * 60) := by linarith
      _ < 2 ^ 32 * (360 * 1) := by norm_num
      _ ≤ 2 ^ 32 * (360 * (env.d.toothRpm.toNat : ℚ)) := by linarith)
  refine ⟨a, ⟨a0, a1, k, hk⟩, t, ?_, hv⟩
  unfold ignitionStop
  rw [h1, h2, h3, h4]
  simp only [fin_sub, fin_add, exact_rnd]
  rw [ha, except_bind_ok, ht]; rfl

/-- C60: whenever a call arms or moves the start of an ignition event, the start is exactly one dwell before the
calculated stop, and whenever it arms or moves the stop, the stop is the calculated one. -/
theorem C60_one_dwell [FloatFmt] {env : SchedEnv} {ev ev' : OEvent} (h : scheduleIgnition env ev = .ok ev')
    (hi : ev.type = .ignition) :
    ev'.start.time = ev.start.time ∧ ev'.stop.time = ev.stop.time ∧
      (ev'.start.state = .scheduled → ev.start.state = .scheduled) ∧
      (ev'.stop.state = .scheduled → ev.stop.state = .scheduled) ∨
    ∃ stop dwell, ignitionStop env ev = .ok stop ∧ timeFromUs env.dwellUs = .ok dwell ∧
      (Moved ev.start ev'.start → ev'.start.time = stop - dwell) ∧ (Moved ev.stop ev'.stop → ev'.stop.time = stop) := by
  rcases scheduleIgnition_cases h with rfl | ⟨stop, dwell, ev1, h1, h2, h3, h4⟩
  · exact .inl ⟨rfl, rfl, id, id⟩
  · right
    refine ⟨stop, dwell, h1, h2, ?_⟩
    have r : ev1.start.time = ev.start.time ∧ ev1.stop.time = ev.stop.time ∧ ev1.type = ev.type ∧
        (ev1.start.state = .scheduled → ev.start.state = .scheduled) ∧
        (ev1.stop.state = .scheduled → ev.stop.state = .scheduled) ∧
        (ev.start.state = .scheduled → ev1.start.state = .scheduled) ∧
        (ev.stop.state = .scheduled → ev1.stop.state = .scheduled) := by
      rcases resetIfFired_cases h3 with ⟨h5, _⟩ | ⟨h5, _⟩ | ⟨ev2, h5, h6, _, h7⟩
      · cases h5; exact ⟨rfl, rfl, rfl, id, id, id, id⟩
      · cases h5
      · cases h5
        obtain ⟨f1, f2, rfl⟩ := reset_ok h7
        simp [f1, f2]
    obtain ⟨r1, r2, r3, r4, r5, r6, r7⟩ := r
    have cv : ∀ en en1 en2 : Entry, en1.time = en.time → (en.state = .scheduled → en1.state = .scheduled) →
        (en1.state = .scheduled → en.state = .scheduled) → Moved en en2 → Moved en1 en2 := by
      intro en en1 en2 a b b' m
      rcases m with ⟨m1, m2⟩ | m
      · exact .inl ⟨m1, fun hh => m2 (b' hh)⟩
      · exact .inr (by rw [a]; exact m)
    rcases h4 with rfl | ⟨_, _, rfl⟩
    · exact ⟨fun m => absurd (cv _ _ _ r1 r6 r4 m) (not_moved_self _), fun m => absurd (cv _ _ _ r2 r7 r5 m) (not_moved_self _)⟩
    · have hen : ∀ (e : Time) (en : Entry) (t : Time), Moved en (entryEnable e en t).1 → (entryEnable e en t).1.time = t := by
        intro e en t m
        rcases entryEnable_cases e en t with ⟨k, _⟩ | ⟨k, _⟩
        · rw [k] at m; exact absurd m (not_moved_self _)
        · rw [k]
      have hni : (setPins ev1).type ≠ .fuel := by
        show ev1.type ≠ _
        rw [r3, hi]; decide
      have adj : ∀ b a c, adjustStop (setPins ev1) b a c = c := by
        intro b a c; simp [adjustStop, hni]
      have key : (Moved (setPins ev1).start (scheduleSafely env.earliest ev1 (stop - dwell) stop).start →
          (scheduleSafely env.earliest ev1 (stop - dwell) stop).start.time = stop - dwell) ∧
          (Moved (setPins ev1).stop (scheduleSafely env.earliest ev1 (stop - dwell) stop).stop →
          (scheduleSafely env.earliest ev1 (stop - dwell) stop).stop.time = stop) := by
        unfold scheduleSafely scheduleCrit
        split_ifs
        · exact ⟨hen _ _ _, hen _ _ _⟩
        · exact ⟨fun m => absurd m (not_moved_self _), fun m => absurd m (not_moved_self _)⟩
        · simp only [adj]
          exact ⟨hen _ _ _, hen _ _ _⟩
      exact ⟨fun m => key.1 (cv _ _ _ r1 r6 r4 m), fun m => key.2 (cv _ _ _ r2 r7 r5 m)⟩

/-! Non-vacuity: the shipped configuration at 3000 rpm (voltage dwell), and the other two modes. -/
example : @dwellTime exactFmt (@demoConfig exactFmt) = .ok 2575 ∧ @dwellTime binary32 (@demoConfig binary32) = .ok 2574 ∧
    @dwellTime binary32 { @demoConfig binary32 with ignition := ⟨.fixedDuty, fin 0, fin 0, 500⟩ } = .ok 2500 ∧
    @dwellTime binary32 { @demoConfig binary32 with ignition := ⟨.fixedTime, fin 0, fin 2750, 500⟩ } = .ok 2750 := by
  decide +kernel

end Verif
