/-
C106: what rounding does to the fuel pulse.
-/
import Verif.Proofs.RelErr
import Verif.Props.Fueling
import Verif.Spec.Demo

namespace Verif
open Fl FloatFmt

/-- The numbers of an engine: volumetric efficiency and pressure up to 1024 percent and kPa, cylinders of 1 to 16384 cc, an intake temperature of
-145 °C or more, fuel within 200 °C of 15 °C and of at least a quarter gram per cc, injectors of 8 to 8192 cc per minute, up to 64 injections. -/
structure EngineNumbers (f : FuelTerms) : Prop where
  ve : 1 / 16 ≤ f.ve ∧ f.ve ≤ 1024
  map : 1 / 16 ≤ f.map ∧ f.map ≤ 1024
  cyl : 1 ≤ f.cyl ∧ f.cyl ≤ 16384
  rho : 1 / 16384 ≤ f.rho ∧ f.rho ≤ 1 / 16
  iat : 128 ≤ f.iat + 27315 / 100 ∧ f.iat + 27315 / 100 ≤ 2048
  stoich : 1 ≤ f.stoich ∧ f.stoich ≤ 64
  frt : |f.frt - 15| ≤ 200
  dens : 1 / 4 ≤ f.fuelDensity ∧ f.fuelDensity ≤ 8
  lambda : 1 / 8 ≤ f.lambda ∧ f.lambda ≤ 8
  tipin : f.tipin = 0 ∨ 1 / 1024 ≤ f.tipin ∧ f.tipin ≤ 16384
  cc : 8 ≤ f.cc ∧ f.cc ≤ 8192
  n : 1 ≤ f.n ∧ f.n ≤ 64
  ete : 1 / 16 ≤ f.ete ∧ f.ete ≤ 16
  pwc : |f.pwc| ≤ 1024
  dead : |f.dead| ≤ 1024

section
variable [FloatFmt]

/-- C106: the air mass, with every operation rounded, is that of the ideal gas law up to thirteen roundings. -/
theorem airmass_near {c : Config} {now : Time} {s s' : Tipin} {v v' : CalcValues} {f : FuelTerms}
    (h : calculateFueling c now s v = .ok (v', s')) (hf : Reads c v' f) (hn : EngineNumbers f) : Ap 13 (-39) 20 v'.airmass f.airMass := by
  obtain ⟨-, -, -, -, -, -, -, -, -, -, ha, -⟩ := C24_terms c now s s' v v' h
  rw [ha, hf.ve, hf.map, hf.iat]
  unfold calcAirmass airDensity FuelTerms.airMass
  rw [hf.cyl, hf.rho]
  have hundred : Ap 0 6 7 (fin 100) 100 := Ap.exact (by norm_num) (by norm_num)
  have a1 : Ap 0 (-4) 10 (fin f.ve) f.ve := Ap.exact (by have := hn.ve.1; norm_num [zpow_neg] at *; exact this) (by have := hn.ve.2; norm_num; exact this)
  have a2 : Ap 0 (-4) 10 (fin f.map) f.map := Ap.exact (by have := hn.map.1; norm_num [zpow_neg] at *; exact this) (by have := hn.map.2; norm_num; exact this)
  have a3 : Ap 0 0 14 (fin f.cyl) f.cyl := Ap.exact (by have := hn.cyl.1; norm_num; exact this) (by have := hn.cyl.2; norm_num; exact this)
  have a4 : Ap 0 (-14) (-4) (fin f.rho) f.rho := Ap.exact (by have := hn.rho.1; norm_num [zpow_neg] at *; exact this) (by have := hn.rho.2; norm_num [zpow_neg] at *; exact this)
  have a5 := kelvin_near hn.iat.1 hn.iat.2
  have a6 : Ap 1 8 9 (rnd (27315 / 100)) (27315 / 100) :=
    Ap.round (k := 0) (by norm_num) (by norm_num) (by norm_num) (by norm_num) (by norm_num) (by norm_num) (by norm_num)
  have b1 := a1.div hundred (by norm_num) (by norm_num) (by norm_num)
  have b2 := a2.div hundred (by norm_num) (by norm_num) (by norm_num)
  have b3 := (b1.mul b2 (by norm_num) (by norm_num) (by norm_num)).mul a3 (by norm_num) (by norm_num) (by norm_num)
  have b4 := a4.mul (a6.div a5 (by norm_num) (by norm_num) (by norm_num)) (by norm_num) (by norm_num) (by norm_num)
  exact b3.mul b4 (by norm_num) (by norm_num) (by norm_num)

theorem volume_near {c : Config} {now : Time} {s s' : Tipin} {v v' : CalcValues} {f : FuelTerms}
    (h : calculateFueling c now s v = .ok (v', s')) (hf : Reads c v' f) (hn : EngineNumbers f) : Ap 21 (-51) 25 v'.fuelvol f.fuelVol := by
  have ha := airmass_near h hf hn
  obtain ⟨-, -, -, -, -, -, -, -, -, -, -, hv, -⟩ := C24_terms c now s s' v v' h
  rw [hv, hf.lambda, hf.frt]
  unfold calcFuelVolume fuelDensity FuelTerms.fuelVol
  rw [hf.stoich, hf.dens]
  have a1 : Ap 0 0 6 (fin f.stoich) f.stoich := Ap.exact (by have := hn.stoich.1; norm_num; exact this) (by have := hn.stoich.2; norm_num; exact this)
  have a2 : Ap 0 (-3) 3 (fin f.lambda) f.lambda := Ap.exact (by have := hn.lambda.1; norm_num [zpow_neg] at *; exact this) (by have := hn.lambda.2; norm_num; exact this)
  have a3 := density_near hn.frt hn.dens.1 hn.dens.2
  have b1 := ha.div a1 (by norm_num) (by norm_num) (by norm_num)
  have b2 := b1.div a3 (by norm_num) (by norm_num) (by norm_num)
  exact b2.div a2 (by norm_num) (by norm_num) (by norm_num)

theorem raw_near {c : Config} {now : Time} {s s' : Tipin} {v v' : CalcValues} {f : FuelTerms}
    (h : calculateFueling c now s v = .ok (v', s')) (hf : Reads c v' f) (hn : EngineNumbers f) :
    Ap 25 (-45) 49 (rawPw c.fueling v'.fuelvol v'.tipin) f.rawUs := by
  have hv := volume_near h hf hn
  unfold rawPw FuelTerms.rawUs
  have en : Fl.ofU32 c.fueling.injections = fin f.n := by
    have h64 : (c.fueling.injections.toNat : ℚ) ≤ 64 := by rw [hf.n]; exact hn.n.2
    unfold Fl.ofU32
    rw [← hf.n]
    have := rnd_dyadic (c.fueling.injections.toNat : ℤ) 0
      (by rw [abs_of_nonneg (by positivity)]; have : c.fueling.injections.toNat ≤ 64 := by exact_mod_cast h64
          norm_num; omega) (by norm_num)
    simpa using this
  rw [hf.tipin, hf.cc, en]
  have a1 : Ap 0 3 13 (fin f.cc) f.cc := Ap.exact (by have := hn.cc.1; norm_num; exact this) (by have := hn.cc.2; norm_num; exact this)
  have a2 : Ap 0 0 6 (fin f.n) f.n := Ap.exact (by have := hn.n.1; norm_num; exact this) (by have := hn.n.2; norm_num; exact this)
  have a3 : Ap 0 25 26 (fin 60000000) 60000000 := Ap.exact (by norm_num) (by norm_num)
  have a4 : Ap 0 9 10 (fin 1000) 1000 := Ap.exact (by norm_num) (by norm_num)
  have b1 : Ap 22 (-51) 26 (v'.fuelvol + fin f.tipin / fin 1000) (f.fuelVol + f.tipin / 1000) := by
    rcases hn.tipin with h0 | ⟨h1, h2⟩
    · rw [h0, fin_div _ _ (by norm_num), zero_div, rnd_zero]
      exact hv.add_zero (by norm_num) (by norm_num) (by norm_num)
    · have t : Ap 0 (-10) 14 (fin f.tipin) f.tipin := Ap.exact (by norm_num [zpow_neg] at *; exact h1) (by norm_num; exact h2)
      have t' := t.div a4 (by norm_num) (by norm_num) (by norm_num)
      exact hv.add (t'.weaken (l := 21) (by norm_num)) (by norm_num) (by norm_num) (by norm_num) (by norm_num)
  have b2 := b1.div a1 (by norm_num) (by norm_num) (by norm_num)
  have b3 := b2.mul a3 (by norm_num) (by norm_num) (by norm_num)
  exact b3.div a2 (by norm_num) (by norm_num) (by norm_num)

/-- C106: the air mass and the fuel volume that are reported are within 2^-19 of the speed-density equation, relative to their size. -/
theorem C106_volume {c : Config} {now : Time} {s s' : Tipin} {v v' : CalcValues} {f : FuelTerms}
    (h : calculateFueling c now s v = .ok (v', s')) (hf : Reads c v' f) (hn : EngineNumbers f) :
    (∃ m, v'.airmass = fin m ∧ |m - f.airMass| ≤ f.airMass / 2 ^ 19) ∧ ∃ u, v'.fuelvol = fin u ∧ |u - f.fuelVol| ≤ f.fuelVol / 2 ^ 19 := by
  have key : ∀ {k : ℕ} {a b : ℤ} {x : Fl} {X : ℚ}, Ap k a b x X → k ≤ 26 → ∃ m, x = fin m ∧ |m - X| ≤ X / 2 ^ 19 := by
    intro k a b x X hx hk
    have hX := hx.pos
    obtain ⟨-, q, rfl, -⟩ := id hx
    refine ⟨q, rfl, (hx.abs hk).trans ?_⟩
    norm_num
    linarith
  exact ⟨key (airmass_near h hf hn) (by norm_num), key (volume_near h hf hn) (by norm_num)⟩

/-- C106: the pulse that is commanded is that of the speed-density equation in whole microseconds, up to 2^-19 of the sum of its parts. -/
theorem C106_pulse {c : Config} {now : Time} {s s' : Tipin} {v v' : CalcValues} {f : FuelTerms}
    (h : calculateFueling c now s v = .ok (v', s')) (hf : Reads c v' f) (hn : EngineNumbers f) :
    |(v'.fuelingUs.toNat : ℚ) - f.pulseUs| < 1 + (f.rawUs * f.ete + |f.pwc| * 1000 + |f.dead| * 1000) / 2 ^ 19 + 1 / 2 ^ 90 := by
  have hr := raw_near h hf hn
  obtain ⟨-, -, -, -, -, -, -, -, -, -, -, -, hu, -⟩ := C24_terms c now s s' v v' h
  have a1 : Ap 0 (-4) 4 (fin f.ete) f.ete := Ap.exact (by have := hn.ete.1; norm_num [zpow_neg] at *; exact this) (by have := hn.ete.2; norm_num; exact this)
  rw [hf.ete, hf.pwc, hf.dead] at hu
  have b := hr.mul a1 (by norm_num) (by norm_num) (by norm_num)
  obtain ⟨A, hA⟩ : ∃ A, A = f.rawUs * f.ete := ⟨_, rfl⟩
  have A0 : 0 < A := by rw [hA]; exact b.pos
  have A1 : A ≤ 2 ^ 53 := by rw [hA]; exact b.1.2.trans (by norm_num)
  obtain ⟨-, a, ea, -⟩ := id b
  rw [ea] at b hu
  have b' := b.abs (by norm_num)
  rw [← hA] at b'
  obtain ⟨B, hB⟩ : ∃ B, B = f.pwc * 1000 := ⟨_, rfl⟩
  obtain ⟨C, hC⟩ : ∃ C, C = f.dead * 1000 := ⟨_, rfl⟩
  have B1 : |B| = |f.pwc| * 1000 := by rw [hB, abs_mul]; norm_num
  have C1 : |C| = |f.dead| * 1000 := by rw [hC, abs_mul]; norm_num
  have B2 : |B| ≤ 1024000 := by rw [B1]; linarith [hn.pwc]
  have C2 : |C| ≤ 1024000 := by rw [C1]; linarith [hn.dead]
  have hp : f.pulseUs = A + B + C := by unfold FuelTerms.pulseUs; rw [hA, hB, hC]
  obtain ⟨p, hpp, p1⟩ := rnd_near (q := B) (B2.trans (by norm_num))
  obtain ⟨d, hdd, d1⟩ := rnd_near (q := C) (C2.trans (by norm_num))
  rw [fin_mul, fin_mul, ← hB, ← hC, hpp, hdd] at hu
  have B0 := abs_nonneg B
  have C0 := abs_nonneg C
  have m1 : |A + B| ≤ A + |B| := (abs_add_le _ _).trans (by rw [abs_of_pos A0])
  have m2 : |A + B + C| ≤ A + |B| + |C| := (abs_add_le _ _).trans (by linarith)
  have s1 : ∃ x, (fin a + fin p : Fl) = fin x := by
    have : |a + p| ≤ 2 ^ 100 := by
      have h1 := abs_add_le (a - A) (p - B)
      have h2 := abs_add_le (a - A + (p - B)) (A + B)
      rw [show a - A + (p - B) + (A + B) = a + p by ring] at h2
      norm_num at *; linarith
    obtain ⟨x, hx, -⟩ := rnd_near this
    exact ⟨x, by rw [fin_add, hx]⟩
  obtain ⟨x, hx⟩ := s1
  have x1 := sum_near b' p1 m1 (by norm_num; linarith) (by norm_num; linarith) hx
  rw [hx] at hu
  obtain ⟨q, hq, q1, q2, q3⟩ := toU32_ok hu
  have y1 := sum_near x1 d1 m2 (by norm_num; linarith) (by norm_num; linarith) hq
  rw [← hp] at y1
  rw [q3]
  have fl := Int.lt_floor_add_one q
  have fl' := Int.floor_le q
  have hz : ((⌊q⌋.toNat : ℕ) : ℚ) = ((⌊q⌋.toNat : ℤ) : ℚ) := by push_cast; rfl
  have hw : |((⌊q⌋.toNat : ℕ) : ℚ) - q| < 1 := by
    rw [hz, Int.toNat_eq_max, Int.cast_max, abs_lt]
    rcases le_total ((⌊q⌋ : ℤ) : ℚ) ((0 : ℤ) : ℚ) with h0 | h0
    · rw [max_eq_right h0]
      have : ⌊q⌋ ≤ 0 := by exact_mod_cast h0
      have : q < 1 := by push_cast at h0; linarith
      constructor <;> (push_cast; linarith)
    · rw [max_eq_left h0]
      constructor <;> linarith
  have e : ((⌊q⌋.toNat : ℕ) : ℚ) - f.pulseUs = (((⌊q⌋.toNat : ℕ) : ℚ) - q) + (q - f.pulseUs) := by ring
  rw [e, ← B1, ← C1, ← hA]
  refine lt_of_le_of_lt (abs_add_le _ _) ?_
  have : |q - f.pulseUs| ≤ (A + |B| + |C|) / 2 ^ 19 + 1 / 2 ^ 90 := by
    refine y1.trans ?_
    norm_num
    linarith
  linarith

end

section
attribute [local instance] binary32

/-- The numbers that the calculation on `demoConfig` uses in single precision. -/
def accTerms : FuelTerms where
  ve := demoFuel.ve.toQ
  map := (demoConfig.sensors sensorMap).value.toQ
  iat := (demoConfig.sensors sensorIat).value.toQ
  frt := (demoConfig.sensors sensorFrt).value.toQ
  lambda := demoFuel.lambda.toQ
  tipin := demoFuel.tipin.toQ
  ete := demoFuel.ete.toQ
  pwc := demoFuel.pwc.toQ
  dead := demoFuel.idt.toQ
  cyl := demoConfig.fueling.cylinderCc.toQ
  rho := demoConfig.fueling.airDensity.toQ
  stoich := demoConfig.fueling.stoich.toQ
  dens := demoConfig.fueling.fuelDensity.toQ
  cc := demoConfig.fueling.injectorCc.toQ
  n := (demoConfig.fueling.injections.toNat : ℚ)

/-- The hypotheses are met by it. -/
example : ∃ s', calculateFueling demoConfig 1000000 Tipin.init zeroCalc = .ok (demoFuel, s') ∧ Reads demoConfig demoFuel accTerms ∧
    EngineNumbers accTerms ∧ demoFuel.fuelingUs = 3174 := by
  refine ⟨{ time := 1000000, length := 240000, amount := fin 0, active := true }, by decide +kernel, ?_, ?_, by decide +kernel⟩
  · constructor <;> decide +kernel
  · constructor <;> decide +kernel

end

end Verif
