/-
Runs that meet the hypotheses of C104.
-/
import Verif.Props.PowerOn
import Verif.Props.CommandDemo

namespace Verif

attribute [local instance] binary32

/-- C104 applied to the run of `FreeEngineDemo`: in cycle 2 the output has fired within 4.622 degrees of 257, and fires at no other tick of the cycle of that tick.
From the moment at which the beginning was given to the hardware (`e4`) 3000 microseconds are enough for the output to fire. -/
example : ∃ n E e s t, EngTimed Honest (FedBy freeEv FreeFire) (camEngine freeDecoder (sparkEvents 288)) n E e ∧ AtAngle evenCrank 257 (turnTol.error + 1) 2 t ∧ s < t ∧
    DrivenIn Honest (FedBy freeEv FreeFire) (camEngine freeDecoder (sparkEvents 288)) n E e 3 true s ∧ DrivenIn Honest (FedBy freeEv FreeFire) (camEngine freeDecoder (sparkEvents 288)) n E e 3 false t ∧
    ∃ n2 E2 e2 m, EngTimed Honest (FedBy freeEv FreeFire) (camEngine freeDecoder (sparkEvents 288)) n2 E2 e2 ∧ AtAngle evenCrank 257 (turnTol.error + 1) m t ∧
      (∀ n3 E3 e3 b3 t3, EngOn Honest (FedBy freeEv FreeFire) n2 E2 e2 n3 E3 e3 → InBuffer E3 e3 b3 t3 →
        Drives (e3.buf b3) (stamp t3) 3 false → AtAngle evenCrank 257 (turnTol.error + 1) m t3 → t3 = t) ∧
    ∃ n4 E4 e4 m4, EngTimed Honest (FedBy freeEv FreeFire) (camEngine freeDecoder (sparkEvents 288)) n4 E4 e4 ∧ ∀ n3 E3 e3, EngOn Honest (FedBy freeEv FreeFire) n4 E4 e4 n3 E3 e3 → 12000 ≤ n3 - s →
      ∃ t4, AtAngle evenCrank 257 (turnTol.error + 1) m4 t4 ∧ s < t4 ∧ DrivenOn Honest (FedBy freeEv FreeFire) n4 E4 e4 n3 E3 e3 3 false t4 := by
  have ho : onlyZero .ignition 288 (camEngine freeDecoder (sparkEvents 288)) = true := by decide +kernel
  obtain ⟨n1, E1, e1, n, E, e, h1, h2, h4, h5, h6⟩ := free_fire_run
  have hx := on_timed h1 h5
  obtain ⟨z1, z2, z3, z4, z5⟩ := sparkEvents_zero ho
  have hb := camEngine_boot freeDecoder (sparkEvents_unarmed 288)
  have hdec : (camEngine freeDecoder (sparkEvents 288)).cfg.decoder = decoderInit freeDecoder := rfl
  have hroom := free_room
  have hC := cam_commands freeDecoder (sparkEvents 288)
  have hTi : NoTipin (camEngine freeDecoder (sparkEvents 288)).tipin := rfl
  generalize camEngine freeDecoder (sparkEvents 288) = e0 at *
  have herr : turnTol.error = 1811 / 500 := by norm_num [turnTol, CrankTol.error]
  have eA : (288 : ℚ) - 31 + 0 = 257 := by norm_num
  have q2 : (345000 : ℚ) ≤ n := by exact_mod_cast freeEv_22 ▸ h6
  obtain ⟨s, t, a1, a2, -, -, a3, a4⟩ := C104_sparks (m := 2) (pin := 3) (V := 31) (δ := 1) free_demo rfl (by norm_num) even_turns_on even_turning turnTol_sane
    (by norm_num [turnTol]) hroom (by norm_num) (by norm_num) (by norm_num) hb hdec z2 z5 (by norm_num [abs_le]) hC hTi (fun _ _ h => h.2) hx z3
    (by norm_num [evenCrank, evenTooth]) (by rw [herr]; unfold evenCrank; push_cast; linarith)
  have a4' := a4
  obtain ⟨n2, E2, e2, b2, r1, r2, r3, r4⟩ := a4
  obtain ⟨m, m1, m2⟩ := C104_sparks_once (pin := 3) (V := 31) (δ := 1) free_demo rfl (by norm_num) even_turns_on even_turning turnTol_sane
    (by norm_num [turnTol]) hroom (by norm_num) (by norm_num) (by norm_num) hb hdec z2 z5 (by norm_num [abs_le]) hC hTi (fun _ _ h => h.2) z3 z1 r1 r3 r4
  obtain ⟨n4, E4, e4, b4, y1, y2, y3, y4⟩ := id a3
  obtain ⟨m4, -, y5⟩ := C104_coil (pin := 3) (V := 31) (δ := 1) free_demo rfl (by norm_num) even_turns_on even_turning turnTol_sane
    (by norm_num [turnTol]) hroom (by norm_num) (by norm_num) (by norm_num) hb hdec z2 z5 (by norm_num [abs_le]) hC hTi (fun _ _ h => h.2) z3 z1 y1 y3 y4
  rw [z4] at a3 a4' m2 y5
  rw [eA] at a1 m1 m2 y5
  refine ⟨n, E, e, s, t, hx, a1, a2, a3, a4', n2, E2, e2, m, r1, m1, m2, n4, E4, e4, m4, y1, fun n3 E3 e3 y6 y7 => ?_⟩
  obtain ⟨t4, x6, x7, -, -, x8⟩ := (y5 n3 E3 e3 y6).2 (by
    have y9 : ((12000 : ℤ) : ℚ) ≤ ((n3 - s : ℤ) : ℚ) := by exact_mod_cast y7
    push_cast at y9
    rw [herr]
    push_cast
    linarith)
  exact ⟨t4, x6, x7, x8⟩

/-- C104 applied to the run of `FreeFuelDemo`: in cycle 2 the injector has closed within 4.822 degrees of 250, after a pulse of 3250 to 3300 microseconds, and closes at no other tick
of the cycle of that tick.  From the moment at which the beginning was given to the hardware (`e4`) 5000 microseconds are enough for the output to close. -/
example : ∃ n E e s t, EngTimed Honest (FedBy freeEv FreePulse) (camEngine freeDecoder (fuelEvents 250)) n E e ∧ AtAngle evenCrank 250 (2411 / 500) 2 t ∧ 13000 ≤ t - s ∧ t - s ≤ 13200 ∧
    DrivenIn Honest (FedBy freeEv FreePulse) (camEngine freeDecoder (fuelEvents 250)) n E e 3 true s ∧ DrivenIn Honest (FedBy freeEv FreePulse) (camEngine freeDecoder (fuelEvents 250)) n E e 3 false t ∧
    ∃ n2 E2 e2 m, EngTimed Honest (FedBy freeEv FreePulse) (camEngine freeDecoder (fuelEvents 250)) n2 E2 e2 ∧ AtAngle evenCrank 250 (2411 / 500) m t ∧
      (∀ n3 E3 e3 b3 t3, EngOn Honest (FedBy freeEv FreePulse) n2 E2 e2 n3 E3 e3 → InBuffer E3 e3 b3 t3 →
        Drives (e3.buf b3) (stamp t3) 3 false → AtAngle evenCrank 250 (2411 / 500) m t3 → t3 = t) ∧
    ∃ n4 E4 e4 m4, EngTimed Honest (FedBy freeEv FreePulse) (camEngine freeDecoder (fuelEvents 250)) n4 E4 e4 ∧ ∀ n3 E3 e3, EngOn Honest (FedBy freeEv FreePulse) n4 E4 e4 n3 E3 e3 → 20000 ≤ n3 - s →
      ∃ t4, AtAngle evenCrank 250 (2411 / 500) m4 t4 ∧ s < t4 ∧ DrivenOn Honest (FedBy freeEv FreePulse) n4 E4 e4 n3 E3 e3 3 false t4 := by
  have ho : onlyZero .fuel 250 (camEngine freeDecoder (fuelEvents 250)) = true := by decide +kernel
  obtain ⟨n1, E1, e1, n, E, e, h1, h2, h4, h5, h6⟩ := free_squirt_run
  have hx := on_timed h1 h5
  obtain ⟨z1, z2, z3, z4, z5⟩ := sparkEvents_zero ho
  have hb := camEngine_boot freeDecoder (fuelEvents_unarmed 250)
  have hdec : (camEngine freeDecoder (fuelEvents 250)).cfg.decoder = decoderInit freeDecoder := rfl
  have hC := cam_commands freeDecoder (fuelEvents 250)
  have hTi : NoTipin (camEngine freeDecoder (fuelEvents 250)).tipin := rfl
  generalize camEngine freeDecoder (fuelEvents 250) = e0 at *
  have herr : turnTol.error = 1811 / 500 := by norm_num [turnTol, CrankTol.error]
  have eA : (250 : ℚ) + 0 = 250 := by norm_num
  have q2 : (345000 : ℚ) ≤ n := by exact_mod_cast freeEv_22 ▸ h6
  obtain ⟨s, t, a1, -, w1, w2, a3, a4⟩ := C104_injects (m := 2) (pin := 3) free_demo rfl (by norm_num) even_turns_on even_turning turnTol_sane
    (by norm_num [turnTol]) pulse_room (by rw [herr]; norm_num) hb hdec z2 z5 (by norm_num [abs_le]) hC hTi (fun _ _ h => h.2) hx z3
    (by norm_num [evenCrank, evenTooth]) (by unfold evenCrank; push_cast; linarith)
  have a4' := a4
  obtain ⟨n2, E2, e2, b2, r1, r2, r3, r4⟩ := a4
  obtain ⟨m, m1, m2⟩ := C104_injects_once (pin := 3) free_demo rfl (by norm_num) even_turns_on even_turning turnTol_sane
    (by norm_num [turnTol]) pulse_room (by rw [herr]; norm_num) hb hdec z2 z5 (by norm_num [abs_le]) hC hTi (fun _ _ h => h.2) z3 z1 r1 r3 r4
  obtain ⟨n4, E4, e4, b4, y1, y2, y3, y4⟩ := id a3
  obtain ⟨m4, -, y5⟩ := C104_injector (pin := 3) free_demo rfl (by norm_num) even_turns_on even_turning turnTol_sane
    (by norm_num [turnTol]) pulse_room (by rw [herr]; norm_num) hb hdec z2 z5 (by norm_num [abs_le]) hC hTi (fun _ _ h => h.2) z3 z1 y1 y3 y4
  rw [z4] at a3 a4' m2 y5
  rw [eA] at a1 m1 m2 y5
  refine ⟨n, E, e, s, t, hx, a1, w1, w2, a3, a4', n2, E2, e2, m, r1, m1, m2, n4, E4, e4, m4, y1, fun n3 E3 e3 y6 y7 => ?_⟩
  obtain ⟨t4, x6, x7, -, -, x8⟩ := (y5 n3 E3 e3 y6).2 (by omega)
  exact ⟨t4, x6, x7, x8⟩

end Verif
