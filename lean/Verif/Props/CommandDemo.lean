/-
Runs that meet the hypotheses of C103.
-/
import Verif.Props.CommandEven
import Verif.Props.FreeFuelDemo

namespace Verif

attribute [local instance] binary32

/-- The settings of the runs, with a band of one degree for the advance. -/
theorem cam_commands (d0 : Decoder) (evs : Fin maxEvents → OEvent) : Commands (camEngine d0 evs).cfg DemoSensed NoTipin 90 15000 15300 31 1 10296 10296 13000 13200 := by
  unfold camEngine
  generalize wheelStart evs = s
  exact (demo_commands rfl).loosen (by norm_num)

theorem cam_steady (d0 : Decoder) (evs : Fin maxEvents → OEvent) : SteadyAdvance (camEngine d0 evs).cfg DemoSensed := by
  unfold camEngine
  generalize wheelStart evs = s
  exact demo_steady rfl

theorem wheel_commands (evs : Fin maxEvents → OEvent) : Commands (wheelEngine evs).cfg DemoSensed NoTipin 90 15000 15300 31 (1 / 2) 10296 10296 13000 13200 := by
  unfold wheelEngine
  generalize wheelStart evs = s
  exact demo_commands rfl

/-- C103 applied to the run of `CycleDemo`: in cycle 2 the output has fired within 4.122 degrees of 177, and fires at no other tick of the cycle of that tick.
From the moment at which the beginning was given to the hardware (`e4`) 3000 microseconds are enough for the output to fire. -/
example : ∃ n1 E1 e1 n E e s t, EngTimed Honest (FedBy (fun j => (0, lateTooth j)) FireOk) (wheelEngine (sparkEvents 208)) n1 E1 e1 ∧
    EngOn Honest (FedBy (fun j => (0, lateTooth j)) FireOk) n1 E1 e1 n E e ∧ AtAngle lateCrank 177 (turnTol.error + 1 / 2) 2 t ∧ s < t ∧
    DrivenOn Honest (FedBy (fun j => (0, lateTooth j)) FireOk) n1 E1 e1 n E e 3 true s ∧ DrivenOn Honest (FedBy (fun j => (0, lateTooth j)) FireOk) n1 E1 e1 n E e 3 false t ∧
    ∃ n2 E2 e2 m, EngOn Honest (FedBy (fun j => (0, lateTooth j)) FireOk) n1 E1 e1 n2 E2 e2 ∧ AtAngle lateCrank 177 (turnTol.error + 1 / 2) m t ∧
      (∀ n3 E3 e3 b3 t3, EngOn Honest (FedBy (fun j => (0, lateTooth j)) FireOk) n2 E2 e2 n3 E3 e3 → InBuffer E3 e3 b3 t3 →
        Drives (e3.buf b3) (stamp t3) 3 false → AtAngle lateCrank 177 (turnTol.error + 1 / 2) m t3 → t3 = t) ∧
    ∃ n4 E4 e4 m4, EngOn Honest (FedBy (fun j => (0, lateTooth j)) FireOk) n1 E1 e1 n4 E4 e4 ∧ ∀ n3 E3 e3, EngOn Honest (FedBy (fun j => (0, lateTooth j)) FireOk) n4 E4 e4 n3 E3 e3 → 12000 ≤ n3 - s →
      ∃ t4, AtAngle lateCrank 177 (turnTol.error + 1 / 2) m4 t4 ∧ s < t4 ∧ DrivenOn Honest (FedBy (fun j => (0, lateTooth j)) FireOk) n4 E4 e4 n3 E3 e3 3 false t4 := by
  have ho : onlyZero .ignition 208 (wheelEngine (sparkEvents 208)) = true := by decide +kernel
  obtain ⟨n1, E1, e1, n, E, e, h1, h2, h4, h5, h6⟩ := fire_run
  obtain ⟨z1, z2, z3, z4, z5⟩ := sparkEvents_zero ho
  have hb := wheelEngine_boot (sparkEvents_unarmed 208)
  have hdec : (wheelEngine (sparkEvents 208)).cfg.decoder = decoderInit (demoDecoder .missingNosync) := rfl
  have hroom := demo_room
  have hC := wheel_commands (sparkEvents 208)
  have hTi : NoTipin (wheelEngine (sparkEvents 208)).tipin := rfl
  generalize wheelEngine (sparkEvents 208) = e0 at *
  have herr : turnTol.error = 1811 / 500 := by norm_num [turnTol, CrankTol.error]
  have eA : (208 : ℚ) - 31 + 0 = 177 := by norm_num
  have q2 : (345216 : ℚ) ≤ n := by exact_mod_cast h6
  obtain ⟨s, t, a1, a2, -, -, a3, a4⟩ := C103_sparks (m := 2) (pin := 3) (k1 := 4) (V := 31) (δ := 1 / 2) late_run_setup rfl demo_gap rfl (by norm_num) late_turns late_turning turnTol_sane
    (by norm_num [turnTol]) hroom (by norm_num) (by norm_num) (by norm_num) hb hdec z2 z5 (by norm_num [abs_le]) hC hTi (fun _ _ h => h.2) h1 h2 (by norm_num) (.inr h4) h5 z3
    (by rw [show lateTooth 4 = 90000 by decide]; unfold lateCrank; norm_num) (by rw [herr]; unfold lateCrank; push_cast; linarith)
  have a4' := a4
  obtain ⟨n2, E2, e2, b2, r1, r2, r3, r4⟩ := a4
  obtain ⟨m, m1, m2⟩ := C103_sparks_once (pin := 3) (k1 := 4) (V := 31) (δ := 1 / 2) late_run_setup rfl demo_gap rfl (by norm_num) late_turns late_turning turnTol_sane
    (by norm_num [turnTol]) hroom (by norm_num) (by norm_num) (by norm_num) hb hdec z2 z5 (by norm_num [abs_le]) hC hTi (fun _ _ h => h.2) h1 h2 (by norm_num) (.inr h4) z3 z1 r1 r3 r4
  obtain ⟨n4, E4, e4, b4, y1, y2, y3, y4⟩ := id a3
  obtain ⟨m4, -, y5⟩ := C103_coil (pin := 3) (k1 := 4) (V := 31) (δ := 1 / 2) late_run_setup rfl demo_gap rfl (by norm_num) late_turns late_turning turnTol_sane
    (by norm_num [turnTol]) hroom (by norm_num) (by norm_num) (by norm_num) hb hdec z2 z5 (by norm_num [abs_le]) hC hTi (fun _ _ h => h.2) h1 h2 (by norm_num) (.inr h4) z3 z1 y1 y3 y4
  rw [z4] at a3 a4' m2 y5
  rw [eA] at a1 m1 m2 y5
  refine ⟨n1, E1, e1, n, E, e, s, t, h1, h5, a1, a2, a3, a4', n2, E2, e2, m, r1, m1, m2, n4, E4, e4, m4, y1, fun n3 E3 e3 y6 y7 => ?_⟩
  obtain ⟨t4, x6, x7, -, -, x8⟩ := (y5 n3 E3 e3 y6).2 (by
    have y9 : ((12000 : ℤ) : ℚ) ≤ ((n3 - s : ℤ) : ℚ) := by exact_mod_cast y7
    push_cast at y9
    rw [herr]
    push_cast
    linarith)
  exact ⟨t4, x6, x7, x8⟩

/-- C103 applied to the run of `PulsesDemo`: in cycle 2 the injector has closed within 4.822 degrees of 170, after a pulse of 3250 to 3300 microseconds, and closes at no other tick
of the cycle of that tick.  From the moment at which the beginning was given to the hardware (`e4`) 5000 microseconds are enough for the output to close. -/
example : ∃ n1 E1 e1 n E e s t, EngTimed Honest (FedBy (fun j => (0, lateTooth j)) PulseOk) (wheelEngine (fuelEvents 170)) n1 E1 e1 ∧
    EngOn Honest (FedBy (fun j => (0, lateTooth j)) PulseOk) n1 E1 e1 n E e ∧ AtAngle lateCrank 170 (2411 / 500) 2 t ∧ 13000 ≤ t - s ∧ t - s ≤ 13200 ∧
    DrivenOn Honest (FedBy (fun j => (0, lateTooth j)) PulseOk) n1 E1 e1 n E e 3 true s ∧ DrivenOn Honest (FedBy (fun j => (0, lateTooth j)) PulseOk) n1 E1 e1 n E e 3 false t ∧
    ∃ n2 E2 e2 m, EngOn Honest (FedBy (fun j => (0, lateTooth j)) PulseOk) n1 E1 e1 n2 E2 e2 ∧ AtAngle lateCrank 170 (2411 / 500) m t ∧
      (∀ n3 E3 e3 b3 t3, EngOn Honest (FedBy (fun j => (0, lateTooth j)) PulseOk) n2 E2 e2 n3 E3 e3 → InBuffer E3 e3 b3 t3 →
        Drives (e3.buf b3) (stamp t3) 3 false → AtAngle lateCrank 170 (2411 / 500) m t3 → t3 = t) ∧
    ∃ n4 E4 e4 m4, EngOn Honest (FedBy (fun j => (0, lateTooth j)) PulseOk) n1 E1 e1 n4 E4 e4 ∧ ∀ n3 E3 e3, EngOn Honest (FedBy (fun j => (0, lateTooth j)) PulseOk) n4 E4 e4 n3 E3 e3 → 20000 ≤ n3 - s →
      ∃ t4, AtAngle lateCrank 170 (2411 / 500) m4 t4 ∧ s < t4 ∧ DrivenOn Honest (FedBy (fun j => (0, lateTooth j)) PulseOk) n4 E4 e4 n3 E3 e3 3 false t4 := by
  have ho : onlyZero .fuel 170 (wheelEngine (fuelEvents 170)) = true := by decide +kernel
  obtain ⟨n1, E1, e1, n, E, e, h1, h2, h4, h5, h6⟩ := pulse_run
  obtain ⟨z1, z2, z3, z4, z5⟩ := sparkEvents_zero ho
  have hb := wheelEngine_boot (fuelEvents_unarmed 170)
  have hdec : (wheelEngine (fuelEvents 170)).cfg.decoder = decoderInit (demoDecoder .missingNosync) := rfl
  have hC := wheel_commands (fuelEvents 170)
  have hTi : NoTipin (wheelEngine (fuelEvents 170)).tipin := rfl
  generalize wheelEngine (fuelEvents 170) = e0 at *
  have herr : turnTol.error = 1811 / 500 := by norm_num [turnTol, CrankTol.error]
  have eA : (170 : ℚ) + 0 = 170 := by norm_num
  have q2 : (345216 : ℚ) ≤ n := by exact_mod_cast h6
  obtain ⟨s, t, a1, -, w1, w2, a3, a4⟩ := C103_injects (m := 2) (pin := 3) (k1 := 4) late_run_setup rfl demo_gap rfl (by norm_num) late_turns late_turning turnTol_sane
    (by norm_num [turnTol]) pulse_room (by rw [herr]; norm_num) hb hdec z2 z5 (by norm_num [abs_le]) hC hTi (fun _ _ h => h.2) h1 h2 (by norm_num) (.inr h4) h5 z3
    (by rw [show lateTooth 4 = 90000 by decide]; unfold lateCrank; norm_num) (by unfold lateCrank; push_cast; linarith)
  have a4' := a4
  obtain ⟨n2, E2, e2, b2, r1, r2, r3, r4⟩ := a4
  obtain ⟨m, m1, m2⟩ := C103_injects_once (pin := 3) (k1 := 4) late_run_setup rfl demo_gap rfl (by norm_num) late_turns late_turning turnTol_sane
    (by norm_num [turnTol]) pulse_room (by rw [herr]; norm_num) hb hdec z2 z5 (by norm_num [abs_le]) hC hTi (fun _ _ h => h.2) h1 h2 (by norm_num) (.inr h4) z3 z1 r1 r3 r4
  obtain ⟨n4, E4, e4, b4, y1, y2, y3, y4⟩ := id a3
  obtain ⟨m4, -, y5⟩ := C103_injector (pin := 3) (k1 := 4) late_run_setup rfl demo_gap rfl (by norm_num) late_turns late_turning turnTol_sane
    (by norm_num [turnTol]) pulse_room (by rw [herr]; norm_num) hb hdec z2 z5 (by norm_num [abs_le]) hC hTi (fun _ _ h => h.2) h1 h2 (by norm_num) (.inr h4) z3 z1 y1 y3 y4
  rw [z4] at a3 a4' m2 y5
  rw [eA] at a1 m1 m2 y5
  refine ⟨n1, E1, e1, n, E, e, s, t, h1, h5, a1, w1, w2, a3, a4', n2, E2, e2, m, r1, m1, m2, n4, E4, e4, m4, y1, fun n3 E3 e3 y6 y7 => ?_⟩
  obtain ⟨t4, x6, x7, -, -, x8⟩ := (y5 n3 E3 e3 y6).2 (by omega)
  exact ⟨t4, x6, x7, x8⟩

/-- C103 applied to the spark run of `CamEngineDemo`: in cycle 2 the output has fired within 4.622 degrees of 257, and fires at no other tick of the cycle of that tick.
From the moment at which the beginning was given to the hardware (`e4`) 3000 microseconds are enough for the output to fire. -/
example : ∃ n1 E1 e1 n E e s t, EngTimed Honest (FedBy camEv CamFire) (camEngine (demoDecoder .missingCamsync) (sparkEvents 288)) n1 E1 e1 ∧
    EngOn Honest (FedBy camEv CamFire) n1 E1 e1 n E e ∧ AtAngle camCrank 257 (turnTol.error + 1) 2 t ∧ s < t ∧
    DrivenOn Honest (FedBy camEv CamFire) n1 E1 e1 n E e 3 true s ∧ DrivenOn Honest (FedBy camEv CamFire) n1 E1 e1 n E e 3 false t ∧
    ∃ n2 E2 e2 m, EngOn Honest (FedBy camEv CamFire) n1 E1 e1 n2 E2 e2 ∧ AtAngle camCrank 257 (turnTol.error + 1) m t ∧
      (∀ n3 E3 e3 b3 t3, EngOn Honest (FedBy camEv CamFire) n2 E2 e2 n3 E3 e3 → InBuffer E3 e3 b3 t3 →
        Drives (e3.buf b3) (stamp t3) 3 false → AtAngle camCrank 257 (turnTol.error + 1) m t3 → t3 = t) ∧
    ∃ n4 E4 e4 m4, EngOn Honest (FedBy camEv CamFire) n1 E1 e1 n4 E4 e4 ∧ ∀ n3 E3 e3, EngOn Honest (FedBy camEv CamFire) n4 E4 e4 n3 E3 e3 → 12000 ≤ n3 - s →
      ∃ t4, AtAngle camCrank 257 (turnTol.error + 1) m4 t4 ∧ s < t4 ∧ DrivenOn Honest (FedBy camEv CamFire) n4 E4 e4 n3 E3 e3 3 false t4 := by
  have ho : onlyZero .ignition 288 (camEngine (demoDecoder .missingCamsync) (sparkEvents 288)) = true := by decide +kernel
  obtain ⟨n1, E1, e1, n, E, e, h1, h2, h4, h5, h6⟩ := cam_fire_run
  obtain ⟨z1, z2, z3, z4, z5⟩ := sparkEvents_zero ho
  have hb := camEngine_boot (demoDecoder .missingCamsync) (sparkEvents_unarmed 288)
  have hdec : (camEngine (demoDecoder .missingCamsync) (sparkEvents 288)).cfg.decoder = decoderInit (demoDecoder .missingCamsync) := rfl
  have hroom := cam_room
  have hC := cam_commands (demoDecoder .missingCamsync) (sparkEvents 288)
  have hst := cam_steady (demoDecoder .missingCamsync) (sparkEvents 288)
  have hTi : NoTipin (camEngine (demoDecoder .missingCamsync) (sparkEvents 288)).tipin := rfl
  generalize camEngine (demoDecoder .missingCamsync) (sparkEvents 288) = e0 at *
  have herr : turnTol.error = 1811 / 500 := by norm_num [turnTol, CrankTol.error]
  have eA : (288 : ℚ) - 31 + 0 = 257 := by norm_num
  have q2 : (435000 : ℚ) ≤ n := by exact_mod_cast camEv_25 ▸ h6
  obtain ⟨s, t, a1, a2, -, -, a3, a4⟩ := C103_cam_sparks (m := 2) (pin := 3) (j1 := 10) (V := 31) (δ := 1) cam_run_setup cam_demo rfl (by norm_num) cam_turns cam_turning turnTol_sane
    (by norm_num [turnTol]) hroom (by norm_num) (by norm_num) (by norm_num) hb hdec z2 z5 (by norm_num [abs_le]) hC hst hTi (fun _ _ h => h.2) h1 h2 (by rw [cam_demo_slot]; norm_num) (.inr h4) h5 z3
    (by rw [cam_demo_slot, cam_demo_tooth]; unfold camCrank; norm_num) (by rw [herr]; unfold camCrank; push_cast; linarith)
  have a4' := a4
  obtain ⟨n2, E2, e2, b2, r1, r2, r3, r4⟩ := a4
  obtain ⟨m, m1, m2⟩ := C103_cam_sparks_once (pin := 3) (j1 := 10) (V := 31) (δ := 1) cam_run_setup cam_demo rfl (by norm_num) cam_turns cam_turning turnTol_sane
    (by norm_num [turnTol]) hroom (by norm_num) (by norm_num) (by norm_num) hb hdec z2 z5 (by norm_num [abs_le]) hC hst hTi (fun _ _ h => h.2) h1 h2 (by rw [cam_demo_slot]; norm_num) (.inr h4) z3 z1 r1 r3 r4
  obtain ⟨n4, E4, e4, b4, y1, y2, y3, y4⟩ := id a3
  obtain ⟨m4, -, y5⟩ := C103_cam_coil (pin := 3) (j1 := 10) (V := 31) (δ := 1) cam_run_setup cam_demo rfl (by norm_num) cam_turns cam_turning turnTol_sane
    (by norm_num [turnTol]) hroom (by norm_num) (by norm_num) (by norm_num) hb hdec z2 z5 (by norm_num [abs_le]) hC hst hTi (fun _ _ h => h.2) h1 h2 (by rw [cam_demo_slot]; norm_num) (.inr h4) z3 z1 y1 y3 y4
  rw [z4] at a3 a4' m2 y5
  rw [eA] at a1 m1 m2 y5
  refine ⟨n1, E1, e1, n, E, e, s, t, h1, h5, a1, a2, a3, a4', n2, E2, e2, m, r1, m1, m2, n4, E4, e4, m4, y1, fun n3 E3 e3 y6 y7 => ?_⟩
  obtain ⟨t4, x6, x7, -, -, x8⟩ := (y5 n3 E3 e3 y6).2 (by
    have y9 : ((12000 : ℤ) : ℚ) ≤ ((n3 - s : ℤ) : ℚ) := by exact_mod_cast y7
    push_cast at y9
    rw [herr]
    push_cast
    linarith)
  exact ⟨t4, x6, x7, x8⟩

/-- C103 applied to the fuel run of `CamEngineDemo`: in cycle 2 the injector has closed within 4.822 degrees of 250, after a pulse of 3250 to 3300 microseconds, and closes at no other tick
of the cycle of that tick.  From the moment at which the beginning was given to the hardware (`e4`) 5000 microseconds are enough for the output to close. -/
example : ∃ n1 E1 e1 n E e s t, EngTimed Honest (FedBy camEv CamPulse) (camEngine (demoDecoder .missingCamsync) (fuelEvents 250)) n1 E1 e1 ∧
    EngOn Honest (FedBy camEv CamPulse) n1 E1 e1 n E e ∧ AtAngle camCrank 250 (2411 / 500) 2 t ∧ 13000 ≤ t - s ∧ t - s ≤ 13200 ∧
    DrivenOn Honest (FedBy camEv CamPulse) n1 E1 e1 n E e 3 true s ∧ DrivenOn Honest (FedBy camEv CamPulse) n1 E1 e1 n E e 3 false t ∧
    ∃ n2 E2 e2 m, EngOn Honest (FedBy camEv CamPulse) n1 E1 e1 n2 E2 e2 ∧ AtAngle camCrank 250 (2411 / 500) m t ∧
      (∀ n3 E3 e3 b3 t3, EngOn Honest (FedBy camEv CamPulse) n2 E2 e2 n3 E3 e3 → InBuffer E3 e3 b3 t3 →
        Drives (e3.buf b3) (stamp t3) 3 false → AtAngle camCrank 250 (2411 / 500) m t3 → t3 = t) ∧
    ∃ n4 E4 e4 m4, EngOn Honest (FedBy camEv CamPulse) n1 E1 e1 n4 E4 e4 ∧ ∀ n3 E3 e3, EngOn Honest (FedBy camEv CamPulse) n4 E4 e4 n3 E3 e3 → 20000 ≤ n3 - s →
      ∃ t4, AtAngle camCrank 250 (2411 / 500) m4 t4 ∧ s < t4 ∧ DrivenOn Honest (FedBy camEv CamPulse) n4 E4 e4 n3 E3 e3 3 false t4 := by
  have ho : onlyZero .fuel 250 (camEngine (demoDecoder .missingCamsync) (fuelEvents 250)) = true := by decide +kernel
  obtain ⟨n1, E1, e1, n, E, e, h1, h2, h4, h5, h6⟩ := cam_squirt_run
  obtain ⟨z1, z2, z3, z4, z5⟩ := sparkEvents_zero ho
  have hb := camEngine_boot (demoDecoder .missingCamsync) (fuelEvents_unarmed 250)
  have hdec : (camEngine (demoDecoder .missingCamsync) (fuelEvents 250)).cfg.decoder = decoderInit (demoDecoder .missingCamsync) := rfl
  have hC := cam_commands (demoDecoder .missingCamsync) (fuelEvents 250)
  have hTi : NoTipin (camEngine (demoDecoder .missingCamsync) (fuelEvents 250)).tipin := rfl
  generalize camEngine (demoDecoder .missingCamsync) (fuelEvents 250) = e0 at *
  have herr : turnTol.error = 1811 / 500 := by norm_num [turnTol, CrankTol.error]
  have eA : (250 : ℚ) + 0 = 250 := by norm_num
  have q2 : (435000 : ℚ) ≤ n := by exact_mod_cast camEv_25 ▸ h6
  obtain ⟨s, t, a1, -, w1, w2, a3, a4⟩ := C103_cam_injects (m := 2) (pin := 3) (j1 := 10) cam_run_setup cam_demo rfl (by norm_num) cam_turns cam_turning turnTol_sane
    (by norm_num [turnTol]) pulse_room (by rw [herr]; norm_num) hb hdec z2 z5 (by norm_num [abs_le]) hC hTi (fun _ _ h => h.2) h1 h2 (by rw [cam_demo_slot]; norm_num) (.inr h4) h5 z3
    (by rw [cam_demo_slot, cam_demo_tooth]; unfold camCrank; norm_num) (by unfold camCrank; push_cast; linarith)
  have a4' := a4
  obtain ⟨n2, E2, e2, b2, r1, r2, r3, r4⟩ := a4
  obtain ⟨m, m1, m2⟩ := C103_cam_injects_once (pin := 3) (j1 := 10) cam_run_setup cam_demo rfl (by norm_num) cam_turns cam_turning turnTol_sane
    (by norm_num [turnTol]) pulse_room (by rw [herr]; norm_num) hb hdec z2 z5 (by norm_num [abs_le]) hC hTi (fun _ _ h => h.2) h1 h2 (by rw [cam_demo_slot]; norm_num) (.inr h4) z3 z1 r1 r3 r4
  obtain ⟨n4, E4, e4, b4, y1, y2, y3, y4⟩ := id a3
  obtain ⟨m4, -, y5⟩ := C103_cam_injector (pin := 3) (j1 := 10) cam_run_setup cam_demo rfl (by norm_num) cam_turns cam_turning turnTol_sane
    (by norm_num [turnTol]) pulse_room (by rw [herr]; norm_num) hb hdec z2 z5 (by norm_num [abs_le]) hC hTi (fun _ _ h => h.2) h1 h2 (by rw [cam_demo_slot]; norm_num) (.inr h4) z3 z1 y1 y3 y4
  rw [z4] at a3 a4' m2 y5
  rw [eA] at a1 m1 m2 y5
  refine ⟨n1, E1, e1, n, E, e, s, t, h1, h5, a1, w1, w2, a3, a4', n2, E2, e2, m, r1, m1, m2, n4, E4, e4, m4, y1, fun n3 E3 e3 y6 y7 => ?_⟩
  obtain ⟨t4, x6, x7, -, -, x8⟩ := (y5 n3 E3 e3 y6).2 (by omega)
  exact ⟨t4, x6, x7, x8⟩

/-- C103 applied to the run of `EvenEngineDemo`: in cycle 2 the output has fired within 4.622 degrees of 257, and fires at no other tick of the cycle of that tick.
From the moment at which the beginning was given to the hardware (`e4`) 3000 microseconds are enough for the output to fire. -/
example : ∃ n1 E1 e1 n E e s t, EngTimed Honest (FedBy evenEv EvenFire) (camEngine evenDecoder (sparkEvents 288)) n1 E1 e1 ∧
    EngOn Honest (FedBy evenEv EvenFire) n1 E1 e1 n E e ∧ AtAngle evenCrank 257 (turnTol.error + 1) 2 t ∧ s < t ∧
    DrivenOn Honest (FedBy evenEv EvenFire) n1 E1 e1 n E e 3 true s ∧ DrivenOn Honest (FedBy evenEv EvenFire) n1 E1 e1 n E e 3 false t ∧
    ∃ n2 E2 e2 m, EngOn Honest (FedBy evenEv EvenFire) n1 E1 e1 n2 E2 e2 ∧ AtAngle evenCrank 257 (turnTol.error + 1) m t ∧
      (∀ n3 E3 e3 b3 t3, EngOn Honest (FedBy evenEv EvenFire) n2 E2 e2 n3 E3 e3 → InBuffer E3 e3 b3 t3 →
        Drives (e3.buf b3) (stamp t3) 3 false → AtAngle evenCrank 257 (turnTol.error + 1) m t3 → t3 = t) ∧
    ∃ n4 E4 e4 m4, EngOn Honest (FedBy evenEv EvenFire) n1 E1 e1 n4 E4 e4 ∧ ∀ n3 E3 e3, EngOn Honest (FedBy evenEv EvenFire) n4 E4 e4 n3 E3 e3 → 12000 ≤ n3 - s →
      ∃ t4, AtAngle evenCrank 257 (turnTol.error + 1) m4 t4 ∧ s < t4 ∧ DrivenOn Honest (FedBy evenEv EvenFire) n4 E4 e4 n3 E3 e3 3 false t4 := by
  have ho : onlyZero .ignition 288 (camEngine evenDecoder (sparkEvents 288)) = true := by decide +kernel
  obtain ⟨n1, E1, e1, n, E, e, h1, h2, h4, h5, h6⟩ := even_fire_run
  obtain ⟨z1, z2, z3, z4, z5⟩ := sparkEvents_zero ho
  have hb := camEngine_boot evenDecoder (sparkEvents_unarmed 288)
  have hdec : (camEngine evenDecoder (sparkEvents 288)).cfg.decoder = decoderInit evenDecoder := rfl
  have hroom := even_room
  have hC := cam_commands evenDecoder (sparkEvents 288)
  have hst := cam_steady evenDecoder (sparkEvents 288)
  have hTi : NoTipin (camEngine evenDecoder (sparkEvents 288)).tipin := rfl
  generalize camEngine evenDecoder (sparkEvents 288) = e0 at *
  have herr : turnTol.error = 1811 / 500 := by norm_num [turnTol, CrankTol.error]
  have eA : (288 : ℚ) - 31 + 0 = 257 := by norm_num
  have q2 : (330000 : ℚ) ≤ n := by exact_mod_cast evenEv_24 ▸ h6
  obtain ⟨s, t, a1, a2, -, -, a3, a4⟩ := C103_even_sparks (m := 2) (pin := 3) (j1 := 5) (V := 31) (δ := 1) even_demo rfl (by norm_num) even_turns even_turning turnTol_sane
    (by norm_num [turnTol]) hroom (by norm_num) (by norm_num) (by norm_num) hb hdec z2 z5 (by norm_num [abs_le]) hC hst hTi (fun _ _ h => h.2) h1 h2 (by rw [even_demo_slot]; norm_num) (.inr h4) h5 z3
    (by rw [even_demo_slot, even_demo_tooth]; unfold evenCrank; norm_num) (by rw [herr]; unfold evenCrank; push_cast; linarith)
  have a4' := a4
  obtain ⟨n2, E2, e2, b2, r1, r2, r3, r4⟩ := a4
  obtain ⟨m, m1, m2⟩ := C103_even_sparks_once (pin := 3) (j1 := 5) (V := 31) (δ := 1) even_demo rfl (by norm_num) even_turns even_turning turnTol_sane
    (by norm_num [turnTol]) hroom (by norm_num) (by norm_num) (by norm_num) hb hdec z2 z5 (by norm_num [abs_le]) hC hst hTi (fun _ _ h => h.2) h1 h2 (by rw [even_demo_slot]; norm_num) (.inr h4) z3 z1 r1 r3 r4
  obtain ⟨n4, E4, e4, b4, y1, y2, y3, y4⟩ := id a3
  obtain ⟨m4, -, y5⟩ := C103_even_coil (pin := 3) (j1 := 5) (V := 31) (δ := 1) even_demo rfl (by norm_num) even_turns even_turning turnTol_sane
    (by norm_num [turnTol]) hroom (by norm_num) (by norm_num) (by norm_num) hb hdec z2 z5 (by norm_num [abs_le]) hC hst hTi (fun _ _ h => h.2) h1 h2 (by rw [even_demo_slot]; norm_num) (.inr h4) z3 z1 y1 y3 y4
  rw [z4] at a3 a4' m2 y5
  rw [eA] at a1 m1 m2 y5
  refine ⟨n1, E1, e1, n, E, e, s, t, h1, h5, a1, a2, a3, a4', n2, E2, e2, m, r1, m1, m2, n4, E4, e4, m4, y1, fun n3 E3 e3 y6 y7 => ?_⟩
  obtain ⟨t4, x6, x7, -, -, x8⟩ := (y5 n3 E3 e3 y6).2 (by
    have y9 : ((12000 : ℤ) : ℚ) ≤ ((n3 - s : ℤ) : ℚ) := by exact_mod_cast y7
    push_cast at y9
    rw [herr]
    push_cast
    linarith)
  exact ⟨t4, x6, x7, x8⟩

/-- C103 applied to the run of `EvenFuelDemo`: in cycle 2 the injector has closed within 4.822 degrees of 250, after a pulse of 3250 to 3300 microseconds, and closes at no other tick
of the cycle of that tick.  From the moment at which the beginning was given to the hardware (`e4`) 5000 microseconds are enough for the output to close. -/
example : ∃ n1 E1 e1 n E e s t, EngTimed Honest (FedBy evenEv EvenPulse) (camEngine evenDecoder (fuelEvents 250)) n1 E1 e1 ∧
    EngOn Honest (FedBy evenEv EvenPulse) n1 E1 e1 n E e ∧ AtAngle evenCrank 250 (2411 / 500) 2 t ∧ 13000 ≤ t - s ∧ t - s ≤ 13200 ∧
    DrivenOn Honest (FedBy evenEv EvenPulse) n1 E1 e1 n E e 3 true s ∧ DrivenOn Honest (FedBy evenEv EvenPulse) n1 E1 e1 n E e 3 false t ∧
    ∃ n2 E2 e2 m, EngOn Honest (FedBy evenEv EvenPulse) n1 E1 e1 n2 E2 e2 ∧ AtAngle evenCrank 250 (2411 / 500) m t ∧
      (∀ n3 E3 e3 b3 t3, EngOn Honest (FedBy evenEv EvenPulse) n2 E2 e2 n3 E3 e3 → InBuffer E3 e3 b3 t3 →
        Drives (e3.buf b3) (stamp t3) 3 false → AtAngle evenCrank 250 (2411 / 500) m t3 → t3 = t) ∧
    ∃ n4 E4 e4 m4, EngOn Honest (FedBy evenEv EvenPulse) n1 E1 e1 n4 E4 e4 ∧ ∀ n3 E3 e3, EngOn Honest (FedBy evenEv EvenPulse) n4 E4 e4 n3 E3 e3 → 20000 ≤ n3 - s →
      ∃ t4, AtAngle evenCrank 250 (2411 / 500) m4 t4 ∧ s < t4 ∧ DrivenOn Honest (FedBy evenEv EvenPulse) n4 E4 e4 n3 E3 e3 3 false t4 := by
  have ho : onlyZero .fuel 250 (camEngine evenDecoder (fuelEvents 250)) = true := by decide +kernel
  obtain ⟨n1, E1, e1, n, E, e, h1, h2, h4, h5, h6⟩ := even_squirt_run
  obtain ⟨z1, z2, z3, z4, z5⟩ := sparkEvents_zero ho
  have hb := camEngine_boot evenDecoder (fuelEvents_unarmed 250)
  have hdec : (camEngine evenDecoder (fuelEvents 250)).cfg.decoder = decoderInit evenDecoder := rfl
  have hC := cam_commands evenDecoder (fuelEvents 250)
  have hTi : NoTipin (camEngine evenDecoder (fuelEvents 250)).tipin := rfl
  generalize camEngine evenDecoder (fuelEvents 250) = e0 at *
  have herr : turnTol.error = 1811 / 500 := by norm_num [turnTol, CrankTol.error]
  have eA : (250 : ℚ) + 0 = 250 := by norm_num
  have q2 : (330000 : ℚ) ≤ n := by exact_mod_cast evenEv_24 ▸ h6
  obtain ⟨s, t, a1, -, w1, w2, a3, a4⟩ := C103_even_injects (m := 2) (pin := 3) (j1 := 5) even_demo rfl (by norm_num) even_turns even_turning turnTol_sane
    (by norm_num [turnTol]) pulse_room (by rw [herr]; norm_num) hb hdec z2 z5 (by norm_num [abs_le]) hC hTi (fun _ _ h => h.2) h1 h2 (by rw [even_demo_slot]; norm_num) (.inr h4) h5 z3
    (by rw [even_demo_slot, even_demo_tooth]; unfold evenCrank; norm_num) (by unfold evenCrank; push_cast; linarith)
  have a4' := a4
  obtain ⟨n2, E2, e2, b2, r1, r2, r3, r4⟩ := a4
  obtain ⟨m, m1, m2⟩ := C103_even_injects_once (pin := 3) (j1 := 5) even_demo rfl (by norm_num) even_turns even_turning turnTol_sane
    (by norm_num [turnTol]) pulse_room (by rw [herr]; norm_num) hb hdec z2 z5 (by norm_num [abs_le]) hC hTi (fun _ _ h => h.2) h1 h2 (by rw [even_demo_slot]; norm_num) (.inr h4) z3 z1 r1 r3 r4
  obtain ⟨n4, E4, e4, b4, y1, y2, y3, y4⟩ := id a3
  obtain ⟨m4, -, y5⟩ := C103_even_injector (pin := 3) (j1 := 5) even_demo rfl (by norm_num) even_turns even_turning turnTol_sane
    (by norm_num [turnTol]) pulse_room (by rw [herr]; norm_num) hb hdec z2 z5 (by norm_num [abs_le]) hC hTi (fun _ _ h => h.2) h1 h2 (by rw [even_demo_slot]; norm_num) (.inr h4) z3 z1 y1 y3 y4
  rw [z4] at a3 a4' m2 y5
  rw [eA] at a1 m1 m2 y5
  refine ⟨n1, E1, e1, n, E, e, s, t, h1, h5, a1, w1, w2, a3, a4', n2, E2, e2, m, r1, m1, m2, n4, E4, e4, m4, y1, fun n3 E3 e3 y6 y7 => ?_⟩
  obtain ⟨t4, x6, x7, -, -, x8⟩ := (y5 n3 E3 e3 y6).2 (by omega)
  exact ⟨t4, x6, x7, x8⟩

/-- C103 applied to the run of `FreeEngineDemo`: in cycle 2 the output has fired within 4.622 degrees of 257, and fires at no other tick of the cycle of that tick.
From the moment at which the beginning was given to the hardware (`e4`) 3000 microseconds are enough for the output to fire. -/
example : ∃ n1 E1 e1 n E e s t, EngTimed Honest (FedBy freeEv FreeFire) (camEngine freeDecoder (sparkEvents 288)) n1 E1 e1 ∧
    EngOn Honest (FedBy freeEv FreeFire) n1 E1 e1 n E e ∧ AtAngle evenCrank 257 (turnTol.error + 1) 2 t ∧ s < t ∧
    DrivenOn Honest (FedBy freeEv FreeFire) n1 E1 e1 n E e 3 true s ∧ DrivenOn Honest (FedBy freeEv FreeFire) n1 E1 e1 n E e 3 false t ∧
    ∃ n2 E2 e2 m, EngOn Honest (FedBy freeEv FreeFire) n1 E1 e1 n2 E2 e2 ∧ AtAngle evenCrank 257 (turnTol.error + 1) m t ∧
      (∀ n3 E3 e3 b3 t3, EngOn Honest (FedBy freeEv FreeFire) n2 E2 e2 n3 E3 e3 → InBuffer E3 e3 b3 t3 →
        Drives (e3.buf b3) (stamp t3) 3 false → AtAngle evenCrank 257 (turnTol.error + 1) m t3 → t3 = t) ∧
    ∃ n4 E4 e4 m4, EngOn Honest (FedBy freeEv FreeFire) n1 E1 e1 n4 E4 e4 ∧ ∀ n3 E3 e3, EngOn Honest (FedBy freeEv FreeFire) n4 E4 e4 n3 E3 e3 → 12000 ≤ n3 - s →
      ∃ t4, AtAngle evenCrank 257 (turnTol.error + 1) m4 t4 ∧ s < t4 ∧ DrivenOn Honest (FedBy freeEv FreeFire) n4 E4 e4 n3 E3 e3 3 false t4 := by
  have ho : onlyZero .ignition 288 (camEngine freeDecoder (sparkEvents 288)) = true := by decide +kernel
  obtain ⟨n1, E1, e1, n, E, e, h1, h2, h4, h5, h6⟩ := free_fire_run
  obtain ⟨z1, z2, z3, z4, z5⟩ := sparkEvents_zero ho
  have hb := camEngine_boot freeDecoder (sparkEvents_unarmed 288)
  have hdec : (camEngine freeDecoder (sparkEvents 288)).cfg.decoder = decoderInit freeDecoder := rfl
  have hroom := free_room
  have hC := cam_commands freeDecoder (sparkEvents 288)
  have hTi : NoTipin (camEngine freeDecoder (sparkEvents 288)).tipin := rfl
  generalize camEngine freeDecoder (sparkEvents 288) = e0 at *
  have herr : turnTol.error = 1811 / 500 := by norm_num [turnTol, CrankTol.error]
  have eA : (288 : ℚ) - 31 + 0 = 257 := by norm_num
  have q2 : (345000 : ℚ) ≤ n := by exact_mod_cast freeEv_22 ▸ h6
  obtain ⟨s, t, a1, a2, -, -, a3, a4⟩ := C103_free_sparks (m := 2) (pin := 3) (k1 := 4) (V := 31) (δ := 1) free_demo rfl (by norm_num) even_turns even_turning turnTol_sane
    (by norm_num [turnTol]) hroom (by norm_num) (by norm_num) (by norm_num) hb hdec z2 z5 (by norm_num [abs_le]) hC hTi (fun _ _ h => h.2) h1 h2 (by norm_num) (.inr h4) h5 z3
    (by rw [even_demo_tooth]; unfold evenCrank; norm_num) (by rw [herr]; unfold evenCrank; push_cast; linarith)
  have a4' := a4
  obtain ⟨n2, E2, e2, b2, r1, r2, r3, r4⟩ := a4
  obtain ⟨m, m1, m2⟩ := C103_free_sparks_once (pin := 3) (k1 := 4) (V := 31) (δ := 1) free_demo rfl (by norm_num) even_turns even_turning turnTol_sane
    (by norm_num [turnTol]) hroom (by norm_num) (by norm_num) (by norm_num) hb hdec z2 z5 (by norm_num [abs_le]) hC hTi (fun _ _ h => h.2) h1 h2 (by norm_num) (.inr h4) z3 z1 r1 r3 r4
  obtain ⟨n4, E4, e4, b4, y1, y2, y3, y4⟩ := id a3
  obtain ⟨m4, -, y5⟩ := C103_free_coil (pin := 3) (k1 := 4) (V := 31) (δ := 1) free_demo rfl (by norm_num) even_turns even_turning turnTol_sane
    (by norm_num [turnTol]) hroom (by norm_num) (by norm_num) (by norm_num) hb hdec z2 z5 (by norm_num [abs_le]) hC hTi (fun _ _ h => h.2) h1 h2 (by norm_num) (.inr h4) z3 z1 y1 y3 y4
  rw [z4] at a3 a4' m2 y5
  rw [eA] at a1 m1 m2 y5
  refine ⟨n1, E1, e1, n, E, e, s, t, h1, h5, a1, a2, a3, a4', n2, E2, e2, m, r1, m1, m2, n4, E4, e4, m4, y1, fun n3 E3 e3 y6 y7 => ?_⟩
  obtain ⟨t4, x6, x7, -, -, x8⟩ := (y5 n3 E3 e3 y6).2 (by
    have y9 : ((12000 : ℤ) : ℚ) ≤ ((n3 - s : ℤ) : ℚ) := by exact_mod_cast y7
    push_cast at y9
    rw [herr]
    push_cast
    linarith)
  exact ⟨t4, x6, x7, x8⟩

/-- C103 applied to the run of `FreeFuelDemo`: in cycle 2 the injector has closed within 4.822 degrees of 250, after a pulse of 3250 to 3300 microseconds, and closes at no other tick
of the cycle of that tick.  From the moment at which the beginning was given to the hardware (`e4`) 5000 microseconds are enough for the output to close. -/
example : ∃ n1 E1 e1 n E e s t, EngTimed Honest (FedBy freeEv FreePulse) (camEngine freeDecoder (fuelEvents 250)) n1 E1 e1 ∧
    EngOn Honest (FedBy freeEv FreePulse) n1 E1 e1 n E e ∧ AtAngle evenCrank 250 (2411 / 500) 2 t ∧ 13000 ≤ t - s ∧ t - s ≤ 13200 ∧
    DrivenOn Honest (FedBy freeEv FreePulse) n1 E1 e1 n E e 3 true s ∧ DrivenOn Honest (FedBy freeEv FreePulse) n1 E1 e1 n E e 3 false t ∧
    ∃ n2 E2 e2 m, EngOn Honest (FedBy freeEv FreePulse) n1 E1 e1 n2 E2 e2 ∧ AtAngle evenCrank 250 (2411 / 500) m t ∧
      (∀ n3 E3 e3 b3 t3, EngOn Honest (FedBy freeEv FreePulse) n2 E2 e2 n3 E3 e3 → InBuffer E3 e3 b3 t3 →
        Drives (e3.buf b3) (stamp t3) 3 false → AtAngle evenCrank 250 (2411 / 500) m t3 → t3 = t) ∧
    ∃ n4 E4 e4 m4, EngOn Honest (FedBy freeEv FreePulse) n1 E1 e1 n4 E4 e4 ∧ ∀ n3 E3 e3, EngOn Honest (FedBy freeEv FreePulse) n4 E4 e4 n3 E3 e3 → 20000 ≤ n3 - s →
      ∃ t4, AtAngle evenCrank 250 (2411 / 500) m4 t4 ∧ s < t4 ∧ DrivenOn Honest (FedBy freeEv FreePulse) n4 E4 e4 n3 E3 e3 3 false t4 := by
  have ho : onlyZero .fuel 250 (camEngine freeDecoder (fuelEvents 250)) = true := by decide +kernel
  obtain ⟨n1, E1, e1, n, E, e, h1, h2, h4, h5, h6⟩ := free_squirt_run
  obtain ⟨z1, z2, z3, z4, z5⟩ := sparkEvents_zero ho
  have hb := camEngine_boot freeDecoder (fuelEvents_unarmed 250)
  have hdec : (camEngine freeDecoder (fuelEvents 250)).cfg.decoder = decoderInit freeDecoder := rfl
  have hC := cam_commands freeDecoder (fuelEvents 250)
  have hTi : NoTipin (camEngine freeDecoder (fuelEvents 250)).tipin := rfl
  generalize camEngine freeDecoder (fuelEvents 250) = e0 at *
  have herr : turnTol.error = 1811 / 500 := by norm_num [turnTol, CrankTol.error]
  have eA : (250 : ℚ) + 0 = 250 := by norm_num
  have q2 : (345000 : ℚ) ≤ n := by exact_mod_cast freeEv_22 ▸ h6
  obtain ⟨s, t, a1, -, w1, w2, a3, a4⟩ := C103_free_injects (m := 2) (pin := 3) (k1 := 4) free_demo rfl (by norm_num) even_turns even_turning turnTol_sane
    (by norm_num [turnTol]) pulse_room (by rw [herr]; norm_num) hb hdec z2 z5 (by norm_num [abs_le]) hC hTi (fun _ _ h => h.2) h1 h2 (by norm_num) (.inr h4) h5 z3
    (by rw [even_demo_tooth]; unfold evenCrank; norm_num) (by unfold evenCrank; push_cast; linarith)
  have a4' := a4
  obtain ⟨n2, E2, e2, b2, r1, r2, r3, r4⟩ := a4
  obtain ⟨m, m1, m2⟩ := C103_free_injects_once (pin := 3) (k1 := 4) free_demo rfl (by norm_num) even_turns even_turning turnTol_sane
    (by norm_num [turnTol]) pulse_room (by rw [herr]; norm_num) hb hdec z2 z5 (by norm_num [abs_le]) hC hTi (fun _ _ h => h.2) h1 h2 (by norm_num) (.inr h4) z3 z1 r1 r3 r4
  obtain ⟨n4, E4, e4, b4, y1, y2, y3, y4⟩ := id a3
  obtain ⟨m4, -, y5⟩ := C103_free_injector (pin := 3) (k1 := 4) free_demo rfl (by norm_num) even_turns even_turning turnTol_sane
    (by norm_num [turnTol]) pulse_room (by rw [herr]; norm_num) hb hdec z2 z5 (by norm_num [abs_le]) hC hTi (fun _ _ h => h.2) h1 h2 (by norm_num) (.inr h4) z3 z1 y1 y3 y4
  rw [z4] at a3 a4' m2 y5
  rw [eA] at a1 m1 m2 y5
  refine ⟨n1, E1, e1, n, E, e, s, t, h1, h5, a1, w1, w2, a3, a4', n2, E2, e2, m, r1, m1, m2, n4, E4, e4, m4, y1, fun n3 E3 e3 y6 y7 => ?_⟩
  obtain ⟨t4, x6, x7, -, -, x8⟩ := (y5 n3 E3 e3 y6).2 (by omega)
  exact ⟨t4, x6, x7, x8⟩

end Verif
