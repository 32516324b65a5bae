/-
A run that meets the hypotheses of C66, C76, C79, C86 and C92 on a wheel with a cam: 25 triggers, more than three cycles.
-/
import Verif.Proofs.CamDemoRun
import Verif.Props.CamEngine
import Verif.Props.InjectionFull
import Verif.Props.PulsesDemo

namespace Verif

attribute [local instance] binary32

/-- The cam pulses come half a pitch after the teeth. -/
def lateCam (n : ℕ) : ℤ := lateTooth n + 7500

/-- The triggers of the run: the second tooth of every other revolution is followed by a cam pulse. -/
def camEv : ℕ → Int × ℤ := camEvent (pulseAfter 4 0 1) lateTooth lateCam

theorem late_gap' (n : ℕ) : lateTooth n + 15000 ≤ lateTooth (n + 1) ∧ lateTooth (n + 1) ≤ lateTooth n + 30000 := by
  have := late_step n
  omega

theorem camEv_gap (j : ℕ) : (camEv j).2 + 7500 ≤ (camEv (j + 1)).2 ∧ (camEv (j + 1)).2 ≤ (camEv j).2 + 30000 := by
  unfold camEv camEvent
  rw [show camSlot (pulseAfter 4 0 1) (j + 1) = camNext (pulseAfter 4 0 1) (camSlot (pulseAfter 4 0 1) j) from rfl]
  generalize camSlot (pulseAfter 4 0 1) j = x
  have := late_gap' x.tooth
  unfold camNext
  by_cases h : x.cam = false ∧ pulseAfter 4 0 1 x.tooth
  · rw [if_pos h, h.1]
    simp only [Bool.false_eq_true, if_true, if_false]
    unfold lateCam
    omega
  · rw [if_neg h]
    have hl : lateCam x.tooth = lateTooth x.tooth + 7500 := rfl
    cases hx : x.cam <;> simp only [Bool.false_eq_true, if_true, if_false] <;> omega

theorem camEv_pace : EvPace camEv := by
  refine ⟨camEv_gap, ?_⟩
  have h0 : (camEv 0).2 = 15000 := by decide
  rw [h0]
  norm_num

theorem camEv_25 : (camEv 25).2 = 435000 := by decide +kernel

/-- The wheel of the run, at 4000 revolutions per minute. -/
theorem cam_run_setup : RunSetup (demoDecoder .missingCamsync) 4 0 2 (3/8) 90 15000 15300 lateTooth := by
  have h := late_run_setup
  refine ⟨{ h.turn with wheel := ⟨demo_cam_setup.cfg, h.turn.wheel.turn, h.turn.wheel.grid, h.turn.wheel.teeth, ?_⟩ }, h.2⟩
  exact h.turn.wheel.boot

theorem cam_demo : CamWheel (demoDecoder .missingCamsync) 4 0 2 1 6 lateTooth lateCam := by
  refine ⟨rfl, rfl, by norm_num, fun n => ?_, by norm_num, by unfold afterGap; decide, by decide⟩
  have := late_gap' n
  unfold lateCam
  omega

/-- The crank, at 0 when tooth 6 passes. -/
def camCrank (t : ℤ) : ℚ := 90 * (t - 135000) / 15000

theorem cam_turning : Turning camCrank 90 15000 15300 := by
  intro t t' h
  have h1 : (t : ℚ) ≤ t' := by exact_mod_cast h
  unfold camCrank
  push_cast
  constructor <;> nlinarith

theorem cam_turns : CrankTurns camCrank turnTol (wheelPos 4 0) 6 90 lateTooth := by
  have hstep : ∀ j, 6 < j → ((lateTooth j : ℚ) - lateTooth (j - 1) = 15000 * ((wheelPos 4 0 j : ℚ) - wheelPos 4 0 (j - 1))) ∧
      0 ≤ (wheelPos 4 0 j : ℚ) - wheelPos 4 0 (j - 1) := by
    intro j hj
    obtain ⟨m, rfl⟩ : ∃ m, j = m + 1 := ⟨j - 1, by omega⟩
    obtain ⟨h1, h2, -⟩ := late_step m
    rw [Nat.add_sub_cancel]
    refine ⟨?_, ?_⟩
    · rw [h1]; push_cast; ring
    · have h3 : wheelPos 4 0 m ≤ wheelPos 4 0 (m + 1) := by omega
      have : (wheelPos 4 0 m : ℚ) ≤ wheelPos 4 0 (m + 1) := by exact_mod_cast h3
      linarith
  have hw : wheelPos 4 0 6 = 8 := by decide
  refine ⟨fun j hj => ?_, fun j hj => ⟨3 / 500, by norm_num, le_refl _, fun t _ _ => ?_, ?_⟩, fun j hj => ?_, fun j hj => ?_⟩
  · have : camCrank (lateTooth j) - 90 * ((wheelPos 4 0 j : ℚ) - wheelPos 4 0 6) = 0 := by
      unfold camCrank lateTooth
      rw [hw]
      push_cast
      ring
    rw [this]
    norm_num [turnTol]
  · have : camCrank t - camCrank (lateTooth j) - 3 / 500 * (t - lateTooth j) = 0 := by
      unfold camCrank
      ring
    rw [this]
    norm_num [turnTol]
  · obtain ⟨h1, h2⟩ := hstep j hj
    rw [h1]
    have : 3 / 500 * (15000 * ((wheelPos 4 0 j : ℚ) - wheelPos 4 0 (j - 1))) - 90 * ((wheelPos 4 0 j : ℚ) - wheelPos 4 0 (j - 1)) = 0 := by
      ring
    rw [this, abs_zero]
    have h3 : turnTol.speed = 1 / 200 := rfl
    rw [h3]
    positivity
  · obtain ⟨h1, h2⟩ := hstep j hj
    have h3 : turnTol.speed = 1 / 200 := rfl
    rw [h1, h3]
    linarith
  · obtain ⟨h1, h2⟩ := hstep j hj
    rw [h1]
    linarith

/-- The advance is from 0 to 60 degrees; from the eleventh trigger on it is 31 degrees, the dwell is 2574 microseconds and nothing is
cut. -/
def camFireSeen (e : Engine) : Bool :=
  advSeen e && (decide (teethDecoded e < 11) || (decide (e.vals.timingAdvance = .fin 31) && decide (e.vals.dwellUs = 2574) &&
    match ignitionCut e.cfg e.vals with
    | .ok r => !r.1
    | .error _ => true))

/-- What is kept along the run. -/
def CamFire (n : ℤ) (e : Engine) : Prop := FiringOn camEv 11 300 (fun _ => 31) 10296 10296 n e ∧ OnEvents camEv AdvRange n e

theorem camFire_watch : EvWatch camEv (demoDecoder .missingCamsync) camFireSeen CamFire := by
  refine ⟨fun _ _ _ => rfl, fun _ _ _ => rfl, fun _ => rfl, fun {n k e} h h1 h2 h3 => ?_, fun h => h.2.1⟩
  unfold evGiven at h
  rw [Bool.and_eq_true, decide_eq_true_eq] at h
  obtain ⟨h, hx⟩ := h
  have hlen : e.given.length = k := by rw [h]; simp
  unfold camFireSeen at hx
  rw [Bool.and_eq_true] at hx
  refine ⟨⟨⟨k, h, h1, h2⟩, fun k' hk' h5 => ⟨ev_handled camEv_pace hlen h2 h3, ?_⟩⟩, ⟨k, h, h1, h2⟩, advOk_range hx.1⟩
  obtain ⟨-, hx⟩ := hx
  rw [decoded_teeth hk', decide_eq_false (by omega : ¬ k' + 1 < 11), Bool.false_or, Bool.and_eq_true, Bool.and_eq_true, decide_eq_true_eq,
    decide_eq_true_eq] at hx
  obtain ⟨⟨x1, x2⟩, x3⟩ := hx
  refine ⟨x1, by rw [x2]; decide, by rw [x2]; decide, fun r hr => ?_⟩
  rw [hr] at x3
  simpa using x3

theorem cam_room : CycleRoom (turnTol.error + 1) 90 15000 15300 10296 10296 300 (camEngine (demoDecoder .missingCamsync) (sparkEvents 288)).cfg.ignition.minFireUs := by
  have h1 : (camEngine (demoDecoder .missingCamsync) (sparkEvents 288)).cfg.ignition.minFireUs = 500 := by
    unfold camEngine
    generalize wheelStart (sparkEvents 288) = s
    rfl
  rw [h1]
  have h2 : turnTol.error + 1 = 2311 / 500 := by norm_num [turnTol, CrankTol.error]
  rw [h2]
  refine ⟨by norm_num, by norm_num, by norm_num, by norm_num, by norm_num, by norm_num, ?_⟩
  have : (500 : BitVec 32).toNat = 500 := rfl
  rw [this]
  norm_num

theorem on_mono_reach {A : ℤ → EngAct → Prop} {G G' : ℤ → Engine → Prop} {e0 e : Engine} {n0 E0 n E : ℤ}
    (hG : ∀ n E e, EngOn A G n0 E0 e0 n E e → G n e → G' n e) (h : EngOn A G n0 E0 e0 n E e) : EngOn A G' n0 E0 e0 n E e := by
  induction h with
  | refl => exact .refl
  | step a h h1 h2 h3 h4 h5 h6 ih => exact .step a ih h1 h2 h3 h4 h5 (hG _ _ _ (.step a h h1 h2 h3 h4 h5 h6) h6)
  | swap h h1 h2 h3 h4 ih => exact .swap ih h1 h2 h3 (hG _ _ _ (.swap h h1 h2 h3 h4) h4)

theorem cam_demo_slot : (camSlot (pulseAfter 4 0 1) 10).tooth = 8 := by decide

theorem fired_dead {v : OEvent} (h : eventHasFired v = true) : ¬ Live v.stop.state := by
  unfold eventHasFired at h
  rw [Bool.and_eq_true, decide_eq_true_eq, decide_eq_true_eq] at h
  rw [h.2]
  rintro (h | h) <;> cases h

theorem cam_demo_tooth : lateTooth 8 = 165000 := by decide

theorem cam_fire_ok : camCycleOk camEv (demoDecoder .missingCamsync) 11 14 (withSensors camFireSeen) (sparkEvents 288) = true := by decide +kernel

theorem cam_fire_run : ∃ n1 E1 e1 n E e, EngTimed Honest (FedBy camEv CamFire) (camEngine (demoDecoder .missingCamsync) (sparkEvents 288)) n1 E1 e1 ∧ Decoded 11 e1 ∧
    eventHasFired (e1.cfg.events 0) = true ∧ EngOn Honest (FedBy camEv CamFire) n1 E1 e1 n E e ∧ (camEv (10 + 1 + 14)).2 ≤ n :=
  ev_run (i := 10) (j := 14) camEv_pace (camFire_watch.sensed camEv_pace) (sparkEvents_unarmed 288) cam_fire_ok

/-- C66, C86, C101 and C76 applied to the run: when the eleventh trigger is decoded the decoder is valid and reports 180 degrees; in cycle 2
the output has fired within 4.622 degrees of 257, after a charge of 2574 microseconds, within 308, and fires at no other tick of the
cycle of that tick, at which the crank is at 288 degrees less an advance from 0 to 60.  From the moment at
which the beginning was given to the hardware (`e4`) the output is fired again before the end of the run. -/
example : ∃ n1 E1 e1 n E e s t, EngTimed Honest CamFire (camEngine (demoDecoder .missingCamsync) (sparkEvents 288)) n1 E1 e1 ∧
    e1.cfg.decoder.valid = true ∧ e1.cfg.decoder.lastTriggerAngle = .fin 180 ∧
    EngOn Honest CamFire n1 E1 e1 n E e ∧ AtAngle camCrank 257 (turnTol.error + 1) 2 t ∧ s < t ∧
    (∃ adv, AdvRange adv ∧ Near (camCrank t) (288 - adv + 0) turnTol.error) ∧
    DrivenOn Honest (FiringOn camEv 11 300 (fun _ => 31) 10296 10296) n1 E1 e1 n E e 3 true s ∧
    DrivenOn Honest (FiringOn camEv 11 300 (fun _ => 31) 10296 10296) n1 E1 e1 n E e 3 false t ∧
    ∃ n2 E2 e2 m, EngOn Honest (FiringOn camEv 11 300 (fun _ => 31) 10296 10296) n1 E1 e1 n2 E2 e2 ∧ AtAngle camCrank 257 (turnTol.error + 1) m t ∧
      (∀ n3 E3 e3 b3 t3, EngOn Honest (FiringOn camEv 11 300 (fun _ => 31) 10296 10296) n2 E2 e2 n3 E3 e3 → InBuffer E3 e3 b3 t3 →
        Drives (e3.buf b3) (stamp t3) 3 false → AtAngle camCrank 257 (turnTol.error + 1) m t3 → t3 = t) ∧
    ∃ n4 E4 e4 m4 t4, EngOn Honest (FiringOn camEv 11 300 (fun _ => 31) 10296 10296) n1 E1 e1 n4 E4 e4 ∧ EngOn Honest (FiringOn camEv 11 300 (fun _ => 31) 10296 10296) n4 E4 e4 n E e ∧ AtAngle camCrank 257 (turnTol.error + 1) m4 t4 ∧ s < t4 ∧
      DrivenOn Honest (FiringOn camEv 11 300 (fun _ => 31) 10296 10296) n4 E4 e4 n E e 3 false t4 := by
  have ho : onlyZero .ignition 288 (camEngine (demoDecoder .missingCamsync) (sparkEvents 288)) = true := by decide +kernel
  obtain ⟨n1, E1, e1, n, E, e, h1, h2, h4, h5, h6⟩ := cam_fire_run
  replace h1 := timed_mono (G' := CamFire) (fun _ _ h => h.1) h1
  replace h5 := on_mono (G' := CamFire) (fun _ _ h => h.1) h5
  obtain ⟨z1, z2, z3, z4, z5⟩ := sparkEvents_zero ho
  have hb := camEngine_boot (demoDecoder .missingCamsync) (sparkEvents_unarmed 288)
  have hdec : (camEngine (demoDecoder .missingCamsync) (sparkEvents 288)).cfg.decoder = decoderInit (demoDecoder .missingCamsync) := rfl
  have hroom := cam_room
  have ha := onlyZero_angles ho (by norm_num [abs_le])
  generalize camEngine (demoDecoder .missingCamsync) (sparkEvents 288) = e0 at *
  have herr : turnTol.error = 1811 / 500 := by norm_num [turnTol, CrankTol.error]
  have e257 : (288 : ℚ) - 31 + 0 = 257 := by norm_num
  have q2 : (435000 : ℚ) ≤ n := by exact_mod_cast camEv_25 ▸ h6
  have hn : 6 + 1 < (camSlot (pulseAfter 4 0 1) 10).tooth := by rw [cam_demo_slot]; norm_num
  have g1 := timed_mono (G' := FiringOn camEv 11 300 (fun _ => 31) 10296 10296) (fun n e h => h.1) h1
  have g5 := on_mono (G' := FiringOn camEv 11 300 (fun _ => 31) 10296 10296) (fun n e h => h.1) h5
  obtain ⟨c1, -, c2⟩ := C66_engine_cam_partial cam_run_setup cam_demo (fun n e h => h.1) hb hdec g1 (j := 10) h2 hn
  obtain ⟨s, t, a1, a2, -, -, a3, a4⟩ := C86_cam_fires (pin := 3) (m := 2) (j1 := 10) (V := 31) (δ := 1) (adv := fun _ => 31) cam_run_setup cam_demo rfl (by norm_num) cam_turns cam_turning turnTol_sane
    (by norm_num [turnTol]) hroom (by norm_num) (fun _ => by norm_num) (by norm_num) hb hdec z2 z5 (by norm_num [abs_le]) (fun _ _ h => h) g1 h2 hn (.inr h4) g5 z3
    (by rw [cam_demo_slot, cam_demo_tooth]; unfold camCrank; norm_num) (by rw [herr]; unfold camCrank; push_cast; linarith)
  have a4' := a4
  obtain ⟨n2, E2, e2, b2, r1, r2, r3, r4⟩ := a4
  have fol := cam_follows cam_run_setup cam_demo.type cam_demo.unseen cam_demo.place cam_demo.between cam_demo.start rfl cam_turns turnTol_sane
    (by norm_num [turnTol]) (fun n e h => h.1) hb hdec g1 h2 hn
  have r1' := on_mono_reach (G' := OnEvents camEv AdvRange) (fun n E e h hg => by
    obtain ⟨-, k, hk, hat⟩ := fol n E e h
    exact ⟨hg.1, 31, (hg.2 _ hat.count (by omega)).2.1, by norm_num [AdvRange]⟩) r1
  have c3 := C76_cam_wheel_partial (pin := 3) (j1 := 10) cam_run_setup cam_demo rfl cam_turns turnTol_sane (by norm_num [turnTol]) hb hdec ha
    (timed_mono (fun n e h => h.2) h1) h2 hn r1' z2 z5 (fired_dead h4) z1 r3 r4
  obtain ⟨m, m1, m2⟩ := C86_cam_once (pin := 3) (j1 := 10) (V := 31) (δ := 1) (adv := fun _ => 31) cam_run_setup cam_demo rfl (by norm_num) cam_turns cam_turning turnTol_sane
    (by norm_num [turnTol]) hroom (by norm_num) (fun _ => by norm_num) (by norm_num) hb hdec z2 z5 (by norm_num [abs_le]) (fun _ _ h => h) g1 h2 hn (.inr h4) z3 z1 r1 r3 r4
  obtain ⟨n4, E4, e4, b4, y1, y2, y3, y4⟩ := id a3
  obtain ⟨m4, -, y5⟩ := C101_coil_cam (pin := 3) (j1 := 10) (V := 31) (δ := 1) (adv := fun _ => 31) cam_run_setup cam_demo rfl (by norm_num) cam_turns cam_turning turnTol_sane
    (by norm_num [turnTol]) hroom (by norm_num) (fun _ => by norm_num) (by norm_num) hb hdec z2 z5 (by norm_num [abs_le]) (fun _ _ h => h) g1 h2 hn (.inr h4) z3 z1 y1 y3 y4
  obtain ⟨t4, y6, y7, -, -, y8⟩ := (y5 n E e y2).2 (by
    have hs : (s : ℚ) < t := by exact_mod_cast a2
    have y9 := (abs_le.mp a1).2
    unfold camCrank at y9
    rw [herr] at y9 ⊢
    push_cast at y9 ⊢
    linarith)
  rw [z4] at a3 a4' m2 y8
  rw [e257] at a1 m1 m2 y6
  refine ⟨n1, E1, e1, n, E, e, s, t, h1, c1, ?_, h5, a1, a2, c3, a3, a4', n2, E2, e2, m, r1, m1, m2, n4, E4, e4, m4, t4, y1, y2, y6, y7, y8⟩
  rw [c2, cam_demo_slot]
  have : wheelPos 4 0 8 % (2 * 4) = 2 := by decide
  rw [this]
  norm_num

/-- From the eleventh trigger on the fuel pulse is 3285 microseconds and nothing is cut; it has that length whenever the decoder is
valid. -/
def camSquirtSeen (e : Engine) : Bool :=
  fuelSeen e && (decide (teethDecoded e < 11) || (decide (e.vals.fuelingUs = 3285) &&
    match ignitionCut e.cfg e.vals with
    | .ok r => !r.1
    | .error _ => true))

/-- What is kept along the run. -/
def CamPulse (n : ℤ) (e : Engine) : Prop := InjectingOn camEv 11 300 13140 13140 n e ∧ FuelOnEvents camEv 3285 n e

theorem camPulse_watch : EvWatch camEv (demoDecoder .missingCamsync) camSquirtSeen CamPulse := by
  refine ⟨fun _ _ _ => rfl, fun _ _ _ => rfl, fun _ => rfl, fun {n k e} h h1 h2 h3 => ?_, fun h => h.2.1⟩
  unfold evGiven at h
  rw [Bool.and_eq_true, decide_eq_true_eq] at h
  obtain ⟨h, hx⟩ := h
  have hlen : e.given.length = k := by rw [h]; simp
  unfold camSquirtSeen at hx
  rw [Bool.and_eq_true] at hx
  refine ⟨⟨⟨k, h, h1, h2⟩, fun k' hk' h5 => ⟨ev_handled camEv_pace hlen h2 h3, ?_⟩⟩, ⟨k, h, h1, h2⟩, fuelSeen_eq hx.1⟩
  obtain ⟨-, hx⟩ := hx
  rw [decoded_teeth hk', decide_eq_false (by omega : ¬ k' < 11), Bool.false_or, Bool.and_eq_true, decide_eq_true_eq] at hx
  obtain ⟨x2, x3⟩ := hx
  refine ⟨by rw [x2]; decide, by rw [x2]; decide, fun r hr => ?_⟩
  rw [hr] at x3
  simpa using x3

theorem cam_pulse_room : CycleRoom (2411 / 500) 90 15000 15300 13140 13140 300 0 := by
  refine ⟨by norm_num, by norm_num, by norm_num, by norm_num, by norm_num, by norm_num, ?_⟩
  have : (0 : BitVec 32).toNat = 0 := rfl
  rw [this]
  norm_num

theorem cam_squirt_ok : camCycleOk camEv (demoDecoder .missingCamsync) 11 14 (withSensors camSquirtSeen) (fuelEvents 250) = true := by decide +kernel

theorem cam_squirt_run : ∃ n1 E1 e1 n E e, EngTimed Honest (FedBy camEv CamPulse) (camEngine (demoDecoder .missingCamsync) (fuelEvents 250)) n1 E1 e1 ∧ Decoded 11 e1 ∧
    eventHasFired (e1.cfg.events 0) = true ∧ EngOn Honest (FedBy camEv CamPulse) n1 E1 e1 n E e ∧ (camEv (10 + 1 + 14)).2 ≤ n :=
  ev_run (i := 10) (j := 14) camEv_pace (camPulse_watch.sensed camEv_pace) (fuelEvents_unarmed 250) cam_squirt_ok

/-- C92, C101 and C79 applied to the run: in cycle 2 the injector has closed within 4.822 degrees of 250, after a pulse of 3285
microseconds, and closes at no other tick of the cycle of that tick.  From the moment at
which the beginning was given to the hardware (`e4`) the output is closed again before the end of the run. -/
example : ∃ n1 E1 e1 n E e s t, EngOn Honest CamPulse n1 E1 e1 n E e ∧ AtAngle camCrank 250 (2411 / 500) 2 t ∧
    t - s = 13140 ∧ Near (camCrank t) (250 + 0) turnTol.error ∧ DrivenOn Honest (InjectingOn camEv 11 300 13140 13140) n1 E1 e1 n E e 3 true s ∧
    DrivenOn Honest (InjectingOn camEv 11 300 13140 13140) n1 E1 e1 n E e 3 false t ∧
    ∃ n2 E2 e2 m, EngOn Honest (InjectingOn camEv 11 300 13140 13140) n1 E1 e1 n2 E2 e2 ∧ AtAngle camCrank 250 (2411 / 500) m t ∧
      (∀ n3 E3 e3 b3 t3, EngOn Honest (InjectingOn camEv 11 300 13140 13140) n2 E2 e2 n3 E3 e3 → InBuffer E3 e3 b3 t3 →
        Drives (e3.buf b3) (stamp t3) 3 false → AtAngle camCrank 250 (2411 / 500) m t3 → t3 = t) ∧
    ∃ n4 E4 e4 m4 t4, EngOn Honest (InjectingOn camEv 11 300 13140 13140) n1 E1 e1 n4 E4 e4 ∧ EngOn Honest (InjectingOn camEv 11 300 13140 13140) n4 E4 e4 n E e ∧ AtAngle camCrank 250 (2411 / 500) m4 t4 ∧ s < t4 ∧
      DrivenOn Honest (InjectingOn camEv 11 300 13140 13140) n4 E4 e4 n E e 3 false t4 := by
  have ho : onlyZero .fuel 250 (camEngine (demoDecoder .missingCamsync) (fuelEvents 250)) = true := by decide +kernel
  obtain ⟨n1, E1, e1, n, E, e, h1, h2, h4, h5, h6⟩ := cam_squirt_run
  replace h1 := timed_mono (G' := CamPulse) (fun _ _ h => h.1) h1
  replace h5 := on_mono (G' := CamPulse) (fun _ _ h => h.1) h5
  obtain ⟨z1, z2, z3, z4, z5⟩ := sparkEvents_zero ho
  have hb := camEngine_boot (demoDecoder .missingCamsync) (fuelEvents_unarmed 250)
  have hdec : (camEngine (demoDecoder .missingCamsync) (fuelEvents 250)).cfg.decoder = decoderInit (demoDecoder .missingCamsync) := rfl
  generalize camEngine (demoDecoder .missingCamsync) (fuelEvents 250) = e0 at *
  have herr : turnTol.error = 1811 / 500 := by norm_num [turnTol, CrankTol.error]
  have e250 : (250 : ℚ) + 0 = 250 := by norm_num
  have q2 : (435000 : ℚ) ≤ n := by exact_mod_cast camEv_25 ▸ h6
  have hn : 6 + 1 < (camSlot (pulseAfter 4 0 1) 10).tooth := by rw [cam_demo_slot]; norm_num
  have g1 := timed_mono (G' := InjectingOn camEv 11 300 13140 13140) (fun n e h => h.1) h1
  have g5 := on_mono (G' := InjectingOn camEv 11 300 13140 13140) (fun n e h => h.1) h5
  obtain ⟨s, t, a1, -, w1, w2, a3, a4⟩ := C92_cam_fires (pin := 3) (m := 2) (j1 := 10) cam_run_setup cam_demo rfl (by norm_num) cam_turns cam_turning turnTol_sane
    (by norm_num [turnTol]) cam_pulse_room (by rw [herr]; norm_num) hb hdec z2 z5 (by norm_num [abs_le]) (fun _ _ h => h) g1 h2 hn (.inr h4) g5 z3
    (by rw [cam_demo_slot, cam_demo_tooth]; unfold camCrank; norm_num) (by unfold camCrank; push_cast; linarith)
  have a4' := a4
  obtain ⟨n2, E2, e2, b2, r1, r2, r3, r4⟩ := a4
  have fol := cam_follows cam_run_setup cam_demo.type cam_demo.unseen cam_demo.place cam_demo.between cam_demo.start rfl cam_turns turnTol_sane
    (by norm_num [turnTol]) (fun n e h => h.1) hb hdec g1 h2 hn
  have r1' := on_mono_reach (G' := FuelOnEvents camEv 3285) (fun n E e h hg => by
    obtain ⟨-, k, hk, hat⟩ := fol n E e h
    obtain ⟨-, x1, x2, -⟩ := hg.2 _ hat.count (by omega)
    exact ⟨hg.1, fun _ => BitVec.eq_of_toNat_eq (show _ = 3285 by omega)⟩) r1
  have c3 := C79_cam_wheel_partial (pin := 3) (j1 := 10) cam_run_setup cam_demo rfl (by norm_num) cam_turns turnTol_sane (by norm_num [turnTol])
    (by decide) hb hdec (timed_mono (fun n e h => h.2) h1) h2 hn r1' z2 z5 (by norm_num [abs_le]) (.inr h4) z3 z1 r3 r4
  obtain ⟨m, m1, m2⟩ := C92_cam_once (pin := 3) (j1 := 10) cam_run_setup cam_demo rfl (by norm_num) cam_turns cam_turning turnTol_sane
    (by norm_num [turnTol]) cam_pulse_room (by rw [herr]; norm_num) hb hdec z2 z5 (by norm_num [abs_le]) (fun _ _ h => h) g1 h2 hn (.inr h4) z3 z1 r1 r3 r4
  obtain ⟨n4, E4, e4, b4, y1, y2, y3, y4⟩ := id a3
  obtain ⟨m4, -, y5⟩ := C101_injector_cam (pin := 3) (j1 := 10) cam_run_setup cam_demo rfl (by norm_num) cam_turns cam_turning turnTol_sane
    (by norm_num [turnTol]) cam_pulse_room (by rw [herr]; norm_num) hb hdec z2 z5 (by norm_num [abs_le]) (fun _ _ h => h) g1 h2 hn (.inr h4) z3 z1 y1 y3 y4
  obtain ⟨t4, y6, y7, -, -, y8⟩ := (y5 n E e y2).2 (by
    have y9 := (abs_le.mp a1).2
    unfold camCrank at y9
    push_cast at y9
    have y9 : (t : ℚ) ≤ 420000 := by linarith
    have y9 : t ≤ 420000 := by exact_mod_cast y9
    have q3 : (435000 : ℤ) ≤ n := by exact_mod_cast q2
    omega)
  rw [z4] at a3 a4' m2 y8
  rw [e250] at a1 m1 m2 y6
  exact ⟨n1, E1, e1, n, E, e, s, t, h5, a1, by omega, c3.1, a3, a4', n2, E2, e2, m, r1, m1, m2, n4, E4, e4, m4, t4, y1, y2, y6, y7, y8⟩

end Verif
