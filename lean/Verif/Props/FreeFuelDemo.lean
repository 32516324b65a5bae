/-
The run of `FreeEngineDemo` with an injection: it meets the hypotheses of C79, C92 and C101 on an even wheel without a cam.
-/
import Verif.Props.FreeEngineDemo

namespace Verif

attribute [local instance] binary32

/-- From the fourth tooth on the fuel pulse is 3285 microseconds and nothing is cut; it has that length whenever the decoder is
valid. -/
def freeSquirtSeen (e : Engine) : Bool :=
  fuelSeen e && (decide (teethDecoded e < 4) || (decide (e.vals.fuelingUs = 3285) &&
    match ignitionCut e.cfg e.vals with
    | .ok r => !r.1
    | .error _ => true))

/-- What is kept along the run. -/
def FreePulse (n : ℤ) (e : Engine) : Prop := Injecting evenTooth 2 300 13140 13140 n e ∧ FuelOnWheel evenTooth 3285 n e

theorem freePulse_watch : EvWatch freeEv freeDecoder freeSquirtSeen FreePulse := by
  refine ⟨fun _ _ _ => rfl, fun _ _ _ => rfl, fun _ => rfl, fun {n k e} h h1 h2 h3 => ?_, fun h => h.2.1⟩
  unfold evGiven at h
  rw [Bool.and_eq_true, decide_eq_true_eq] at h
  obtain ⟨h, hx⟩ := h
  have hlen : e.given.length = k := by rw [h]; simp
  unfold freeSquirtSeen at hx
  rw [Bool.and_eq_true] at hx
  refine ⟨⟨⟨k, h, h1, h2⟩, fun k' hk' h5 => ⟨ev_handled freeEv_pace hlen h2 h3, ?_⟩⟩, ⟨k, h, h1, h2⟩, fuelSeen_eq hx.1⟩
  obtain ⟨-, hx⟩ := hx
  rw [decoded_teeth hk', decide_eq_false (by omega : ¬ k' < 4), Bool.false_or, Bool.and_eq_true, decide_eq_true_eq] at hx
  obtain ⟨x2, x3⟩ := hx
  refine ⟨by rw [x2]; decide, by rw [x2]; decide, fun r hr => ?_⟩
  rw [hr] at x3
  simpa using x3

theorem free_squirt_ok : camCycleOk freeEv freeDecoder 5 17 (withSensors freeSquirtSeen) (fuelEvents 250) = true := by decide +kernel

theorem free_squirt_run : ∃ n1 E1 e1 n E e, EngTimed Honest (FedBy freeEv FreePulse) (camEngine freeDecoder (fuelEvents 250)) n1 E1 e1 ∧ Decoded 5 e1 ∧
    eventHasFired (e1.cfg.events 0) = true ∧ EngOn Honest (FedBy freeEv FreePulse) n1 E1 e1 n E e ∧ (freeEv (4 + 1 + 17)).2 ≤ n :=
  ev_run (i := 4) (j := 17) freeEv_pace (freePulse_watch.sensed freeEv_pace) (fuelEvents_unarmed 250) free_squirt_ok

/-- C92, C101 and C79 applied to the run: in cycle 2 the injector has closed within 4.822 degrees of 250, after a pulse of 3285
microseconds, and closes at no other tick of the cycle of that tick.  From the moment at
which the beginning was given to the hardware (`e4`) the output is closed again before the end of the run. -/
example : ∃ n1 E1 e1 n E e s t, EngOn Honest FreePulse n1 E1 e1 n E e ∧ AtAngle evenCrank 250 (2411 / 500) 2 t ∧
    t - s = 13140 ∧ Near (evenCrank t) (250 + 0) turnTol.error ∧ DrivenOn Honest (Injecting evenTooth 2 300 13140 13140) n1 E1 e1 n E e 3 true s ∧
    DrivenOn Honest (Injecting evenTooth 2 300 13140 13140) n1 E1 e1 n E e 3 false t ∧
    ∃ n2 E2 e2 m, EngOn Honest (Injecting evenTooth 2 300 13140 13140) n1 E1 e1 n2 E2 e2 ∧ AtAngle evenCrank 250 (2411 / 500) m t ∧
      (∀ n3 E3 e3 b3 t3, EngOn Honest (Injecting evenTooth 2 300 13140 13140) n2 E2 e2 n3 E3 e3 → InBuffer E3 e3 b3 t3 →
        Drives (e3.buf b3) (stamp t3) 3 false → AtAngle evenCrank 250 (2411 / 500) m t3 → t3 = t) ∧
    ∃ n4 E4 e4 m4 t4, EngOn Honest (Injecting evenTooth 2 300 13140 13140) n1 E1 e1 n4 E4 e4 ∧ EngOn Honest (Injecting evenTooth 2 300 13140 13140) n4 E4 e4 n E e ∧ AtAngle evenCrank 250 (2411 / 500) m4 t4 ∧ s < t4 ∧
      DrivenOn Honest (Injecting evenTooth 2 300 13140 13140) n4 E4 e4 n E e 3 false t4 := by
  have ho : onlyZero .fuel 250 (camEngine freeDecoder (fuelEvents 250)) = true := by decide +kernel
  obtain ⟨n1, E1, e1, n, E, e, h1, h2, h4, h5, h6⟩ := free_squirt_run
  replace h1 := timed_mono (G' := FreePulse) (fun _ _ h => h.1) h1
  replace h5 := on_mono (G' := FreePulse) (fun _ _ h => h.1) h5
  obtain ⟨z1, z2, z3, z4, z5⟩ := sparkEvents_zero ho
  have hb := camEngine_boot freeDecoder (fuelEvents_unarmed 250)
  have hdec : (camEngine freeDecoder (fuelEvents 250)).cfg.decoder = decoderInit freeDecoder := rfl
  generalize camEngine freeDecoder (fuelEvents 250) = e0 at *
  have herr : turnTol.error = 1811 / 500 := by norm_num [turnTol, CrankTol.error]
  have e250 : (250 : ℚ) + 0 = 250 := by norm_num
  have q2 : (345000 : ℚ) ≤ n := by exact_mod_cast freeEv_22 ▸ h6
  have hn : 3 - 1 < 4 := by norm_num
  have g1 := timed_mono (G' := Injecting evenTooth 2 300 13140 13140) (fun n e h => h.1) h1
  have g5 := on_mono (G' := Injecting evenTooth 2 300 13140 13140) (fun n e h => h.1) h5
  obtain ⟨s, t, a1, -, w1, w2, a3, a4⟩ := C92_free_fires (pin := 3) (m := 2) (k1 := 4) free_demo rfl (by norm_num) even_turns even_turning turnTol_sane
    (by norm_num [turnTol]) even_pulse_room (by rw [herr]; norm_num) hb hdec z2 z5 (by norm_num [abs_le]) (fun _ _ h => h) g1 h2 hn (.inr h4) g5 z3
    (by rw [even_demo_tooth]; unfold evenCrank; norm_num) (by unfold evenCrank; push_cast; linarith)
  have a4' := a4
  obtain ⟨n2, E2, e2, b2, r1, r2, r3, r4⟩ := a4
  have fol := free_follows free_demo rfl even_turns turnTol_sane
    (by norm_num [turnTol]) (fun n e h => h.1) hb hdec g1 h2 hn (Nat.le_succ _)
  have r1' := on_mono_reach (G' := FuelOnWheel evenTooth 3285) (fun n E e h hg => by
    obtain ⟨-, k, hk, hat⟩ := fol n E e h
    obtain ⟨-, x1, x2, -⟩ := hg.2 _ hat.count (by omega)
    exact ⟨hg.1, fun _ => BitVec.eq_of_toNat_eq (show _ = 3285 by omega)⟩) r1
  have c3 := C79_free_wheel_partial (pin := 3) (k1 := 4) free_demo rfl (by norm_num) even_turns turnTol_sane (by norm_num [turnTol])
    (by decide) hb hdec (timed_mono (fun n e h => h.2) h1) h2 hn r1' z2 z5 (by norm_num [abs_le]) (.inr h4) z3 z1 r3 r4
  obtain ⟨m, m1, m2⟩ := C92_free_once (pin := 3) (k1 := 4) free_demo rfl (by norm_num) even_turns even_turning turnTol_sane
    (by norm_num [turnTol]) even_pulse_room (by rw [herr]; norm_num) hb hdec z2 z5 (by norm_num [abs_le]) (fun _ _ h => h) g1 h2 hn (.inr h4) z3 z1 r1 r3 r4
  obtain ⟨n4, E4, e4, b4, y1, y2, y3, y4⟩ := id a3
  obtain ⟨m4, -, y5⟩ := C101_injector_free (pin := 3) (k1 := 4) free_demo rfl (by norm_num) even_turns even_turning turnTol_sane
    (by norm_num [turnTol]) even_pulse_room (by rw [herr]; norm_num) hb hdec z2 z5 (by norm_num [abs_le]) (fun _ _ h => h) g1 h2 hn (.inr h4) z3 z1 y1 y3 y4
  obtain ⟨t4, y6, y7, -, -, y8⟩ := (y5 n E e y2).2 (by
    have y9 := (abs_le.mp a1).2
    unfold evenCrank at y9
    push_cast at y9
    have y9 : (t : ℚ) ≤ 328000 := by linarith
    have y9 : t ≤ 328000 := by exact_mod_cast y9
    have q3 : (345000 : ℤ) ≤ n := by exact_mod_cast q2
    omega)
  rw [z4] at a3 a4' m2 y8
  rw [e250] at a1 m1 m2 y6
  exact ⟨n1, E1, e1, n, E, e, s, t, h5, a1, by omega, c3.1, a3, a4', n2, E2, e2, m, r1, m1, m2, n4, E4, e4, m4, t4, y1, y2, y6, y7, y8⟩

end Verif
