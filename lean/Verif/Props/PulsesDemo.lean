/-
A run that meets the hypotheses of C92: 18 teeth, three cycles.
-/
import Verif.Props.CycleDemo
import Verif.Props.Pulses

namespace Verif

attribute [local instance] binary32

/-- From the fifth tooth on the fuel pulse is 3285 microseconds and nothing is cut. -/
def squirtSeen (e : Engine) : Bool :=
  decide (teethDecoded e < 5) || (decide (e.vals.fuelingUs = 3285) &&
    match ignitionCut e.cfg e.vals with
    | .ok r => !r.1
    | .error _ => true)

/-- What is assumed of the states of the run. -/
def PulseOk : ℤ → Engine → Prop := Injecting lateTooth 3 300 13000 13200

theorem pulse_watch : Watch squirtSeen PulseOk := by
  refine ⟨fun _ _ _ => rfl, fun _ _ _ => rfl, fun _ => rfl, fun {n k e} h h1 h2 h3 => ?_, fun h => h.1⟩
  unfold givenIs at h
  rw [Bool.and_eq_true, decide_eq_true_eq] at h
  obtain ⟨h, hx⟩ := h
  have hlen : e.given.length = k := by rw [h]; simp
  refine ⟨⟨k, h, h1, h2⟩, fun k' hk' h5 => ⟨handled_of hlen h2 h3, ?_⟩⟩
  unfold squirtSeen at hx
  rw [decoded_teeth hk', decide_eq_false (by omega : ¬ k' < 5), Bool.false_or, Bool.and_eq_true, decide_eq_true_eq] at hx
  obtain ⟨x2, x3⟩ := hx
  refine ⟨by rw [x2]; decide, by rw [x2]; decide, fun r hr => ?_⟩
  rw [hr] at x3
  simpa using x3

theorem pulse_room : CycleRoom (2411 / 500) 90 15000 15300 13000 13200 300 0 := by
  refine ⟨by norm_num, by norm_num, by norm_num, by norm_num, by norm_num, by norm_num, ?_⟩
  have : (0 : BitVec 32).toNat = 0 := rfl
  rw [this]
  norm_num

theorem pulse_ok : cycleOk (withSensors squirtSeen) (fuelEvents 170) = true := by decide +kernel

theorem pulse_run : ∃ n1 E1 e1 n E e, EngTimed Honest (FedBy (fun j => (0, lateTooth j)) PulseOk) (wheelEngine (fuelEvents 170)) n1 E1 e1 ∧ Decoded 5 e1 ∧
    eventHasFired (e1.cfg.events 0) = true ∧ EngOn Honest (FedBy (fun j => (0, lateTooth j)) PulseOk) n1 E1 e1 n E e ∧ 345216 ≤ n :=
  cycle_run pulse_watch.sensed (fuelEvents_unarmed 170) pulse_ok

/-- C92 and C101 applied to the run: in cycle 2 the injector has closed within 4.822 degrees of 170, after a pulse of 3250 to 3300 microseconds,
and closes at no other tick of the cycle of that tick.  From the moment at
which the beginning was given to the hardware (`e4`) the output is closed again before the end of the run. -/
example : ∃ n1 E1 e1 n E e s t, EngOn Honest PulseOk n1 E1 e1 n E e ∧ AtAngle lateCrank 170 (2411 / 500) 2 t ∧
    13000 ≤ t - s ∧ t - s ≤ 13200 ∧ DrivenOn Honest PulseOk n1 E1 e1 n E e 3 true s ∧ DrivenOn Honest PulseOk n1 E1 e1 n E e 3 false t ∧
    ∃ n2 E2 e2 m, EngOn Honest PulseOk n1 E1 e1 n2 E2 e2 ∧ AtAngle lateCrank 170 (2411 / 500) m t ∧
      (∀ n3 E3 e3 b3 t3, EngOn Honest PulseOk n2 E2 e2 n3 E3 e3 → InBuffer E3 e3 b3 t3 →
        Drives (e3.buf b3) (stamp t3) 3 false → AtAngle lateCrank 170 (2411 / 500) m t3 → t3 = t) ∧
    ∃ n4 E4 e4 m4 t4, EngOn Honest PulseOk n1 E1 e1 n4 E4 e4 ∧ EngOn Honest PulseOk n4 E4 e4 n E e ∧ AtAngle lateCrank 170 (2411 / 500) m4 t4 ∧ s < t4 ∧
      DrivenOn Honest PulseOk n4 E4 e4 n E e 3 false t4 := by
  have ho : onlyZero .fuel 170 (wheelEngine (fuelEvents 170)) = true := by decide +kernel
  obtain ⟨n1, E1, e1, n, E, e, h1, h2, h4, h5, h6⟩ := pulse_run
  replace h1 := timed_mono (G' := PulseOk) (fun _ _ h => h.1) h1
  replace h5 := on_mono (G' := PulseOk) (fun _ _ h => h.1) h5
  obtain ⟨z1, z2, z3, z4, z5⟩ := sparkEvents_zero ho
  have hb := wheelEngine_boot (fuelEvents_unarmed 170)
  have hdec : (wheelEngine (fuelEvents 170)).cfg.decoder = decoderInit (demoDecoder .missingNosync) := rfl
  generalize wheelEngine (fuelEvents 170) = e0 at *
  have herr : turnTol.error = 1811 / 500 := by norm_num [turnTol, CrankTol.error]
  have e170 : (170 : ℚ) + 0 = 170 := by norm_num
  have q1 : lateTooth 4 = 90000 := by decide
  have q2 : (345216 : ℚ) ≤ n := by exact_mod_cast h6
  obtain ⟨s, t, a1, -, w1, w2, a3, a4⟩ := C92_fires (pin := 3) (m := 2) (k1 := 4) late_run_setup rfl demo_gap rfl (by norm_num) late_turns late_turning turnTol_sane
    (by norm_num [turnTol]) pulse_room (by rw [herr]; norm_num) hb hdec z2 z5 (by norm_num [abs_le]) (fun _ _ h => h) h1 h2 (by norm_num) (.inr h4) h5 z3
    (by rw [q1]; unfold lateCrank; norm_num) (by unfold lateCrank; push_cast; linarith)
  have a4' := a4
  obtain ⟨n2, E2, e2, b2, r1, r2, r3, r4⟩ := a4
  obtain ⟨m, m1, m2⟩ := C92_once (pin := 3) (k1 := 4) late_run_setup rfl demo_gap rfl (by norm_num) late_turns late_turning turnTol_sane
    (by norm_num [turnTol]) pulse_room (by rw [herr]; norm_num) hb hdec z2 z5 (by norm_num [abs_le]) (fun _ _ h => h) h1 h2 (by norm_num) (.inr h4) z3 z1 r1 r3 r4
  obtain ⟨n4, E4, e4, b4, y1, y2, y3, y4⟩ := id a3
  obtain ⟨m4, -, y5⟩ := C101_injector (pin := 3) (k1 := 4) late_run_setup rfl demo_gap rfl (by norm_num) late_turns late_turning turnTol_sane
    (by norm_num [turnTol]) pulse_room (by rw [herr]; norm_num) hb hdec z2 z5 (by norm_num [abs_le]) (fun _ _ h => h) h1 h2 (by norm_num) (.inr h4) z3 z1 y1 y3 y4
  obtain ⟨t4, y6, y7, -, -, y8⟩ := (y5 n E e y2).2 (by
    have y9 := (abs_le.mp a1).2
    unfold lateCrank at y9
    push_cast at y9
    have y9 : (t : ℚ) ≤ 344200 := by linarith
    have y9 : t ≤ 344200 := by exact_mod_cast y9
    have q3 : (345216 : ℤ) ≤ n := by exact_mod_cast q2
    omega)
  rw [z4] at a3 a4' m2 y8
  rw [e170] at a1 m1 m2 y6
  exact ⟨n1, E1, e1, n, E, e, s, t, h5, a1, w1, w2, a3, a4', n2, E2, e2, m, r1, m1, m2, n4, E4, e4, m4, t4, y1, y2, y6, y7, y8⟩

end Verif
