/-
A run that meets the hypotheses of C86: 18 teeth, three cycles.
-/
import Verif.Proofs.CommandRun
import Verif.Proofs.SensedRun
import Verif.Props.Held

namespace Verif

attribute [local instance] binary32

/-- From the fifth tooth on the advance is 31 degrees, the dwell is 2574 microseconds and nothing is cut. -/
def fireSeen (e : Engine) : Bool :=
  decide (teethDecoded e < 5) || (decide (e.vals.timingAdvance = .fin 31) && decide (e.vals.dwellUs = 2574) &&
    match ignitionCut e.cfg e.vals with
    | .ok r => !r.1
    | .error _ => true)

theorem fireSeen_on (e : Engine) (b : Bool → OutBuf) (c : Bool) : fireSeen (e.on b c) = fireSeen e := rfl

theorem fireSeen_swept (e : Engine) (f : Time) (K : ℕ) : fireSeen (e.swept f K) = fireSeen e := rfl

/-- What is assumed of the states of the run. -/
def FireOk : ℤ → Engine → Prop := Firing lateTooth 3 300 (fun _ => 31) 10296 10296

theorem fire_watch : Watch fireSeen FireOk := by
  refine ⟨fireSeen_on, fireSeen_swept, fun _ => rfl, fun {n k e} h h1 h2 h3 => ?_, fun h => h.1⟩
  unfold givenIs at h
  rw [Bool.and_eq_true, decide_eq_true_eq] at h
  obtain ⟨h, hx⟩ := h
  have hlen : e.given.length = k := by rw [h]; simp
  refine ⟨⟨k, h, h1, h2⟩, fun k' hk' h5 => ⟨handled_of hlen h2 h3, ?_⟩⟩
  unfold fireSeen at hx
  rw [decoded_teeth hk', decide_eq_false (by omega : ¬ k' + 1 < 5), Bool.false_or, Bool.and_eq_true, Bool.and_eq_true, decide_eq_true_eq,
    decide_eq_true_eq] at hx
  obtain ⟨⟨x1, x2⟩, x3⟩ := hx
  refine ⟨x1, by rw [x2]; decide, by rw [x2]; decide, fun r hr => ?_⟩
  rw [hr] at x3
  simpa using x3

theorem demo_room : CycleRoom (turnTol.error + 1 / 2) 90 15000 15300 10296 10296 300 (wheelEngine (sparkEvents 208)).cfg.ignition.minFireUs := by
  have h1 : (wheelEngine (sparkEvents 208)).cfg.ignition.minFireUs = 500 := by
    unfold wheelEngine
    generalize wheelStart (sparkEvents 208) = s
    rfl
  rw [h1]
  have h2 : turnTol.error + 1 / 2 = 2061 / 500 := by norm_num [turnTol, CrankTol.error]
  rw [h2]
  refine ⟨by norm_num, by norm_num, by norm_num, by norm_num, by norm_num, by norm_num, ?_⟩
  have : (500 : BitVec 32).toNat = 500 := rfl
  rw [this]
  norm_num

theorem fire_ok : cycleOk (withSensors fireSeen) (sparkEvents 208) = true := by decide +kernel

theorem fire_run : ∃ n1 E1 e1 n E e, EngTimed Honest (FedBy (fun j => (0, lateTooth j)) FireOk) (wheelEngine (sparkEvents 208)) n1 E1 e1 ∧ Decoded 5 e1 ∧
    eventHasFired (e1.cfg.events 0) = true ∧ EngOn Honest (FedBy (fun j => (0, lateTooth j)) FireOk) n1 E1 e1 n E e ∧ 345216 ≤ n :=
  cycle_run fire_watch.sensed (sparkEvents_unarmed 208) fire_ok

/-- C86 and C101 applied to the run: in cycle 2 the output has fired within 4.122 degrees of 177, after a charge of 2574 microseconds, within
308, and fires at no other tick of the cycle of that tick.  (The advance of the run
is 31 degrees throughout; the theorem is applied with a band of half a degree to either side.)  From the moment at
which the beginning was given to the hardware (`e4`) 3000 microseconds are enough for the output to fire. -/
example : ∃ n1 E1 e1 n E e s t, EngOn Honest FireOk n1 E1 e1 n E e ∧ AtAngle lateCrank 177 (turnTol.error + 1 / 2) 2 t ∧
    s < t ∧ DrivenOn Honest FireOk n1 E1 e1 n E e 3 true s ∧ DrivenOn Honest FireOk n1 E1 e1 n E e 3 false t ∧
    ∃ n2 E2 e2 m, EngOn Honest FireOk n1 E1 e1 n2 E2 e2 ∧ AtAngle lateCrank 177 (turnTol.error + 1 / 2) m t ∧
      (∀ n3 E3 e3 b3 t3, EngOn Honest FireOk n2 E2 e2 n3 E3 e3 → InBuffer E3 e3 b3 t3 →
        Drives (e3.buf b3) (stamp t3) 3 false → AtAngle lateCrank 177 (turnTol.error + 1 / 2) m t3 → t3 = t) ∧
    ∃ n4 E4 e4 m4, EngOn Honest FireOk n1 E1 e1 n4 E4 e4 ∧ ∀ n3 E3 e3, EngOn Honest FireOk n4 E4 e4 n3 E3 e3 → 12000 ≤ n3 - s →
      ∃ t4, AtAngle lateCrank 177 (turnTol.error + 1 / 2) m4 t4 ∧ s < t4 ∧ DrivenOn Honest FireOk n4 E4 e4 n3 E3 e3 3 false t4 := by
  have ho : onlyZero .ignition 208 (wheelEngine (sparkEvents 208)) = true := by decide +kernel
  obtain ⟨n1, E1, e1, n, E, e, h1, h2, h4, h5, h6⟩ := fire_run
  replace h1 := timed_mono (G' := FireOk) (fun _ _ h => h.1) h1
  replace h5 := on_mono (G' := FireOk) (fun _ _ h => h.1) h5
  obtain ⟨z1, z2, z3, z4, z5⟩ := sparkEvents_zero ho
  have hb := wheelEngine_boot (sparkEvents_unarmed 208)
  have hdec : (wheelEngine (sparkEvents 208)).cfg.decoder = decoderInit (demoDecoder .missingNosync) := rfl
  have hroom := demo_room
  generalize wheelEngine (sparkEvents 208) = e0 at *
  have herr : turnTol.error = 1811 / 500 := by norm_num [turnTol, CrankTol.error]
  have e177 : (208 : ℚ) - 31 + 0 = 177 := by norm_num
  have q1 : lateTooth 4 = 90000 := by decide
  have q2 : (345216 : ℚ) ≤ n := by exact_mod_cast h6
  obtain ⟨s, t, a1, a2, -, -, a3, a4⟩ := C86_fires (pin := 3) (m := 2) (k1 := 4) (V := 31) (δ := 1 / 2) (adv := fun _ => 31) late_run_setup rfl demo_gap rfl (by norm_num) late_turns late_turning turnTol_sane
    (by norm_num [turnTol]) hroom (by norm_num) (fun _ => by norm_num) (by norm_num) hb hdec z2 z5 (by norm_num [abs_le]) (fun _ _ h => h) h1 h2 (by norm_num) (.inr h4) h5 z3
    (by rw [q1]; unfold lateCrank; norm_num) (by rw [herr]; unfold lateCrank; push_cast; linarith)
  have a4' := a4
  obtain ⟨n2, E2, e2, b2, r1, r2, r3, r4⟩ := a4
  obtain ⟨m, m1, m2⟩ := C86_once (pin := 3) (k1 := 4) (V := 31) (δ := 1 / 2) (adv := fun _ => 31) late_run_setup rfl demo_gap rfl (by norm_num) late_turns late_turning turnTol_sane
    (by norm_num [turnTol]) hroom (by norm_num) (fun _ => by norm_num) (by norm_num) hb hdec z2 z5 (by norm_num [abs_le]) (fun _ _ h => h) h1 h2 (by norm_num) (.inr h4) z3 z1 r1 r3 r4
  obtain ⟨n4, E4, e4, b4, y1, y2, y3, y4⟩ := id a3
  obtain ⟨m4, -, y5⟩ := C101_coil (pin := 3) (k1 := 4) (V := 31) (δ := 1 / 2) (adv := fun _ => 31) late_run_setup rfl demo_gap rfl (by norm_num) late_turns late_turning turnTol_sane
    (by norm_num [turnTol]) hroom (by norm_num) (fun _ => by norm_num) (by norm_num) hb hdec z2 z5 (by norm_num [abs_le]) (fun _ _ h => h) h1 h2 (by norm_num) (.inr h4) z3 z1 y1 y3 y4
  rw [z4] at a3 a4' m2 y5
  rw [e177] at a1 m1 m2 y5
  refine ⟨n1, E1, e1, n, E, e, s, t, h5, a1, a2, a3, a4', n2, E2, e2, m, r1, m1, m2, n4, E4, e4, m4, y1, fun n3 E3 e3 y6 y7 => ?_⟩
  obtain ⟨t4, x6, x7, -, -, x8⟩ := (y5 n3 E3 e3 y6).2 (by
    have y9 : ((12000 : ℤ) : ℚ) ≤ ((n3 - s : ℤ) : ℚ) := by exact_mod_cast y7
    push_cast at y9
    rw [herr]
    push_cast
    linarith)
  exact ⟨t4, x6, x7, x8⟩

end Verif
