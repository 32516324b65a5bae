/-
A run that meets the hypotheses of C66, C76, C86 and C101 on an even wheel without a cam: 23 teeth, more than two cycles.
-/
import Verif.Props.EvenFuelDemo
import Verif.Props.FreeEngine

namespace Verif

attribute [local instance] binary32

/-- The wheel of `EvenEngineDemo`, decoded without a cam. -/
def freeDecoder : Decoder := { evenDecoder with type := .evenNosync }

/-- The triggers of the run: the teeth. -/
def freeEv (j : ℕ) : Int × ℤ := (0, evenTooth j)

theorem freeEv_pace : EvPace freeEv := by
  refine ⟨fun j => ?_, ?_⟩
  · have := evenTooth_step j
    unfold freeEv
    dsimp only
    omega
  · norm_num [freeEv, evenTooth]

theorem freeEv_22 : (freeEv 22).2 = 345000 := by decide +kernel

theorem free_demo : FreeWheel freeDecoder 8 3 2 10 (3/8) 90 15000 15300 evenTooth := by
  obtain ⟨⟨c, cy, gr, st⟩, h1, h2, h3, h4, h5, h6⟩ := even_demo.pace
  refine ⟨rfl, ⟨⟨⟨rfl, rfl, rfl, ?_, rfl, rfl, c.v0, c.v1, c.R2, c.W2, c.W36, c.g1, c.g360, c.grid⟩, cy, gr, st⟩, h1, h2, h3, h4, h5, h6⟩,
    by norm_num, by norm_num, by norm_num⟩
  show (if Fl.feq (Fl.fin (3/8)) (Fl.fin 0) then _ else _) = _
  rw [if_neg (by simp [Fl.feq])]
  rfl

/-- The advance is from 0 to 60 degrees; from the fourth tooth on it is 31 degrees, the dwell is 2574 microseconds and nothing is
cut. -/
def freeFireSeen (e : Engine) : Bool :=
  advSeen e && (decide (teethDecoded e < 4) || (decide (e.vals.timingAdvance = .fin 31) && decide (e.vals.dwellUs = 2574) &&
    match ignitionCut e.cfg e.vals with
    | .ok r => !r.1
    | .error _ => true))

/-- What is kept along the run. -/
def FreeFire (n : ℤ) (e : Engine) : Prop := Firing evenTooth 2 300 (fun _ => 31) 10296 10296 n e ∧ OnWheel evenTooth AdvRange n e

theorem freeFire_watch : EvWatch freeEv freeDecoder freeFireSeen FreeFire := by
  refine ⟨fun _ _ _ => rfl, fun _ _ _ => rfl, fun _ => rfl, fun {n k e} h h1 h2 h3 => ?_, fun h => h.2.1⟩
  unfold evGiven at h
  rw [Bool.and_eq_true, decide_eq_true_eq] at h
  obtain ⟨h, hx⟩ := h
  have hlen : e.given.length = k := by rw [h]; simp
  unfold freeFireSeen at hx
  rw [Bool.and_eq_true] at hx
  refine ⟨⟨⟨k, h, h1, h2⟩, fun k' hk' h5 => ⟨ev_handled freeEv_pace hlen h2 h3, ?_⟩⟩, ⟨k, h, h1, h2⟩, advOk_range hx.1⟩
  obtain ⟨-, hx⟩ := hx
  rw [decoded_teeth hk', decide_eq_false (by omega : ¬ k' + 1 < 4), Bool.false_or, Bool.and_eq_true, Bool.and_eq_true, decide_eq_true_eq,
    decide_eq_true_eq] at hx
  obtain ⟨⟨x1, x2⟩, x3⟩ := hx
  refine ⟨x1, by rw [x2]; decide, by rw [x2]; decide, fun r hr => ?_⟩
  rw [hr] at x3
  simpa using x3

theorem free_room : CycleRoom (turnTol.error + 1) 90 15000 15300 10296 10296 300 (camEngine freeDecoder (sparkEvents 288)).cfg.ignition.minFireUs := by
  have h1 : (camEngine freeDecoder (sparkEvents 288)).cfg.ignition.minFireUs = 500 := by
    unfold camEngine
    generalize wheelStart (sparkEvents 288) = s
    rfl
  rw [h1]
  have h2 : turnTol.error + 1 = 2311 / 500 := by norm_num [turnTol, CrankTol.error]
  rw [h2]
  refine ⟨by norm_num, by norm_num, by norm_num, by norm_num, by norm_num, by norm_num, ?_⟩
  have : (500 : BitVec 32).toNat = 500 := rfl
  rw [this]
  norm_num

theorem free_fire_ok : camCycleOk freeEv freeDecoder 5 17 (withSensors freeFireSeen) (sparkEvents 288) = true := by decide +kernel

theorem free_fire_run : ∃ n1 E1 e1 n E e, EngTimed Honest (FedBy freeEv FreeFire) (camEngine freeDecoder (sparkEvents 288)) n1 E1 e1 ∧ Decoded 5 e1 ∧
    eventHasFired (e1.cfg.events 0) = true ∧ EngOn Honest (FedBy freeEv FreeFire) n1 E1 e1 n E e ∧ (freeEv (4 + 1 + 17)).2 ≤ n :=
  ev_run (i := 4) (j := 17) freeEv_pace (freeFire_watch.sensed freeEv_pace) (sparkEvents_unarmed 288) free_fire_ok

/-- C66, C86, C101 and C76 applied to the run: when the fifth tooth is decoded the decoder is valid and reports 180 degrees; in cycle 2
the output has fired within 4.622 degrees of 257, after a charge of 2574 microseconds, within 308, and fires at no other tick of the
cycle of that tick, at which the crank is at 288 degrees less an advance from 0 to 60.  From the moment at
which the beginning was given to the hardware (`e4`) 3000 microseconds are enough for the output to fire. -/
example : ∃ n1 E1 e1 n E e s t, EngTimed Honest FreeFire (camEngine freeDecoder (sparkEvents 288)) n1 E1 e1 ∧
    e1.cfg.decoder.valid = true ∧ e1.cfg.decoder.lastTriggerAngle = .fin 180 ∧
    EngOn Honest FreeFire n1 E1 e1 n E e ∧ AtAngle evenCrank 257 (turnTol.error + 1) 2 t ∧ s < t ∧
    (∃ adv, AdvRange adv ∧ Near (evenCrank t) (288 - adv + 0) turnTol.error) ∧
    DrivenOn Honest (Firing evenTooth 2 300 (fun _ => 31) 10296 10296) n1 E1 e1 n E e 3 true s ∧
    DrivenOn Honest (Firing evenTooth 2 300 (fun _ => 31) 10296 10296) n1 E1 e1 n E e 3 false t ∧
    ∃ n2 E2 e2 m, EngOn Honest (Firing evenTooth 2 300 (fun _ => 31) 10296 10296) n1 E1 e1 n2 E2 e2 ∧ AtAngle evenCrank 257 (turnTol.error + 1) m t ∧
      (∀ n3 E3 e3 b3 t3, EngOn Honest (Firing evenTooth 2 300 (fun _ => 31) 10296 10296) n2 E2 e2 n3 E3 e3 → InBuffer E3 e3 b3 t3 →
        Drives (e3.buf b3) (stamp t3) 3 false → AtAngle evenCrank 257 (turnTol.error + 1) m t3 → t3 = t) ∧
    ∃ n4 E4 e4 m4, EngOn Honest (Firing evenTooth 2 300 (fun _ => 31) 10296 10296) n1 E1 e1 n4 E4 e4 ∧ ∀ n3 E3 e3, EngOn Honest (Firing evenTooth 2 300 (fun _ => 31) 10296 10296) n4 E4 e4 n3 E3 e3 → 12000 ≤ n3 - s →
      ∃ t4, AtAngle evenCrank 257 (turnTol.error + 1) m4 t4 ∧ s < t4 ∧ DrivenOn Honest (Firing evenTooth 2 300 (fun _ => 31) 10296 10296) n4 E4 e4 n3 E3 e3 3 false t4 := by
  have ho : onlyZero .ignition 288 (camEngine freeDecoder (sparkEvents 288)) = true := by decide +kernel
  obtain ⟨n1, E1, e1, n, E, e, h1, h2, h4, h5, h6⟩ := free_fire_run
  replace h1 := timed_mono (G' := FreeFire) (fun _ _ h => h.1) h1
  replace h5 := on_mono (G' := FreeFire) (fun _ _ h => h.1) h5
  obtain ⟨z1, z2, z3, z4, z5⟩ := sparkEvents_zero ho
  have hb := camEngine_boot freeDecoder (sparkEvents_unarmed 288)
  have hdec : (camEngine freeDecoder (sparkEvents 288)).cfg.decoder = decoderInit freeDecoder := rfl
  have hroom := free_room
  have ha := onlyZero_angles ho (by norm_num [abs_le])
  generalize camEngine freeDecoder (sparkEvents 288) = e0 at *
  have herr : turnTol.error = 1811 / 500 := by norm_num [turnTol, CrankTol.error]
  have e257 : (288 : ℚ) - 31 + 0 = 257 := by norm_num
  have q2 : (345000 : ℚ) ≤ n := by exact_mod_cast freeEv_22 ▸ h6
  have hn : 3 - 1 < 4 := by norm_num
  have g1 := timed_mono (G' := Firing evenTooth 2 300 (fun _ => 31) 10296 10296) (fun n e h => h.1) h1
  have g5 := on_mono (G' := Firing evenTooth 2 300 (fun _ => 31) 10296 10296) (fun n e h => h.1) h5
  obtain ⟨c1, -, c2⟩ := C66_engine_free_partial free_demo (fun n e h => h.1) hb hdec g1 (j := 4) h2 (by norm_num)
  obtain ⟨s, t, a1, a2, -, -, a3, a4⟩ := C86_free_fires (pin := 3) (m := 2) (k1 := 4) (V := 31) (δ := 1) (adv := fun _ => 31) free_demo rfl (by norm_num) even_turns even_turning turnTol_sane
    (by norm_num [turnTol]) hroom (by norm_num) (fun _ => by norm_num) (by norm_num) hb hdec z2 z5 (by norm_num [abs_le]) (fun _ _ h => h) g1 h2 hn (.inr h4) g5 z3
    (by rw [even_demo_tooth]; unfold evenCrank; norm_num) (by rw [herr]; unfold evenCrank; push_cast; linarith)
  have a4' := a4
  obtain ⟨n2, E2, e2, b2, r1, r2, r3, r4⟩ := a4
  have fol := free_follows free_demo rfl even_turns turnTol_sane
    (by norm_num [turnTol]) (fun n e h => h.1) hb hdec g1 h2 hn (Nat.le_succ _)
  have r1' := on_mono_reach (G' := OnWheel evenTooth AdvRange) (fun n E e h hg => by
    obtain ⟨-, k, hk, hat⟩ := fol n E e h
    exact ⟨hg.1, 31, (hg.2 _ hat.count (by omega)).2.1, by norm_num [AdvRange]⟩) r1
  have c3 := C76_free_wheel_partial (pin := 3) (k1 := 4) free_demo rfl even_turns turnTol_sane (by norm_num [turnTol]) hb hdec ha
    (timed_mono (fun n e h => h.2) h1) h2 hn r1' z2 z5 (fired_dead h4) z1 r3 r4
  obtain ⟨m, m1, m2⟩ := C86_free_once (pin := 3) (k1 := 4) (V := 31) (δ := 1) (adv := fun _ => 31) free_demo rfl (by norm_num) even_turns even_turning turnTol_sane
    (by norm_num [turnTol]) hroom (by norm_num) (fun _ => by norm_num) (by norm_num) hb hdec z2 z5 (by norm_num [abs_le]) (fun _ _ h => h) g1 h2 hn (.inr h4) z3 z1 r1 r3 r4
  obtain ⟨n4, E4, e4, b4, y1, y2, y3, y4⟩ := id a3
  obtain ⟨m4, -, y5⟩ := C101_coil_free (pin := 3) (k1 := 4) (V := 31) (δ := 1) (adv := fun _ => 31) free_demo rfl (by norm_num) even_turns even_turning turnTol_sane
    (by norm_num [turnTol]) hroom (by norm_num) (fun _ => by norm_num) (by norm_num) hb hdec z2 z5 (by norm_num [abs_le]) (fun _ _ h => h) g1 h2 hn (.inr h4) z3 z1 y1 y3 y4
  rw [z4] at a3 a4' m2 y5
  rw [e257] at a1 m1 m2 y5
  refine ⟨n1, E1, e1, n, E, e, s, t, h1, c1, ?_, h5, a1, a2, c3, a3, a4', n2, E2, e2, m, r1, m1, m2, n4, E4, e4, m4, y1, fun n3 E3 e3 y6 y7 => ?_⟩
  · rw [c2]
    norm_num
  · obtain ⟨t4, x6, x7, -, -, x8⟩ := (y5 n3 E3 e3 y6).2 (by
      have y9 : ((12000 : ℤ) : ℚ) ≤ ((n3 - s : ℤ) : ℚ) := by exact_mod_cast y7
      push_cast at y9
      rw [herr]
      push_cast
      linarith)
    exact ⟨t4, x6, x7, x8⟩

end Verif
