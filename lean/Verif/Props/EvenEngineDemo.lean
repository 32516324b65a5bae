/-
A run that meets the hypotheses of C66, C76 and C86 on an even wheel with a cam: 25 triggers, more than two cycles.
-/
import Verif.Props.CamEngineDemo
import Verif.Props.EvenEngine

namespace Verif

attribute [local instance] binary32

/-- The teeth pass at 4000 revolutions per minute. -/
def evenTooth (n : ℕ) : ℤ := 15000 * ((n : ℤ) + 1)

/-- The cam pulses come half a pitch after the teeth. -/
def evenCam (n : ℕ) : ℤ := evenTooth n + 7500

/-- A decoder for an even wheel of eight teeth per cycle, which needs three teeth and averages over two. -/
def evenDecoder : Decoder :=
  { demoDecoder .evenCamsync with degreesPerTrigger := .fin 90, numTriggers := 8, requiredTriggersRpm := 3 }

/-- The triggers of the run: the third tooth of every cycle is followed by a cam pulse. -/
def evenEv : ℕ → Int × ℤ := camEvent (fun n => n % 8 = 2) evenTooth evenCam

theorem evenTooth_step (n : ℕ) : evenTooth (n + 1) = evenTooth n + 15000 := by
  unfold evenTooth
  push_cast
  ring

theorem evenEv_gap (j : ℕ) : (evenEv j).2 + 7500 ≤ (evenEv (j + 1)).2 ∧ (evenEv (j + 1)).2 ≤ (evenEv j).2 + 30000 := by
  unfold evenEv camEvent
  rw [show camSlot (fun n => n % 8 = 2) (j + 1) = camNext (fun n => n % 8 = 2) (camSlot (fun n => n % 8 = 2) j) from rfl]
  generalize camSlot (fun n => n % 8 = 2) j = x
  have := evenTooth_step x.tooth
  unfold camNext
  by_cases h : x.cam = false ∧ x.tooth % 8 = 2
  · rw [if_pos h, h.1]
    simp only [Bool.false_eq_true, if_true, if_false]
    unfold evenCam
    omega
  · rw [if_neg h]
    have hl : evenCam x.tooth = evenTooth x.tooth + 7500 := rfl
    cases hx : x.cam <;> simp only [Bool.false_eq_true, if_true, if_false] <;> omega

theorem evenEv_pace : EvPace evenEv := by
  refine ⟨evenEv_gap, ?_⟩
  have h0 : (evenEv 0).2 = 15000 := by decide
  rw [h0]
  norm_num

theorem evenEv_24 : (evenEv 24).2 = 330000 := by decide +kernel

theorem evenTooth_speed (n : ℕ) {w : ℕ} (hw : w ≤ n) (h0 : 0 < w) : speed (90 * w) (evenTooth n - evenTooth (n - w)) = 4000 := by
  unfold speed evenTooth
  rw [Nat.cast_sub hw]
  have : ((15000 * ((n : ℤ) + 1) - 15000 * (((n : ℤ) - (w : ℤ)) + 1) : ℤ) : ℚ) = 15000 * w := by push_cast; ring
  rw [this]
  have : (w : ℚ) ≠ 0 := by exact_mod_cast h0.ne'
  field_simp
  norm_num

/-- The wheel of the run. -/
theorem even_run_setup : EvenSetup evenDecoder 8 3 2 10 (3/8) 90 evenTooth := by
  have grid : ∀ k : ℕ, k ≤ 36 → FloatFmt.rnd ((90 : ℚ) * k) = .fin (90 * k) := by
    intro k hk
    have := FloatFmt.rnd_nat (90 * k) (by omega)
    push_cast at this
    exact this
  refine ⟨rfl, ⟨rfl, rfl, rfl, ?_, rfl, rfl, by norm_num, by norm_num, by norm_num, by norm_num, by norm_num, by norm_num,
    by norm_num, grid⟩, by norm_num, fun k hk => grid k (by omega), ⟨fun n => ?_, fun n hn => ?_, fun n w h1 _ _ hw => ?_⟩⟩
  · show (if Fl.feq (Fl.fin (3/8)) (Fl.fin 0) then _ else _) = _
    rw [if_neg (by simp [Fl.feq])]
    rfl
  · have := evenTooth_step n
    omega
  · have := evenTooth_speed n (w := 1) hn (by norm_num)
    simp only [Nat.cast_one, mul_one] at this
    rw [this]
    norm_num
  · have h2 := evenTooth_speed n (w := 1) (by omega) (by norm_num)
    simp only [Nat.cast_one, mul_one] at h2
    rw [h2, evenTooth_speed n hw (by omega)]
    norm_num

theorem even_demo : EvenWheel evenDecoder 8 3 2 10 2 2 (3/8) 90 15000 15300 evenTooth evenCam := by
  refine ⟨even_run_setup, by norm_num, by norm_num, by norm_num, fun n => ?_, fun n => ?_, by norm_num, by norm_num, by norm_num, by norm_num, rfl, by norm_num⟩
  · have := evenTooth_step n
    unfold evenCam
    omega
  · have := evenTooth_step n
    omega

/-- The crank, at 0 when tooth 2 passes. -/
def evenCrank (t : ℤ) : ℚ := 90 * (t - 45000) / 15000

theorem even_turning : Turning evenCrank 90 15000 15300 := by
  intro t t' h
  have h1 : (t : ℚ) ≤ t' := by exact_mod_cast h
  unfold evenCrank
  push_cast
  constructor <;> nlinarith

theorem even_turns_on : CrankTurnsFrom evenCrank turnTol id 2 2 90 evenTooth := by
  have hstep : ∀ j, 2 ≤ j → ((evenTooth j : ℚ) - evenTooth (j - 1) = 15000) ∧ ((id j : ℕ) : ℚ) - ((id (j - 1) : ℕ) : ℚ) = 1 := by
    intro j hj
    obtain ⟨m, rfl⟩ : ∃ m, j = m + 1 := ⟨j - 1, by omega⟩
    rw [Nat.add_sub_cancel, evenTooth_step]
    exact ⟨by push_cast; ring, by simp⟩
  refine ⟨fun j hj => ?_, fun j hj => ⟨3 / 500, by norm_num, le_refl _, fun t _ _ => ?_, ?_⟩, fun j hj => ?_, fun j hj => ?_⟩
  · have : evenCrank (evenTooth j) - 90 * (((id j : ℕ) : ℚ) - ((id 2 : ℕ) : ℚ)) = 0 := by
      unfold evenCrank evenTooth
      simp only [id]
      push_cast
      ring
    rw [this]
    norm_num [turnTol]
  · have : evenCrank t - evenCrank (evenTooth j) - 3 / 500 * (t - evenTooth j) = 0 := by
      unfold evenCrank
      ring
    rw [this]
    norm_num [turnTol]
  · obtain ⟨h1, h2⟩ := hstep j hj
    rw [h1, h2]
    norm_num [turnTol]
  · obtain ⟨h1, h2⟩ := hstep j hj
    rw [h1, h2]
    norm_num [turnTol]
  · obtain ⟨h1, h2⟩ := hstep j hj
    rw [h1, h2]
    norm_num

theorem even_turns : CrankTurns evenCrank turnTol id 2 90 evenTooth :=
  ⟨fun j hj => even_turns_on.place j (by omega), fun j hj => even_turns_on.speed j (by omega), fun j hj => even_turns_on.fast j (by omega),
    fun j hj => even_turns_on.slow j (by omega)⟩

/-- The advance is from 0 to 60 degrees; from the sixth trigger on it is 31 degrees, the dwell is 2574 microseconds and nothing is
cut. -/
def evenFireSeen (e : Engine) : Bool :=
  advSeen e && (decide (teethDecoded e < 6) || (decide (e.vals.timingAdvance = .fin 31) && decide (e.vals.dwellUs = 2574) &&
    match ignitionCut e.cfg e.vals with
    | .ok r => !r.1
    | .error _ => true))

/-- What is kept along the run. -/
def EvenFire (n : ℤ) (e : Engine) : Prop := FiringOn evenEv 6 300 (fun _ => 31) 10296 10296 n e ∧ OnEvents evenEv AdvRange n e

theorem evenFire_watch : EvWatch evenEv evenDecoder evenFireSeen EvenFire := by
  refine ⟨fun _ _ _ => rfl, fun _ _ _ => rfl, fun _ => rfl, fun {n k e} h h1 h2 h3 => ?_, fun h => h.2.1⟩
  unfold evGiven at h
  rw [Bool.and_eq_true, decide_eq_true_eq] at h
  obtain ⟨h, hx⟩ := h
  have hlen : e.given.length = k := by rw [h]; simp
  unfold evenFireSeen at hx
  rw [Bool.and_eq_true] at hx
  refine ⟨⟨⟨k, h, h1, h2⟩, fun k' hk' h5 => ⟨ev_handled evenEv_pace hlen h2 h3, ?_⟩⟩, ⟨k, h, h1, h2⟩, advOk_range hx.1⟩
  obtain ⟨-, hx⟩ := hx
  rw [decoded_teeth hk', decide_eq_false (by omega : ¬ k' + 1 < 6), Bool.false_or, Bool.and_eq_true, Bool.and_eq_true, decide_eq_true_eq,
    decide_eq_true_eq] at hx
  obtain ⟨⟨x1, x2⟩, x3⟩ := hx
  refine ⟨x1, by rw [x2]; decide, by rw [x2]; decide, fun r hr => ?_⟩
  rw [hr] at x3
  simpa using x3

theorem even_room : CycleRoom (turnTol.error + 1) 90 15000 15300 10296 10296 300 (camEngine evenDecoder (sparkEvents 288)).cfg.ignition.minFireUs := by
  have h1 : (camEngine evenDecoder (sparkEvents 288)).cfg.ignition.minFireUs = 500 := by
    unfold camEngine
    generalize wheelStart (sparkEvents 288) = s
    rfl
  rw [h1]
  have h2 : turnTol.error + 1 = 2311 / 500 := by norm_num [turnTol, CrankTol.error]
  rw [h2]
  refine ⟨by norm_num, by norm_num, by norm_num, by norm_num, by norm_num, by norm_num, ?_⟩
  have : (500 : BitVec 32).toNat = 500 := rfl
  rw [this]
  norm_num

theorem even_demo_slot : (camSlot (fun n => n % 8 = 2) 5).tooth = 4 := by decide

theorem even_demo_tooth : evenTooth 4 = 75000 := by decide

theorem even_fire_ok : camCycleOk evenEv evenDecoder 6 18 (withSensors evenFireSeen) (sparkEvents 288) = true := by decide +kernel

theorem even_fire_run : ∃ n1 E1 e1 n E e, EngTimed Honest (FedBy evenEv EvenFire) (camEngine evenDecoder (sparkEvents 288)) n1 E1 e1 ∧ Decoded 6 e1 ∧
    eventHasFired (e1.cfg.events 0) = true ∧ EngOn Honest (FedBy evenEv EvenFire) n1 E1 e1 n E e ∧ (evenEv (5 + 1 + 18)).2 ≤ n :=
  ev_run (i := 5) (j := 18) evenEv_pace (evenFire_watch.sensed evenEv_pace) (sparkEvents_unarmed 288) even_fire_ok

/-- C66, C86, C101 and C76 applied to the run: when the sixth trigger is decoded the decoder is valid and reports 180 degrees; in cycle 2
the output has fired within 4.622 degrees of 257, after a charge of 2574 microseconds, within 308, and fires at no other tick of the
cycle of that tick, at which the crank is at 288 degrees less an advance from 0 to 60.  From the moment at
which the beginning was given to the hardware (`e4`) 3000 microseconds are enough for the output to fire. -/
example : ∃ n1 E1 e1 n E e s t, EngTimed Honest EvenFire (camEngine evenDecoder (sparkEvents 288)) n1 E1 e1 ∧
    e1.cfg.decoder.valid = true ∧ e1.cfg.decoder.lastTriggerAngle = .fin 180 ∧
    EngOn Honest EvenFire n1 E1 e1 n E e ∧ AtAngle evenCrank 257 (turnTol.error + 1) 2 t ∧ s < t ∧
    (∃ adv, AdvRange adv ∧ Near (evenCrank t) (288 - adv + 0) turnTol.error) ∧
    DrivenOn Honest (FiringOn evenEv 6 300 (fun _ => 31) 10296 10296) n1 E1 e1 n E e 3 true s ∧
    DrivenOn Honest (FiringOn evenEv 6 300 (fun _ => 31) 10296 10296) n1 E1 e1 n E e 3 false t ∧
    ∃ n2 E2 e2 m, EngOn Honest (FiringOn evenEv 6 300 (fun _ => 31) 10296 10296) n1 E1 e1 n2 E2 e2 ∧ AtAngle evenCrank 257 (turnTol.error + 1) m t ∧
      (∀ n3 E3 e3 b3 t3, EngOn Honest (FiringOn evenEv 6 300 (fun _ => 31) 10296 10296) n2 E2 e2 n3 E3 e3 → InBuffer E3 e3 b3 t3 →
        Drives (e3.buf b3) (stamp t3) 3 false → AtAngle evenCrank 257 (turnTol.error + 1) m t3 → t3 = t) ∧
    ∃ n4 E4 e4 m4, EngOn Honest (FiringOn evenEv 6 300 (fun _ => 31) 10296 10296) n1 E1 e1 n4 E4 e4 ∧ ∀ n3 E3 e3, EngOn Honest (FiringOn evenEv 6 300 (fun _ => 31) 10296 10296) n4 E4 e4 n3 E3 e3 → 12000 ≤ n3 - s →
      ∃ t4, AtAngle evenCrank 257 (turnTol.error + 1) m4 t4 ∧ s < t4 ∧ DrivenOn Honest (FiringOn evenEv 6 300 (fun _ => 31) 10296 10296) n4 E4 e4 n3 E3 e3 3 false t4 := by
  have ho : onlyZero .ignition 288 (camEngine evenDecoder (sparkEvents 288)) = true := by decide +kernel
  obtain ⟨n1, E1, e1, n, E, e, h1, h2, h4, h5, h6⟩ := even_fire_run
  replace h1 := timed_mono (G' := EvenFire) (fun _ _ h => h.1) h1
  replace h5 := on_mono (G' := EvenFire) (fun _ _ h => h.1) h5
  obtain ⟨z1, z2, z3, z4, z5⟩ := sparkEvents_zero ho
  have hb := camEngine_boot evenDecoder (sparkEvents_unarmed 288)
  have hdec : (camEngine evenDecoder (sparkEvents 288)).cfg.decoder = decoderInit evenDecoder := rfl
  have hroom := even_room
  have ha := onlyZero_angles ho (by norm_num [abs_le])
  generalize camEngine evenDecoder (sparkEvents 288) = e0 at *
  have herr : turnTol.error = 1811 / 500 := by norm_num [turnTol, CrankTol.error]
  have e257 : (288 : ℚ) - 31 + 0 = 257 := by norm_num
  have q2 : (330000 : ℚ) ≤ n := by exact_mod_cast evenEv_24 ▸ h6
  have hn : 2 < (camSlot (fun n => n % 8 = 2) 5).tooth := by rw [even_demo_slot]; norm_num
  have g1 := timed_mono (G' := FiringOn evenEv 6 300 (fun _ => 31) 10296 10296) (fun n e h => h.1) h1
  have g5 := on_mono (G' := FiringOn evenEv 6 300 (fun _ => 31) 10296 10296) (fun n e h => h.1) h5
  obtain ⟨c1, -, c2⟩ := C66_engine_even_partial even_demo (fun n e h => h.1) hb hdec g1 (j := 5) h2 hn
  obtain ⟨s, t, a1, a2, -, -, a3, a4⟩ := C86_even_fires (pin := 3) (m := 2) (j1 := 5) (V := 31) (δ := 1) (adv := fun _ => 31) even_demo rfl (by norm_num) even_turns even_turning turnTol_sane
    (by norm_num [turnTol]) hroom (by norm_num) (fun _ => by norm_num) (by norm_num) hb hdec z2 z5 (by norm_num [abs_le]) (fun _ _ h => h) g1 h2 hn (.inr h4) g5 z3
    (by rw [even_demo_slot, even_demo_tooth]; unfold evenCrank; norm_num) (by rw [herr]; unfold evenCrank; push_cast; linarith)
  have a4' := a4
  obtain ⟨n2, E2, e2, b2, r1, r2, r3, r4⟩ := a4
  have fol := even_follows even_demo rfl even_turns turnTol_sane
    (by norm_num [turnTol]) (fun n e h => h.1) hb hdec g1 h2 hn
  have r1' := on_mono_reach (G' := OnEvents evenEv AdvRange) (fun n E e h hg => by
    obtain ⟨-, k, hk, hat⟩ := fol n E e h
    exact ⟨hg.1, 31, (hg.2 _ hat.count (by omega)).2.1, by norm_num [AdvRange]⟩) r1
  have c3 := C76_even_wheel_partial (pin := 3) (j1 := 5) even_demo rfl even_turns turnTol_sane (by norm_num [turnTol]) hb hdec ha
    (timed_mono (fun n e h => h.2) h1) h2 hn r1' z2 z5 (fired_dead h4) z1 r3 r4
  obtain ⟨m, m1, m2⟩ := C86_even_once (pin := 3) (j1 := 5) (V := 31) (δ := 1) (adv := fun _ => 31) even_demo rfl (by norm_num) even_turns even_turning turnTol_sane
    (by norm_num [turnTol]) hroom (by norm_num) (fun _ => by norm_num) (by norm_num) hb hdec z2 z5 (by norm_num [abs_le]) (fun _ _ h => h) g1 h2 hn (.inr h4) z3 z1 r1 r3 r4
  obtain ⟨n4, E4, e4, b4, y1, y2, y3, y4⟩ := id a3
  obtain ⟨m4, -, y5⟩ := C101_coil_even (pin := 3) (j1 := 5) (V := 31) (δ := 1) (adv := fun _ => 31) even_demo rfl (by norm_num) even_turns even_turning turnTol_sane
    (by norm_num [turnTol]) hroom (by norm_num) (fun _ => by norm_num) (by norm_num) hb hdec z2 z5 (by norm_num [abs_le]) (fun _ _ h => h) g1 h2 hn (.inr h4) z3 z1 y1 y3 y4
  rw [z4] at a3 a4' m2 y5
  rw [e257] at a1 m1 m2 y5
  refine ⟨n1, E1, e1, n, E, e, s, t, h1, c1, ?_, h5, a1, a2, c3, a3, a4', n2, E2, e2, m, r1, m1, m2, n4, E4, e4, m4, y1, fun n3 E3 e3 y6 y7 => ?_⟩
  · rw [c2, even_demo_slot]
    norm_num
  · obtain ⟨t4, x6, x7, -, -, x8⟩ := (y5 n3 E3 e3 y6).2 (by
      have y9 : ((12000 : ℤ) : ℚ) ≤ ((n3 - s : ℤ) : ℚ) := by exact_mod_cast y7
      push_cast at y9
      rw [herr]
      push_cast
      linarith)
    exact ⟨t4, x6, x7, x8⟩

end Verif
