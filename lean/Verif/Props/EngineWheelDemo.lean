/-
A run that meets the hypotheses of C66_engine_partial, C76_wheel_partial and C79_wheel_partial.
-/
import Verif.Props.EngineWheel
import Verif.Props.InjectionFull

namespace Verif

attribute [local instance] binary32

/-- The handler has decoded the fifth tooth. -/
def fiveDecoded (e : Engine) : Bool :=
  (match e.pc with
    | .record _ _ => false
    | _ => true) && decide (e.given.length = 5)

theorem fiveDecoded_decoded {e : Engine} (h : fiveDecoded e = true) : Decoded 5 e := by
  unfold fiveDecoded at h
  rw [Bool.and_eq_true, decide_eq_true_eq] at h
  refine ⟨fun i t hp => ?_, fun _ => h.2⟩
  rw [hp] at h
  cases h.1

/-- Five teeth, the last up to the decoding, and the rest of its handling, which arms output 0 for tick `t`. -/
def fiveOk (x : Engine → Bool) (evs : Fin maxEvents → OEvent) (t : ℤ) : Bool :=
  lateOk x evs fun e4 => idleEng e4 && (phaseOf x 7 4 90112 e4).any fun e5 => idleEng e5 && fiveDecoded e5 &&
    (runG (givenIs x 5) (e5.on (endingAt 90112) false) (List.replicate 22 (.work (stamp 90020)))).any fun e6 =>
      armedFor true (stamp t) e6

/-- A run of the whole firmware against the clock and the wheel: after the fifth tooth the output is armed; the edge at tick
`t` is played. -/
theorem wheel_run {x : Engine → Bool} {evs : Fin maxEvents → OEvent} {t : ℤ} {ty : EvType} {A : ℚ} (bl : Blind x)
    (hx : ∀ e e' : Engine, e'.vals = e.vals → e'.cfg.decoder = e.cfg.decoder → x e' = x e) (hu : Unarmed evs)
    (h : fiveOk x evs t = true) (ho : onlyZero ty A (wheelEngine evs) = true) (t1 : 104448 ≤ t) (t2 : t < 104576) :
    ∃ n1 E1 e1 n E e, EngTimed Honest (LateOk x) (wheelEngine evs) n1 E1 e1 ∧ Decoded 5 e1 ∧ idleEng e1 = true ∧
      EngOn Honest (LateOk x) n1 E1 e1 n E e ∧ InBuffer E e e.cur t ∧ Drives (e.buf e.cur) (stamp t) 3 false := by
  obtain ⟨m, b, c, e4, m1, m2, m3, hc, hg, ha⟩ := late_four bl hu h
  rw [Bool.and_eq_true] at ha
  obtain ⟨e5, p5, ha5⟩ := any_some ha.2
  simp only [Bool.and_eq_true] at ha5
  obtain ⟨⟨i5, f5⟩, ha5⟩ := ha5
  obtain ⟨e6, p6, r6⟩ := any_some ha5
  have hb := wheelEngine_boot hu
  have t5 : lateTooth 5 = 105000 := by decide
  have t4 : lateTooth 4 = 90000 := by decide
  have t3 : lateTooth 3 = 75000 := by decide
  obtain ⟨n5, b5, c5, a1, a2, a3, a4, -⟩ := phase_clock bl (k := 4) (K := 117) hb hc ha.1 hg
    (fun j hj => le_trans (lateTooth_mono (by omega : j ≤ 3)) (by omega)) (by omega) (by omega) (by omega) (by omega) p5
  obtain ⟨rr, ci, -⟩ := clock_reach hb .boot (timed_clock a4)
  have hx5 : (e5.on (endingAt 90112) false).on b5 c5 = e5.on b5 c5 := rfl
  have hmono : ∀ n, 90010 ≤ n → ∀ j < 5, lateTooth j ≤ n := fun n hn j hj => le_trans (lateTooth_mono (by omega : j ≤ 4)) (by omega)
  obtain ⟨n6, x1, x2, x3, -⟩ := clock_run (runOf_on a4) (n' := 90020) (e := e5.on (endingAt 90112) false) (by rw [hx5]; exact .refl)
    (by rw [hx5, ci.early, endingAt_earliest]; rfl) (by omega) (by norm_num)
    (fun y hy => givenIs_on bl b5 c5 hy (hmono _ (by norm_num)) (by omega)) p6
  have h6 : givenIs x 5 e6 = true := by
    rcases runG_last p6 with ⟨h, -⟩ | h
    · cases h
    · exact h
  obtain ⟨n', e', h1, h2, -⟩ := armed_played true hb .boot (runOf_on a4) x3 (by exact r6) ho 112 (by norm_num) (by omega)
    (by omega) (fun n y y1 y2 y3 y4 y5 => by
      have hy : givenIs x 5 y = true := by
        unfold givenIs at h6 ⊢
        rw [y3, hx _ _ y4 y5, bl]
        exact h6
      have := givenIs_on bl (n := n) y.buf y.cur hy (fun j hj => le_trans (lateTooth_mono (by omega : j ≤ 4)) (by omega)) (by omega)
      rw [Engine.on_self] at this
      exact this)
  exact ⟨n5, _, _, n', _, e', a4, fiveDecoded_decoded (by exact f5), i5, h1, ⟨by rw [if_pos rfl]; omega, by rw [if_pos rfl]; omega⟩, h2⟩

theorem late_step (n : ℕ) : lateTooth (n + 1) = lateTooth n + 15000 * ((wheelPos 4 0 (n + 1) : ℤ) - wheelPos 4 0 n) ∧
    1 ≤ (wheelPos 4 0 (n + 1) : ℤ) - wheelPos 4 0 n ∧ (wheelPos 4 0 (n + 1) : ℤ) - wheelPos 4 0 n ≤ 2 := by
  refine ⟨by unfold lateTooth; ring, ?_⟩
  rcases wheel_step (N := 4) (s := 0) (n := n) (by norm_num) with ⟨-, -, e⟩ | ⟨-, -, e⟩ <;> rw [e] <;> push_cast <;> omega

/-- The wheel of the run, at 4000 revolutions per minute. -/
theorem late_run_setup : RunSetup (demoDecoder .missingNosync) 4 0 2 (3/8) 90 15000 15300 lateTooth := by
  refine ⟨⟨late_setup, by norm_num, fun n => ?_, ⟨fun n => ?_, fun n => ?_⟩, by norm_num, by norm_num⟩, fun n => ?_⟩ <;>
  · have := late_step n
    omega

/-- The crank is known to half a percent; it turns 0.006 degrees in a tick. -/
def turnTol : CrankTol := ⟨1 / 200, 0, 0, 3 / 500⟩

theorem turnTol_sane : turnTol.Sane :=
  ⟨by norm_num [turnTol], by norm_num [turnTol], by norm_num [turnTol], by norm_num [turnTol], by norm_num [turnTol]⟩

theorem late_turns : CrankTurns lateCrank turnTol (wheelPos 4 0) 3 90 lateTooth := by
  have hstep : ∀ j, 3 < j → ((lateTooth j : ℚ) - lateTooth (j - 1) = 15000 * ((wheelPos 4 0 j : ℚ) - wheelPos 4 0 (j - 1))) ∧
      0 ≤ (wheelPos 4 0 j : ℚ) - wheelPos 4 0 (j - 1) := by
    intro j hj
    obtain ⟨m, rfl⟩ : ∃ m, j = m + 1 := ⟨j - 1, by omega⟩
    obtain ⟨h1, h2, -⟩ := late_step m
    rw [Nat.add_sub_cancel]
    refine ⟨?_, ?_⟩
    · rw [h1]; push_cast; ring
    · have h3 : wheelPos 4 0 m ≤ wheelPos 4 0 (m + 1) := by omega
      have : (wheelPos 4 0 m : ℚ) ≤ wheelPos 4 0 (m + 1) := by exact_mod_cast h3
      linarith
  have hw : wheelPos 4 0 3 = 4 := by decide
  refine ⟨fun j hj => ?_, fun j hj => ⟨3 / 500, by norm_num, le_refl _, fun t _ _ => ?_, ?_⟩, fun j hj => ?_, fun j hj => ?_⟩
  · have : lateCrank (lateTooth j) - 90 * ((wheelPos 4 0 j : ℚ) - wheelPos 4 0 3) = 0 := by
      unfold lateCrank lateTooth
      rw [hw]
      push_cast
      ring
    rw [this]
    norm_num [turnTol]
  · have : lateCrank t - lateCrank (lateTooth j) - 3 / 500 * (t - lateTooth j) = 0 := by
      unfold lateCrank
      ring
    rw [this]
    norm_num [turnTol]
  · obtain ⟨h1, h2⟩ := hstep j hj
    rw [h1]
    have : 3 / 500 * (15000 * ((wheelPos 4 0 j : ℚ) - wheelPos 4 0 (j - 1))) - 90 * ((wheelPos 4 0 j : ℚ) - wheelPos 4 0 (j - 1)) = 0 := by
      ring
    rw [this, abs_zero]
    have h3 : turnTol.speed = 1 / 200 := rfl
    rw [h3]
    positivity
  · obtain ⟨h1, h2⟩ := hstep j hj
    have h3 : turnTol.speed = 1 / 200 := rfl
    rw [h1, h3]
    linarith
  · obtain ⟨h1, h2⟩ := hstep j hj
    rw [h1]
    linarith

theorem sparkEvents_zero {A : ℚ} {ty : EvType} {e : Engine} (h : onlyZero ty A e = true) :
    (∀ j, ((e.cfg.events j).pin.setWidth 8).toNat = ((3 : Fin 16) : ℕ) → j = 0) ∧ (e.cfg.events 0).type = ty ∧
      ((e.cfg.events 0).pin.setWidth 8).toNat = ((3 : Fin 16) : ℕ) ∧
      (e.cfg.events 0).inverted = false ∧ (e.cfg.events 0).angle = .fin A := by
  unfold onlyZero at h
  rw [Bool.and_eq_true, decide_eq_true_eq, decide_eq_true_eq] at h
  obtain ⟨z1, z2⟩ := h
  refine ⟨fun j hj => ?_, z2⟩
  rcases z1 j with h | h
  · exact h
  · exact absurd hj h.2

/-- C76 applied to the run: at tick 104500 the crank is at 208 degrees less an advance from 0 to 60. -/
example : ∃ adv, AdvRange adv ∧ Near (lateCrank 104500) (208 - adv + 0) turnTol.error := by
  have ho : onlyZero .ignition 208 (wheelEngine (sparkEvents 208)) = true := by decide +kernel
  obtain ⟨n1, E1, e1, n, E, e, h1, h2, h3, h4, h5, h6⟩ := wheel_run (x := advSeen) (evs := sparkEvents 208) (t := 104500)
    (fun _ _ _ => rfl) (fun e e' h _ => by unfold advSeen; rw [h]) (sparkEvents_unarmed 208) (by decide +kernel) ho (by norm_num)
    (by norm_num)
  obtain ⟨z1, z2, -, z4, z5⟩ := sparkEvents_zero ho
  have ha := onlyZero_angles ho (by norm_num [abs_le])
  have hb := wheelEngine_boot (sparkEvents_unarmed 208)
  have hdec : (wheelEngine (sparkEvents 208)).cfg.decoder = decoderInit (demoDecoder .missingNosync) := rfl
  have hq : ¬ Live (e1.cfg.events 0).stop.state := by
    rw [show (e1.cfg.events 0).stop.state = .unscheduled from of_decide_eq_true h3 0 true]
    rintro (h | h) <;> cases h
  generalize wheelEngine (sparkEvents 208) = e0 at *
  exact C76_wheel_partial (pin := 3) late_run_setup rfl demo_gap rfl late_turns turnTol_sane (by norm_num [turnTol]) hb hdec ha
    (timed_mono (fun n e => late_onWheel) h1) h2 (by norm_num) (on_mono (fun n e => late_onWheel) h4) z2 z5 hq z1 h5 (by rw [z4]; exact h6)

/-- C79 applied to a run with an injector at 177 degrees, which closes at tick 104500. -/
example : Near (lateCrank 104500) (177 + 0) turnTol.error := by
  have ho : onlyZero .fuel 177 (wheelEngine (fuelEvents 177)) = true := by decide +kernel
  obtain ⟨n1, E1, e1, n, E, e, h1, h2, h3, h4, h5, h6⟩ := wheel_run (x := fuelSeen) (evs := fuelEvents 177) (t := 104500)
    (fun _ _ _ => rfl) (fun e e' h h' => by unfold fuelSeen; rw [h, h']) (fuelEvents_unarmed 177) (by decide +kernel) ho (by norm_num)
    (by norm_num)
  obtain ⟨z1, z2, z3, z4, z5⟩ := sparkEvents_zero ho
  have hb := wheelEngine_boot (fuelEvents_unarmed 177)
  have hdec : (wheelEngine (fuelEvents 177)).cfg.decoder = decoderInit (demoDecoder .missingNosync) := rfl
  have hq : eventIsUnscheduled (e1.cfg.events 0) = true := by
    unfold eventIsUnscheduled
    rw [Bool.and_eq_true, decide_eq_true_eq, decide_eq_true_eq]
    exact ⟨of_decide_eq_true h3 0 false, of_decide_eq_true h3 0 true⟩
  generalize wheelEngine (fuelEvents 177) = e0 at *
  have hG : ∀ n e, LateOk fuelSeen n e → FuelOnWheel lateTooth 3285 n e := fun n e h => ⟨h.1, fuelSeen_eq h.2⟩
  exact (C79_wheel_partial (pin := 3) late_run_setup rfl demo_gap rfl (by norm_num) late_turns turnTol_sane (by norm_num [turnTol])
    (by decide) hb hdec (timed_mono hG h1) h2 (by norm_num) (on_mono hG h4) z2 z5 (by norm_num [abs_le]) (.inl hq) z3 z1 h5
    (by rw [z4]; exact h6)).1

/-- C66 applied to the run: after the fifth tooth the decoder is valid and reports 90 degrees. -/
example : ∃ n E e, EngTimed Honest (LateOk advSeen) (wheelEngine (sparkEvents 208)) n E e ∧ Decoded 5 e ∧
    e.cfg.decoder.valid = true ∧ e.cfg.decoder.lastTriggerAngle = .fin 90 := by
  have ho : onlyZero .ignition 208 (wheelEngine (sparkEvents 208)) = true := by decide +kernel
  obtain ⟨n1, E1, e1, n, E, e, h1, h2, h3, h4, h5, h6⟩ := wheel_run (x := advSeen) (evs := sparkEvents 208) (t := 104500)
    (fun _ _ _ => rfl) (fun e e' h _ => by unfold advSeen; rw [h]) (sparkEvents_unarmed 208) (by decide +kernel) ho (by norm_num)
    (by norm_num)
  have hb := wheelEngine_boot (sparkEvents_unarmed 208)
  have hdec : (wheelEngine (sparkEvents 208)).cfg.decoder = decoderInit (demoDecoder .missingNosync) := rfl
  generalize wheelEngine (sparkEvents 208) = e0 at *
  obtain ⟨c1, c2⟩ := C66_engine_partial late_run_setup rfl demo_gap (fun n e h => h.1) hb hdec h1 (j := 4) h2 (by norm_num)
  refine ⟨n1, E1, e1, h1, h2, c1, ?_⟩
  rw [c2]
  have : (wheelPos 4 0 4 - wheelPos 4 0 3) % (2 * 4) = 1 := by decide
  rw [this]
  norm_num

end Verif
