/-
C76: the whole property, why it is false, and a run that meets the hypotheses of the part that holds.
-/
import Verif.Proofs.LateRun

namespace Verif

/-- The whole of C76: with a missing-tooth wheel that turns at constant speed from the start, every spark is within ten
degrees of the commanded angle.  `n0` is the first tooth after a gap, which the decoder takes as the start of a cycle. -/
def C76_full : Prop :=
  ∀ (_ : FloatFmt) (Adv : ℚ → Prop) (offset A v g : ℚ) (N s R n0 : ℕ) (p a : ℤ) (d0 : Decoder) (e0 e : Engine) (n E t : ℤ)
    (i : Fin maxEvents) (pin : Fin 16) (b : Bool),
    EngBoot e0 → e0.cfg.decoder = decoderInit d0 → d0.type = .missingNosync → d0.offset = .fin offset →
    WheelSetup d0 N s R v g (fun j => p * wheelPos N s j + a) → FirstGap N s R n0 → CycleAngles e0 offset Adv →
    EngClock (OnWheel (fun j => p * wheelPos N s j + a) Adv) e0 n E e →
    (e0.cfg.events i).type = .ignition → (e0.cfg.events i).angle = .fin A →
    (∀ j, ((e0.cfg.events j).pin.setWidth 8).toNat = pin → j = i) →
    (if b = e.cur then E - 256 else E - 128) ≤ t → t < (if b = e.cur then E - 256 else E - 128) + 128 →
    Drives (e.buf b) (stamp t) pin (e0.cfg.events i).inverted →
    ∃ adv, Adv adv ∧ Near (g * (t - (p * wheelPos N s n0 + a)) / p) (A - adv + offset) 10

/-! ### A run -/

attribute [local instance] binary32


/-- One ignition output at `A` degrees, on pin 3. -/
def sparkEvents (A : ℚ) : Fin maxEvents → OEvent := fun i =>
  if i = 0 then dfltEvent .ignition A 3 else dfltEvent .disabled 0 0

theorem sparkEvents_unarmed (A : ℚ) : Unarmed (sparkEvents A) := by
  intro i w
  unfold sparkEvents
  split_ifs <;> cases w <;> rfl

/-- The advance is from 0 to 60 degrees. -/
def advOk : Fl → Bool
  | .fin q => decide (0 ≤ q ∧ q ≤ 60)
  | _ => false

/-- The advances of the run. -/
def AdvRange (a : ℚ) : Prop := 0 ≤ a ∧ a ≤ 60

theorem advOk_range {x : Fl} (h : advOk x = true) : ∃ adv, x = .fin adv ∧ AdvRange adv := by
  cases x with
  | fin q => exact ⟨q, rfl, of_decide_eq_true (p := 0 ≤ q ∧ q ≤ 60) h⟩
  | _ => cases h

def advSeen (e : Engine) : Bool := advOk e.vals.timingAdvance

theorem late_onWheel {n : ℤ} {e : Engine} (h : LateOk advSeen n e) : OnWheel lateTooth AdvRange n e := ⟨h.1, advOk_range h.2⟩

theorem late_setup : WheelSetup (demoDecoder .missingNosync) 4 0 2 (3/8) 90 (fun n => 15000 * wheelPos 4 0 n + 15000) := by
  refine ⟨⟨rfl, rfl, ?_, rfl, by norm_num, by norm_num, by norm_num, by norm_num, by norm_num⟩, by norm_num, demo_grid,
    constant_speed (by norm_num) (by norm_num) (by norm_num) (by norm_num) (by norm_num), ?_⟩
  · show (if Fl.feq (Fl.fin (3/8)) (Fl.fin 0) then _ else _) = _
    rw [if_neg (by simp [Fl.feq])]
    rfl
  · have : (stamp (15000 * ((wheelPos 4 0 0 : ℕ) : ℤ) + 15000) - (demoDecoder .missingNosync).times 0).toNat = 15000 := by
      decide +kernel
    show 16 * ((15000 * ((wheelPos 4 0 1 : ℕ) : ℤ) + 15000) - (15000 * ((wheelPos 4 0 0 : ℕ) : ℤ) + 15000)) ≤
      23 * (((stamp (15000 * ((wheelPos 4 0 0 : ℕ) : ℤ) + 15000) - (demoDecoder .missingNosync).times 0).toNat / 1 : ℕ) : ℤ)
    rw [this]
    decide

theorem onlyZero_angles {A : ℚ} {e : Engine} (h : onlyZero .ignition A e = true) (hA : |A| ≤ 720) : CycleAngles e 0 AdvRange := by
  unfold onlyZero at h
  rw [Bool.and_eq_true, decide_eq_true_eq, decide_eq_true_eq] at h
  refine ⟨fun i hi => ?_, by norm_num, fun a ha => ?_⟩
  · rcases h.1 i with rfl | h1
    · exact ⟨A, h.2.2.2.2, hA⟩
    · exact absurd h1.1 hi
  · rw [abs_le]; exact ⟨by linarith [ha.1], by linarith [ha.2]⟩

/-- C76 as a whole is false.  The decoder becomes valid on the tooth that synchronises it, but does not take over the time of
that tooth, so that the outputs scheduled then are timed from time zero (or from the last tooth before synchronisation was
lost).  Here the wheel turns at 4000 revolutions per minute and the output is to fire at 570 degrees less an advance of 31;
its spark comes 89 degrees after the tooth. -/
theorem C76_full_false : ¬ C76_full := by
  intro hf
  obtain ⟨m, b, c, e, m1, m2, m3, hc, hg, ha⟩ := late_four (x := advSeen) (fun _ _ _ => rfl) (sparkEvents_unarmed 570)
    (q := armedFor true (stamp 89833)) (by decide +kernel)
  have ho : onlyZero .ignition 570 (wheelEngine (sparkEvents 570)) = true := by decide +kernel
  have hb := wheelEngine_boot (sparkEvents_unarmed 570)
  have hmono : ∀ j < 4, lateTooth j ≤ 75000 := fun j hj => le_trans (lateTooth_mono (by omega : j ≤ 3)) (by decide)
  have t4 : lateTooth 4 = 90000 := by decide
  obtain ⟨n', e', h1, h2, -⟩ := armed_played (t := 89833) true hb .boot (runOf_clock _ _) (timed_clock hc) (by exact ha) ho 114 (by norm_num) (by norm_num) (by norm_num)
    (fun n x a1 a2 a3 a4 a5 => by
      have hx : givenIs advSeen 4 x = true := by
        unfold givenIs advSeen at hg ⊢
        rw [a3, a4]; exact hg
      have := givenIs_on (fun _ _ _ => rfl) (n := n) x.buf x.cur hx (fun j hj => le_trans (hmono j hj) (by omega)) (by omega)
      rw [Engine.on_self] at this
      exact this)
  replace h1 := clock_mono (fun n e => late_onWheel) h1
  rw [show lateTooth = fun j : ℕ => (15000 : ℤ) * wheelPos 4 0 j + 15000 from rfl] at h1
  generalize hEE : (75136 : ℤ) + 128 * (114 : ℕ) + 256 = EE at h1
  have ho' := ho
  unfold onlyZero at ho'
  rw [Bool.and_eq_true, decide_eq_true_eq, decide_eq_true_eq] at ho'
  obtain ⟨o1, o2, o3, o4, o5⟩ := ho'
  have hdec : (wheelEngine (sparkEvents 570)).cfg.decoder = decoderInit (demoDecoder .missingNosync) := rfl
  have hang := onlyZero_angles ho (by norm_num [abs_le])
  clear hc ho
  generalize wheelEngine (sparkEvents 570) = e0 at *
  obtain ⟨adv, ⟨q1, q2⟩, k, q3⟩ := hf binary32 AdvRange 0 570 (3/8) 90 4 0 2 3 15000 15000 (demoDecoder .missingNosync)
    e0 e' n' EE 89833 0 3 e'.cur hb hdec rfl rfl late_setup demo_gap hang h1 o2 o5
    (fun j hj => by
      rcases o1 j with h | h
      · exact h
      · exact absurd hj h.2) (by rw [if_pos rfl]; omega) (by rw [if_pos rfl]; omega) (by rw [o4]; exact h2)
  have hw : wheelPos 4 0 3 = 4 := by decide
  rw [hw] at q3
  rw [abs_le] at q3
  push_cast at q3
  obtain ⟨q4, q5⟩ := q3
  rcases le_or_gt 0 k with hk | hk
  · have : (0 : ℚ) ≤ k := by exact_mod_cast hk
    norm_num at q4
    linarith
  · have : (k : ℚ) ≤ -1 := by exact_mod_cast (by omega : k ≤ -1)
    norm_num at q5
    linarith

/-! ### The hypotheses of C76 are met -/

/-- The crank at 4000 revolutions per minute. -/
def lateCrank (t : ℤ) : ℚ := 90 * (t - 75000) / 15000

/-- The crank is known exactly; it turns 0.006 degrees in a tick. -/
def lateTol : CrankTol := ⟨0, 0, 0, 3 / 500⟩

/-- The decoder holds the values of tooth 4, at tick 90000. -/
def toothFour (e : Engine) : Bool :=
  decide (e.cfg.decoder.lastTriggerTime = stamp 90000 ∧ e.cfg.decoder.lastTriggerAngle = .fin 90 ∧
    e.cfg.decoder.toothRpm = 4000 ∧ e.cfg.decoder.offset = .fin 0) && advOk e.vals.timingAdvance

theorem toothFour_tracks {e : Engine} {n : ℤ} (h : toothFour e = true) (h1 : 90000 ≤ n) (h2 : n ≤ 200000) :
    Tracks lateCrank lateTol 0 AdvRange n e := by
  unfold toothFour at h
  rw [Bool.and_eq_true, decide_eq_true_eq] at h
  obtain ⟨⟨a1, a2, a3, a4⟩, a5⟩ := h
  refine fun _ => ⟨a4, ⟨90000, h1, by omega, a1, ⟨90, a2, by norm_num, by norm_num, 0, ?_⟩, 3 / 500, by norm_num, le_refl _, ?_, ?_⟩,
    ?_⟩
  · norm_num [lateCrank, lateTol]
  · rw [a3, show (4000 : BitVec 32).toNat = 4000 from rfl]
    norm_num [lateTol]
  · intro t _ _
    have : lateCrank t - lateCrank 90000 - 3 / 500 * (t - (90000 : ℤ)) = 0 := by
      unfold lateCrank
      push_cast
      ring
    rw [this]
    norm_num [lateTol]
  · exact advOk_range a5

/-- A run of the whole firmware against the clock: four teeth synchronise the decoder and arm nothing; after the fifth the
decoder knows the crank; the output at 208 degrees less 31 is armed and played at tick 104500. -/
theorem spark_run : ∃ (eb e0 e : Engine) (n E : ℤ), EngBoot eb ∧ EngReach (fun _ => True) eb e0 ∧
    CycleAngles e0 0 AdvRange ∧ EngClock (Tracks lateCrank lateTol 0 AdvRange) e0 n E e ∧
    (e0.cfg.events 0).type = .ignition ∧ (e0.cfg.events 0).angle = .fin 208 ∧ ¬ Live (e0.cfg.events 0).stop.state ∧
    (∀ j, ((e0.cfg.events j).pin.setWidth 8).toNat = 3 → j = 0) ∧ e.cfg.decoder.valid = true ∧
    E - 256 ≤ 104500 ∧ 104500 < E - 128 ∧ Drives (e.buf e.cur) (stamp 104500) 3 (e0.cfg.events 0).inverted := by
  obtain ⟨m, b, c, e4, m1, m2, m3, hc, hg, ha⟩ := late_four (x := advSeen) (fun _ _ _ => rfl) (sparkEvents_unarmed 208) (q := fun e4 => idleEng e4 &&
    (phaseOf advSeen 7 4 90112 e4).any fun e5 => idleEng e5 && toothFour e5 && onlyZero .ignition 208 e5 && e5.cfg.decoder.valid &&
    (runG toothFour (e5.on (endingAt 90112) false) (List.replicate 22 (.work (stamp 90020)))).any fun e6 =>
      armedFor true (stamp 104500) e6 && toothFour e6 && e6.cfg.decoder.valid) (by decide +kernel)
  rw [Bool.and_eq_true] at ha
  obtain ⟨e5, p5, ha5⟩ := any_some ha.2
  simp only [Bool.and_eq_true] at ha5
  obtain ⟨⟨⟨⟨i5, f5⟩, o5⟩, v5⟩, ha5⟩ := ha5
  obtain ⟨e6, p6, ha6⟩ := any_some ha5
  simp only [Bool.and_eq_true] at ha6
  obtain ⟨⟨r6, f6⟩, v6⟩ := ha6
  have hb := wheelEngine_boot (sparkEvents_unarmed 208)
  have t4 : lateTooth 4 = 90000 := by decide
  have t3 : lateTooth 3 = 75000 := by decide
  obtain ⟨n5, b5, c5, a1, a2, a3, a4, -⟩ := phase_clock (fun _ _ _ => rfl) (k := 4) (K := 117) hb hc ha.1 hg
    (fun j hj => le_trans (lateTooth_mono (by omega : j ≤ 3)) (by omega)) (by omega) (by omega) (by omega) (by omega) p5
  obtain ⟨rr, ci, -⟩ := clock_reach hb .boot (timed_clock a4)
  have i5' := of_decide_eq_true i5
  have k1 : EngClock (Tracks lateCrank lateTol 0 AdvRange) (e5.on b5 c5) n5 90112 (e5.on b5 c5) :=
    .boot ci.early (by omega) (by omega) (toothFour_tracks (by exact f5) (by omega) (by omega))
  have hx : (e5.on (endingAt 90112) false).on b5 c5 = e5.on b5 c5 := rfl
  obtain ⟨n6, x1, x2, x3, -⟩ := clock_run (runOf_clock _ _) (n' := 90020) (e := e5.on (endingAt 90112) false) (by rw [hx]; exact k1)
    (by rw [hx, ci.early, endingAt_earliest]; rfl) (by omega) (by norm_num)
    (fun x hx => toothFour_tracks (by exact hx) (by norm_num) (by norm_num)) p6
  obtain ⟨n', e', h1, h2, h3⟩ := armed_played (t := 104500) true hb rr (runOf_clock _ _) x3 (by exact r6) (by exact o5) 112 (by norm_num) (by norm_num)
    (by norm_num) (fun n x y1 y2 y3 y4 y5 => by
      refine toothFour_tracks ?_ (by omega) (by omega)
      unfold toothFour at f6 ⊢
      rw [y4, y5]
      exact f6)
  have o5' := o5
  unfold onlyZero at o5'
  rw [Bool.and_eq_true, decide_eq_true_eq, decide_eq_true_eq] at o5'
  obtain ⟨z1, z2, -, z4, z5⟩ := o5'
  refine ⟨_, _, e', n', _, hb, rr, onlyZero_angles (by exact o5) (by norm_num [abs_le]), h1, z2, z5, ?_, ?_, ?_, by norm_num,
    by norm_num, ?_⟩
  · show ¬ Live (e5.cfg.events 0).stop.state
    rw [show (e5.cfg.events 0).stop.state = .unscheduled from i5' 0 true]
    rintro (h | h) <;> cases h
  · intro j hj
    rcases z1 j with h | h
    · exact h
    · exact absurd hj h.2
  · rw [h3]; exact v6
  · rw [show ((e5.on b5 c5).cfg.events 0).inverted = false from z4]
    exact h2

/-- C76 applied to that run: at tick 104500 the crank is at 208 degrees less an advance from 0 to 60. -/
example : ∃ adv, AdvRange adv ∧ Near (lateCrank 104500) (208 - adv + 0) lateTol.error := by
  obtain ⟨eb, e0, e, n, E, h1, h2, h3, h4, h5, h6, h7, h8, -, h9, h10, h11⟩ := spark_run
  exact C76_spark_partial (i := 0) (p := 3) (b := e.cur) ⟨by norm_num [lateTol], by norm_num [lateTol], by norm_num [lateTol],
    by norm_num [lateTol], by norm_num [lateTol]⟩ h1 h2 h3 h4 h5 h6 h7 h8 (by rw [if_pos rfl]; exact h9)
    (by rw [if_pos rfl]; omega) h11

end Verif
