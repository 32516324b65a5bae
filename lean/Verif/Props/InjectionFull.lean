/-
C79: the whole property, why it is false, and a run that meets the hypotheses of the part that holds.
-/
import Verif.Props.Injection
import Verif.Props.SparkFull

namespace Verif

/-- The whole of C79 for a constant command: with a missing-tooth wheel that turns at constant speed from the start, every
injection ends within ten degrees of the commanded angle and began the commanded time before.  `n0` is the first tooth after
a gap, which the decoder takes as the start of a cycle. -/
def C79_full : Prop :=
  ∀ (_ : FloatFmt) (offset A v g : ℚ) (N s R n0 : ℕ) (p a : ℤ) (d0 : Decoder) (e0 e : Engine) (n E t : ℤ) (fu : BitVec 32)
    (i : Fin maxEvents) (pin : Fin 16) (b : Bool),
    EngBoot e0 → e0.cfg.decoder = decoderInit d0 → d0.type = .missingNosync → d0.offset = .fin offset → |offset| ≤ 720 →
    WheelSetup d0 N s R v g (fun j => p * wheelPos N s j + a) → FirstGap N s R n0 → fu.toNat < 2 ^ 28 →
    EngClock (FuelOnWheel (fun j => p * wheelPos N s j + a) fu) e0 n E e →
    (e0.cfg.events i).type = .fuel → (e0.cfg.events i).angle = .fin A → |A| ≤ 720 →
    ((e0.cfg.events i).pin.setWidth 8).toNat = pin → (∀ j, ((e0.cfg.events j).pin.setWidth 8).toNat = pin → j = i) →
    InBuffer E e b t → Drives (e.buf b) (stamp t) pin (e0.cfg.events i).inverted →
    Near (g * (t - (p * wheelPos N s n0 + a)) / p) (A + offset) 10 ∧
      DrivenBy (FuelOnWheel (fun j => p * wheelPos N s j + a) fu) e0 n E e pin (!(e0.cfg.events i).inverted) (t - 4 * fu.toNat)

/-! ### A run -/

attribute [local instance] binary32

/-- One injector at `A` degrees, on pin 3. -/
def fuelEvents (A : ℚ) : Fin maxEvents → OEvent := fun i =>
  if i = 0 then dfltEvent .fuel A 3 else dfltEvent .disabled 0 0

theorem fuelEvents_unarmed (A : ℚ) : Unarmed (fuelEvents A) := by
  intro i w
  unfold fuelEvents
  split_ifs <;> cases w <;> rfl

/-- While the decoder is valid the fuel pulse is 3285 microseconds long. -/
def fuelSeen (e : Engine) : Bool := !e.cfg.decoder.valid || decide (e.vals.fuelingUs = 3285)

theorem fuelSeen_eq {e : Engine} (h : fuelSeen e = true) (hv : e.cfg.decoder.valid = true) : e.vals.fuelingUs = 3285 := by
  unfold fuelSeen at h
  rw [hv] at h
  exact of_decide_eq_true (p := e.vals.fuelingUs = 3285) (by simpa using h)

/-- C79 as a whole is false, for the reason that C76 is: the injection scheduled on the tooth that synchronises the decoder
is timed from time zero.  Here the wheel turns at 4000 revolutions per minute and the injection is to end at 539 degrees; it
ends 89 degrees after the tooth. -/
theorem C79_full_false : ¬ C79_full := by
  intro hf
  obtain ⟨m, b, c, e, m1, m2, m3, hc, hg, ha⟩ := late_four (x := fuelSeen) (fun _ _ _ => rfl) (fuelEvents_unarmed 539)
    (q := armedFor true (stamp 89833)) (by decide +kernel)
  have ho : onlyZero .fuel 539 (wheelEngine (fuelEvents 539)) = true := by decide +kernel
  have hb := wheelEngine_boot (fuelEvents_unarmed 539)
  have hmono : ∀ j < 4, lateTooth j ≤ 75000 := fun j hj => le_trans (lateTooth_mono (by omega : j ≤ 3)) (by decide)
  have t4 : lateTooth 4 = 90000 := by decide
  obtain ⟨n', e', h1, h2, -⟩ := armed_played (t := 89833) true hb .boot (runOf_clock _ _) (timed_clock hc) (by exact ha) ho 114 (by norm_num) (by norm_num)
    (by norm_num) (fun n x a1 a2 a3 a4 a5 => by
      have hx : givenIs fuelSeen 4 x = true := by
        unfold givenIs fuelSeen at hg ⊢
        rw [a3, a4, a5]; exact hg
      have := givenIs_on (fun _ _ _ => rfl) (n := n) x.buf x.cur hx (fun j hj => le_trans (hmono j hj) (by omega)) (by omega)
      rw [Engine.on_self] at this
      exact this)
  replace h1 := clock_mono (G' := FuelOnWheel lateTooth 3285) (fun n e h => ⟨h.1, fuelSeen_eq h.2⟩) h1
  rw [show lateTooth = fun j : ℕ => (15000 : ℤ) * wheelPos 4 0 j + 15000 from rfl] at h1
  generalize hEE : (75136 : ℤ) + 128 * (114 : ℕ) + 256 = EE at h1
  have ho' := ho
  unfold onlyZero at ho'
  rw [Bool.and_eq_true, decide_eq_true_eq, decide_eq_true_eq] at ho'
  obtain ⟨o1, o2, o3, o4, o5⟩ := ho'
  have hdec : (wheelEngine (fuelEvents 539)).cfg.decoder = decoderInit (demoDecoder .missingNosync) := rfl
  clear hc ho
  generalize wheelEngine (fuelEvents 539) = e0 at *
  obtain ⟨⟨k, q3⟩, -⟩ := hf binary32 0 539 (3/8) 90 4 0 2 3 15000 15000 (demoDecoder .missingNosync)
    e0 e' n' EE 89833 3285 0 3 e'.cur hb hdec rfl rfl (by norm_num) late_setup demo_gap (by decide) h1 o2 o5
    (by norm_num [abs_le]) o3
    (fun j hj => by
      rcases o1 j with h | h
      · exact h
      · exact absurd hj h.2) ⟨by rw [if_pos rfl]; omega, by rw [if_pos rfl]; omega⟩ (by rw [o4]; exact h2)
  have hw : wheelPos 4 0 3 = 4 := by decide
  rw [hw] at q3
  rw [abs_le] at q3
  push_cast at q3
  obtain ⟨q4, q5⟩ := q3
  rcases le_or_gt 0 k with hk | hk
  · have : (0 : ℚ) ≤ k := by exact_mod_cast hk
    norm_num at q4
    linarith
  · have : (k : ℚ) ≤ -1 := by exact_mod_cast (by omega : k ≤ -1)
    norm_num at q5
    linarith

/-! ### The hypotheses of C79 are met -/

/-- The decoder holds the values of tooth 4, at tick 90000, and the fuel pulse is 3285 microseconds long. -/
def fuelFour (e : Engine) : Bool := toothFour e && decide (e.vals.fuelingUs = 3285)

theorem fuelFour_tracks {e : Engine} {n : ℤ} (h : fuelFour e = true) (h1 : 90000 ≤ n) (h2 : n ≤ 200000) :
    FuelTracks lateCrank lateTol 0 (· = 3285) n e := by
  unfold fuelFour at h
  rw [Bool.and_eq_true, decide_eq_true_eq] at h
  intro hv
  obtain ⟨a1, a2, -⟩ := toothFour_tracks h.1 h1 h2 hv
  exact ⟨a1, a2, h.2⟩

/-- A run of the whole firmware against the clock: four teeth synchronise the decoder and arm nothing; after the fifth the
decoder knows the crank; the injector at 208 degrees is opened at tick 96526 and closed at tick 109666.  `w` chooses the
edge. -/
theorem fuel_run_demo (w : Bool) : ∃ (eb e0 e : Engine) (n E t : ℤ), EngBoot eb ∧ EngReach (fun _ => True) eb e0 ∧
    EngClock (FuelTracks lateCrank lateTol 0 (· = 3285)) e0 n E e ∧
    (e0.cfg.events 0).type = .fuel ∧ (e0.cfg.events 0).angle = .fin 208 ∧ eventIsUnscheduled (e0.cfg.events 0) = true ∧
    ((e0.cfg.events 0).pin.setWidth 8).toNat = 3 ∧ (∀ j, ((e0.cfg.events j).pin.setWidth 8).toNat = 3 → j = 0) ∧
    (e0.cfg.events 0).inverted = false ∧ e.cfg.decoder.valid = true ∧ t = (if w then 109666 else 96526) ∧
    InBuffer E e e.cur t ∧ Drives (e.buf e.cur) (stamp t) 3 (!w) := by
  obtain ⟨m, b, c, e4, m1, m2, m3, hc, hg, ha⟩ := late_four (x := fuelSeen) (fun _ _ _ => rfl) (fuelEvents_unarmed 208)
    (q := fun e4 => idleEng e4 &&
    (phaseOf fuelSeen 7 4 90112 e4).any fun e5 => idleEng e5 && fuelFour e5 && onlyZero .fuel 208 e5 && e5.cfg.decoder.valid &&
    (runG fuelFour (e5.on (endingAt 90112) false) (List.replicate 22 (.work (stamp 90020)))).any fun e6 =>
      armedFor false (stamp 96526) e6 && armedFor true (stamp 109666) e6 && fuelFour e6 && e6.cfg.decoder.valid) (by decide +kernel)
  rw [Bool.and_eq_true] at ha
  obtain ⟨e5, p5, ha5⟩ := any_some ha.2
  simp only [Bool.and_eq_true] at ha5
  obtain ⟨⟨⟨⟨i5, f5⟩, o5⟩, v5⟩, ha5⟩ := ha5
  obtain ⟨e6, p6, ha6⟩ := any_some ha5
  simp only [Bool.and_eq_true] at ha6
  obtain ⟨⟨⟨r6, r6'⟩, f6⟩, v6⟩ := ha6
  have hb := wheelEngine_boot (fuelEvents_unarmed 208)
  have t4 : lateTooth 4 = 90000 := by decide
  have t3 : lateTooth 3 = 75000 := by decide
  obtain ⟨n5, b5, c5, a1, a2, a3, a4, -⟩ := phase_clock (fun _ _ _ => rfl) (k := 4) (K := 117) hb hc ha.1 hg
    (fun j hj => le_trans (lateTooth_mono (by omega : j ≤ 3)) (by omega)) (by omega) (by omega) (by omega) (by omega) p5
  obtain ⟨rr, ci, -⟩ := clock_reach hb .boot (timed_clock a4)
  have i5' := of_decide_eq_true i5
  have k1 : EngClock (FuelTracks lateCrank lateTol 0 (· = 3285)) (e5.on b5 c5) n5 90112 (e5.on b5 c5) :=
    .boot ci.early (by omega) (by omega) (fuelFour_tracks (by exact f5) (by omega) (by omega))
  have hx : (e5.on (endingAt 90112) false).on b5 c5 = e5.on b5 c5 := rfl
  obtain ⟨n6, x1, x2, x3, -⟩ := clock_run (runOf_clock _ _) (n' := 90020) (e := e5.on (endingAt 90112) false) (by rw [hx]; exact k1)
    (by rw [hx, ci.early, endingAt_earliest]; rfl) (by omega) (by norm_num)
    (fun x hx => fuelFour_tracks (by exact hx) (by norm_num) (by norm_num)) p6
  have hG : ∀ K : ℕ, 90112 + 128 * (K : ℤ) ≤ 200000 → ∀ m (x : Engine), n6 ≤ m → m ≤ max n6 (90112 + 128 * (K : ℤ)) →
      x.given = (e6.on b5 c5).given → x.vals = (e6.on b5 c5).vals → x.cfg.decoder = (e6.on b5 c5).cfg.decoder →
      FuelTracks lateCrank lateTol 0 (· = 3285) m x := by
    intro K hK m x y1 y2 y3 y4 y5
    refine fuelFour_tracks ?_ (by omega) (by omega)
    unfold fuelFour toothFour at f6 ⊢
    rw [y4, y5]
    exact f6
  have o5' := o5
  unfold onlyZero at o5'
  rw [Bool.and_eq_true, decide_eq_true_eq, decide_eq_true_eq] at o5'
  obtain ⟨z1, z2, z3, z4, z5⟩ := o5'
  have hun : eventIsUnscheduled ((e5.on b5 c5).cfg.events 0) = true := by
    unfold eventIsUnscheduled
    rw [Bool.and_eq_true, decide_eq_true_eq, decide_eq_true_eq]
    exact ⟨i5' 0 false, i5' 0 true⟩
  have honly : ∀ j, (((e5.on b5 c5).cfg.events j).pin.setWidth 8).toNat = 3 → j = 0 := by
    intro j hj
    rcases z1 j with h | h
    · exact h
    · exact absurd hj h.2
  cases w with
  | true =>
      obtain ⟨n', e', h1, h2, h3⟩ := armed_played (t := 109666) true hb rr (runOf_clock _ _) x3 (by exact r6') (by exact o5) 152 (by norm_num)
        (by norm_num) (by norm_num) (hG 152 (by norm_num))
      exact ⟨_, _, e', n', _, _, hb, rr, h1, z2, z5, hun, z3, honly, z4, by rw [h3]; exact v6, rfl,
        ⟨by rw [if_pos rfl]; norm_num, by rw [if_pos rfl]; norm_num⟩, h2⟩
  | false =>
      obtain ⟨n', e', h1, h2, h3⟩ := armed_played (t := 96526) false hb rr (runOf_clock _ _) x3 (by exact r6) (by exact o5) 50 (by norm_num)
        (by norm_num) (by norm_num) (hG 50 (by norm_num))
      exact ⟨_, _, e', n', _, _, hb, rr, h1, z2, z5, hun, z3, honly, z4, by rw [h3]; exact v6, rfl,
        ⟨by rw [if_pos rfl]; norm_num, by rw [if_pos rfl]; norm_num⟩, h2⟩

theorem lateTol_sane : lateTol.Sane :=
  ⟨by norm_num [lateTol], by norm_num [lateTol], by norm_num [lateTol], by norm_num [lateTol], by norm_num [lateTol]⟩

/-- C79 applied to that run: the injector is opened 3285 microseconds before the crank is at 208 degrees. -/
example : ∃ fu : BitVec 32, fu = 3285 ∧ Near (lateCrank (96526 + 4 * fu.toNat)) (208 + 0) lateTol.error := by
  obtain ⟨eb, e0, e, n, E, t, h1, h2, h3, h4, h5, h6, h7, h8, h9, -, rfl, h10, h11⟩ := fuel_run_demo false
  exact C79_start_partial (Fu := (· = 3285)) lateTol_sane (by rintro f rfl; decide) h1 h2 (by norm_num) h3 h4 h5
    (by norm_num [abs_le]) (.inl h6) (p := 3) h7 h8 h10 (by rw [h9]; exact h11)

/-- The injector is closed when the crank is at 208 degrees, 13140 ticks after it was opened. -/
example : ∃ (e0 e : Engine) (n E : ℤ), Near (lateCrank 109666) (208 + 0) lateTol.error ∧
    DrivenBy (FuelTracks lateCrank lateTol 0 (· = 3285)) e0 n E e 3 true (109666 - 4 * (3285 : BitVec 32).toNat) := by
  obtain ⟨eb, e0, e, n, E, t, h1, h2, h3, h4, h5, h6, h7, h8, h9, -, rfl, h10, h11⟩ := fuel_run_demo true
  have := C79_constant_partial lateTol_sane (by decide) h1 h2 (by norm_num) h3 h4 h5
    (by norm_num [abs_le]) (.inl h6) (p := 3) h7 h8 h10 (by rw [h9]; exact h11)
  rw [h9] at this
  exact ⟨e0, e, n, E, this⟩

end Verif
