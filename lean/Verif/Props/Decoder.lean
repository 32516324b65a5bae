/-
C38, C39, C43, C44: the decoder in every history.
-/
import Verif.Spec.Decoder
import Verif.Proofs.Decoder

namespace Verif

variable [FloatFmt]
open FloatFmt

/-- What every decode step guarantees about the valid flag and the counters. -/
structure StepFacts (d : Decoder) (o : DecOut) : Prop where
  sound : (d.valid = true → d.state = .sync) → o.d.valid = true → o.d.state = .sync
  drop : (d.valid = true → d.state = .sync) → d.valid = true → o.d.valid = false → o.lost = true
  clear : o.lost = true → o.d.valid = false ∧ o.d.state = .nosync ∧ o.d.currentTriggersRpm = 0 ∧
    o.d.triggersSinceLastSync = 0
  cur : o.lost = false → o.d.currentTriggersRpm = d.currentTriggersRpm ∨
    (o.d.currentTriggersRpm.toNat ≤ maxTriggers + 1 ∧ o.d.currentTriggersRpm.toNat = d.currentTriggersRpm.toNat + 1)
  fresh : o.d.state ≠ .nosync → d.state ≠ .nosync ∨
    d.requiredTriggersRpm.toNat ≤ o.d.currentTriggersRpm.toNat
  cfg : o.d.cfg = d.cfg

omit [FloatFmt] in
theorem decodeFinish_facts {d d1 : Decoder} {ex : Option Time} (hv : d1.valid = d.valid)
    (hc : d1.currentTriggersRpm = d.currentTriggersRpm ∨ (d1.currentTriggersRpm.toNat ≤ maxTriggers + 1 ∧
      d1.currentTriggersRpm.toNat = d.currentTriggersRpm.toNat + 1))
    (hf : d1.state ≠ .nosync → d.state ≠ .nosync ∨ d.requiredTriggersRpm.toNat ≤ d1.currentTriggersRpm.toNat)
    (hg : d1.cfg = d.cfg) : StepFacts d (decodeFinish d.state d1 ex) := by
  unfold decodeFinish
  by_cases h1 : d1.state = .sync
  · rw [if_pos h1]
    exact ⟨fun _ _ => h1, fun _ _ h => (by cases h), fun h => (by cases h), fun _ => hc, hf, hg⟩
  · rw [if_neg h1]
    by_cases h2 : d.state = .sync
    · rw [if_pos h2]
      exact ⟨fun _ h => (by cases h), fun _ _ _ => rfl, fun _ => ⟨rfl, rfl, rfl, rfl⟩, fun h => (by cases h),
        fun h => absurd rfl h, hg⟩
    · rw [if_neg h2]
      exact ⟨fun hp h => absurd (hp (by rw [← hv]; exact h)) h2, fun hp h => absurd (hp h) h2,
        fun h => (by cases h), fun _ => hc, hf, hg⟩

theorem camFinish_facts {d d1 : Decoder} {ex : Option Time} (_hv : d1.valid = true → d.valid = true)
    (hc : d1.currentTriggersRpm = d.currentTriggersRpm ∨ (d1.currentTriggersRpm.toNat ≤ maxTriggers + 1 ∧
      d1.currentTriggersRpm.toNat = d.currentTriggersRpm.toNat + 1))
    (hf : d1.state ≠ .nosync → d.state ≠ .nosync ∨ d.requiredTriggersRpm.toNat ≤ d1.currentTriggersRpm.toNat)
    (hg : d1.cfg = d.cfg) : StepFacts d (camFinish d.valid d1 ex) := by
  unfold camFinish
  by_cases h1 : d1.state = .sync
  · simp only [h1, ne_eq, not_true_eq_false, if_false]
    by_cases h2 : (!d.valid && (d1.camThis || d1.camLast)) = true
    · simp only [if_pos h2, Bool.not_true, Bool.and_false, Bool.false_eq_true, if_false]
      exact ⟨fun _ _ => rfl, fun _ _ h => (by cases h), fun h => (by cases h), fun _ => hc,
        fun _ => hf (by rw [h1]; decide), hg⟩
    · simp only [if_neg h2]
      by_cases h3 : (d.valid && !d1.valid) = true
      · rw [if_pos h3]
        exact ⟨fun _ h => (by cases h), fun _ _ _ => rfl, fun _ => ⟨rfl, rfl, rfl, rfl⟩, fun h => (by cases h),
          fun h => absurd rfl h, hg⟩
      · rw [if_neg h3]
        refine ⟨fun _ _ => h1, fun _ h4 h5 => absurd ?_ h3, fun h => (by cases h), fun _ => hc, hf, hg⟩
        have h5' : d1.valid = false := h5
        rw [h4, h5']; rfl
  · simp only [ne_eq, h1, not_false_eq_true, if_true, Bool.not_false, Bool.and_true]
    by_cases h3 : d.valid = true
    · rw [if_pos h3]
      exact ⟨fun _ h => (by cases h), fun _ _ _ => rfl, fun _ => ⟨rfl, rfl, rfl, rfl⟩, fun h => (by cases h),
        fun h => absurd rfl h, hg⟩
    · rw [if_neg h3]
      exact ⟨fun _ h => (by cases h), fun _ h => absurd h h3, fun h => (by cases h), fun _ => hc, hf, hg⟩

/-- Every decode step keeps these facts, for all four wheel types. -/
theorem decode_facts {d : Decoder} {k : Int} {t : Time} {o : DecOut} (h : decode d k t = .ok o) : StepFacts d o := by
  unfold decode at h
  cases ht : d.type
  all_goals simp only [ht] at h
  · unfold decodeEvenNosync at h
    rw [bind_eq_ok] at h; obtain ⟨⟨d1, b⟩, h1, h⟩ := h
    obtain ⟨tr, r, cc, s, l, e, c, lt, hd1, h2, h3, h4, h5⟩ := evenTriggerUpdate_frame h1
    simp only at h
    have hc := h4.symm
    by_cases hs : d1.state = .rpm ∨ d1.state = .sync
    · rw [if_pos hs] at h
      simp only [except_pure, Except.ok.injEq] at h
      subst h
      subst hd1
      refine ⟨fun _ _ => rfl, fun _ _ h => (by cases h), fun h => (by cases h), fun _ => hc, fun _ => ?_, rfl⟩
      exact h5 (by rcases hs with hs | hs <;> (simp only at hs; rw [hs]; decide))
    · rw [if_neg hs] at h
      by_cases ho : d.state = .sync
      · rw [if_pos ho] at h
        simp only [except_pure, Except.ok.injEq] at h
        subst h
        subst hd1
        exact ⟨fun _ h => (by cases h), fun _ _ _ => rfl, fun _ => ⟨rfl, rfl, rfl, rfl⟩, fun h => (by cases h),
          fun h => absurd rfl h, rfl⟩
      · rw [if_neg ho] at h
        simp only [except_pure, Except.ok.injEq] at h
        subst h
        subst hd1
        exact ⟨fun hp h => absurd (hp h) ho, fun hp h => absurd (hp h) ho,
          fun h => (by cases h), fun _ => hc, h5, rfl⟩
  · unfold decodeEvenCamsync at h
    simp only at h
    split_ifs at h
    · rw [bind_eq_ok] at h; obtain ⟨⟨d1, b⟩, h1, h⟩ := h
      obtain ⟨tr, r, cc, s, l, e, c, lt, hd1, h2, h3, h4, h5⟩ := evenTriggerUpdate_frame h1
      simp only [except_pure, Except.ok.injEq] at h
      subst h
      subst hd1
      exact decodeFinish_facts rfl h4.symm h5 rfl
    · simp only [except_pure, Except.ok.injEq] at h
      subst h
      have hfr : ∃ s l a, evenSyncUpdate d =
          { d with state := s, loss := l, lastTriggerAngle := a, triggersSinceLastSync := 0 } ∧
          (s ≠ .nosync → d.state ≠ .nosync) := by
        unfold evenSyncUpdate
        by_cases h1 : d.state = .rpm
        · simp only [if_pos h1]; exact ⟨_, _, _, rfl, fun _ => (by rw [h1]; decide)⟩
        · by_cases h2 : d.state = .sync
          · simp only [if_neg h1, if_pos h2]
            split_ifs
            all_goals exact ⟨_, _, _, rfl, fun _ => by rw [h2]; decide⟩
          · simp only [if_neg h1, if_neg h2]; exact ⟨_, _, _, rfl, id⟩
      obtain ⟨s, l, a, he, hs⟩ := hfr
      rw [he]
      exact decodeFinish_facts rfl (.inl rfl) (fun h => .inl (hs h)) rfl
    · simp only [except_pure, Except.ok.injEq] at h
      subst h
      exact decodeFinish_facts rfl (.inl rfl) (fun h => .inl h) rfl
  · unfold decodeMissingNosync at h
    simp only at h
    split_ifs at h
    · rw [bind_eq_ok] at h; obtain ⟨⟨d1, b⟩, h1, h⟩ := h
      rw [bind_eq_ok] at h; obtain ⟨d2, h2, h⟩ := h
      obtain ⟨c, s, cc, k', a, lt, e, l, hd1, hc, hq, -⟩ := missingTriggerUpdate_frame h1
      obtain ⟨tr, r, hd2⟩ := missingRpms_frame h2
      simp only [except_pure, Except.ok.injEq] at h
      subst h
      rw [hd2, hd1]
      refine decodeFinish_facts rfl ?_ hq rfl
      rcases hc with hc | hc
      · exact .inr ⟨Nat.le_succ_of_le hc.1, hc.2⟩
      · exact .inl hc
    · rw [bind_eq_ok] at h; obtain ⟨d2, h2, h⟩ := h
      obtain ⟨tr, r, hd2⟩ := missingRpms_frame h2
      simp only [except_pure, Except.ok.injEq] at h
      subst h
      rw [hd2]
      exact decodeFinish_facts rfl (.inl rfl) (fun h => .inl h) rfl
  · unfold decodeMissingCamsync at h
    simp only at h
    by_cases h0 : k = 0
    · rw [if_pos h0] at h
      rw [bind_eq_ok] at h; obtain ⟨⟨d1, b⟩, h1, h⟩ := h
      rw [bind_eq_ok] at h; obtain ⟨d2, h2, h⟩ := h
      obtain ⟨c, s, cc, k', a, lt, e, l, hd1, hc, hq, -⟩ := missingTriggerUpdate_frame h1
      obtain ⟨v, x, y, hr, hv⟩ := camRotation_frame d1
      obtain ⟨tr, r, hd2⟩ := missingRpms_frame h2
      simp only [except_pure, Except.ok.injEq] at h
      subst h
      rw [hd2, hr]
      rw [hd1] at hv ⊢
      refine camFinish_facts hv ?_ hq rfl
      rcases hc with hc | hc
      · exact .inr ⟨Nat.le_succ_of_le hc.1, hc.2⟩
      · exact .inl hc
    · rw [if_neg h0] at h
      rw [bind_eq_ok] at h; obtain ⟨d2, h2, h⟩ := h
      obtain ⟨tr, r, hd2⟩ := missingRpms_frame h2
      simp only [except_pure, Except.ok.injEq] at h
      subst h
      rw [hd2]
      by_cases h1 : k = 1
      · rw [if_pos h1]
        obtain ⟨v, x, hr, hv⟩ := camPulse_frame d
        rw [hr]
        exact camFinish_facts hv (.inl rfl) (fun h => .inl h) rfl
      · rw [if_neg h1]
        exact camFinish_facts id (.inl rfl) (fun h => .inl h) rfl

theorem on_facts {d : Decoder} {ev : DecEv} {o : DecOut} (h : d.on ev = .ok o) : StepFacts d o := by
  cases ev with
  | trigger k t => exact decode_facts h
  | expire =>
      simp only [Decoder.on, Except.ok.injEq] at h
      subst h
      exact ⟨fun _ h => (by cases h), fun _ _ _ => rfl, fun _ => ⟨rfl, rfl, rfl, rfl⟩, fun h => (by cases h),
        fun h => absurd rfl h, rfl⟩
  | desync r =>
      simp only [Decoder.on, Except.ok.injEq] at h
      subst h
      exact ⟨fun _ h => (by cases h), fun _ _ _ => rfl, fun _ => ⟨rfl, rfl, rfl, rfl⟩, fun h => (by cases h),
        fun h => absurd rfl h, rfl⟩

/-- C38: in every history of triggers, expiries, desynchronisations and settings changes, for every wheel
type and every way of rounding, a valid position means the state is synchronised. -/
theorem C38_valid_means_sync {P : DecSettings → Prop} {d0 d : Decoder} (h : DecReach P d0 d) : d.valid = true → d.state = .sync := by
  induction h with
  | start => intro h; cases h
  | on _ he ih => exact (on_facts he).sound ih
  | set c _ _ ih => exact ih

/-- C38: an event after which a valid position is no longer valid cancels the scheduled outputs, and
leaves the decoder unsynchronised with both trigger counters cleared. -/
theorem C38_loss_clears {P : DecSettings → Prop} {d0 d : Decoder} (h : DecReach P d0 d) {ev : DecEv} {o : DecOut} (he : d.on ev = .ok o)
    (h1 : d.valid = true) (h2 : o.d.valid = false) :
    o.lost = true ∧ o.d.state = .nosync ∧ o.d.currentTriggersRpm = 0 ∧ o.d.triggersSinceLastSync = 0 := by
  have hf := on_facts he
  have hl := hf.drop (C38_valid_means_sync h) h1 h2
  exact ⟨hl, (hf.clear hl).2⟩

/-- C38: after a loss (or at start) the position stays invalid until at least the configured number of
fresh teeth has arrived. -/
theorem C38_fresh {d0 d : Decoder} {n : Nat} (h : DecFresh d0 n d) :
    d.valid = true → d0.requiredTriggersRpm.toNat ≤ n := by
  have key : d.cfg = (decoderInit d0).cfg ∧ (d.valid = true → d.state = .sync) ∧ d.currentTriggersRpm.toNat ≤ n ∧
      (d.state ≠ .nosync → d.requiredTriggersRpm.toNat ≤ d.currentTriggersRpm.toNat) := by
    induction h with
    | start => exact ⟨rfl, fun h => (by cases h), Nat.le_refl _, fun h => absurd rfl h⟩
    | @keep d n k t o _ he hl ih =>
        have hf := on_facts he
        obtain ⟨h1, h2, h3, h4⟩ := ih
        have hr : o.d.requiredTriggersRpm = d.requiredTriggersRpm := congrArg DecConfig.requiredTriggersRpm hf.cfg
        have hc := hf.cur hl
        refine ⟨hf.cfg.trans h1, hf.sound h2, ?_, fun hs => ?_⟩
        · rcases hc with hc | hc
          · rw [hc]; omega
          · omega
        · rw [hr]
          rcases hf.fresh hs with h5 | h5
          · have := h4 h5
            rcases hc with hc | hc
            · rw [hc]; exact this
            · omega
          · exact h5
    | lose _ he hl ih =>
        have hf := on_facts he
        obtain ⟨h1, h2, h3, h4⟩ := ih
        obtain ⟨g1, g2, g3, g4⟩ := hf.clear hl
        exact ⟨hf.cfg.trans h1, hf.sound h2, by rw [g3]; exact Nat.le_refl _, fun h => absurd g2 h⟩
  intro hv
  obtain ⟨h1, h2, h3, h4⟩ := key
  have hr : d.requiredTriggersRpm = d0.requiredTriggersRpm := congrArg DecConfig.requiredTriggersRpm h1
  have := h4 (by rw [h2 hv]; decide)
  rw [hr] at this
  omega

omit [FloatFmt] in
theorem okAnd_ok {α : Type} {x : Except Fault α} {p : α → Bool} (h : okAnd x p = true) :
    ∃ a, x = .ok a ∧ p a = true := by
  cases x with
  | error e => cases h
  | ok a => exact ⟨a, rfl, h⟩

theorem run_reach {P : DecSettings → Prop} {d0 d : Decoder} (h : DecReach P d0 d) {evs : List DecEv} {d' : Decoder} (hr : d.run evs = .ok d') :
    DecReach P d0 d' := by
  induction evs generalizing d with
  | nil => cases hr; exact h
  | cons ev evs ih =>
      unfold Decoder.run at hr
      rw [bind_eq_ok] at hr; obtain ⟨o, h1, h2⟩ := hr
      exact ih (.on h h1) h2

/-- Reported angle within one cycle. -/
def AngleOk (a : Fl) : Prop := ∃ q : ℚ, a = .fin q ∧ 0 ≤ q ∧ q < 720

theorem wrap_ok {a y : ℚ} (h0 : 0 ≤ a) (h1 : a < 720) (hy0 : 0 ≤ y) (hy1 : y ≤ 718) :
    AngleOk (if Fl.le (.fin 720) (.fin a + .fin y) then (.fin a + .fin y) - .fin 720 else .fin a + .fin y) := by
  have r0 : FloatFmt.rnd 0 = Fl.fin 0 := rnd_zero
  have r1 : FloatFmt.rnd 1438 = Fl.fin 1438 := by simpa using rnd_nat 1438 (by norm_num)
  have r2 : FloatFmt.rnd 718 = Fl.fin 718 := by simpa using rnd_nat 718 (by norm_num)
  obtain ⟨z, hz, hz0, hz1⟩ := rnd_between (x := a + y) (by linarith) (by linarith) r0 r1
  rw [Fl.fin_add, hz]
  by_cases h : (720 : ℚ) ≤ z
  · rw [if_pos (by simpa using h), Fl.fin_sub]
    obtain ⟨w, hw, hw0, hw1⟩ := rnd_between (x := z - 720) (by linarith) (by linarith) r0 r2
    exact ⟨w, hw, hw0, by linarith⟩
  · rw [if_neg (by simpa using h)]
    exact ⟨z, rfl, hz0, not_le.mp h⟩

/-- A per-tooth angle between half a degree and 359 degrees; with a cam, at least two tooth positions and
no more than one turn of them. -/
def WheelOk (d : Decoder) : Prop :=
  ∃ g : ℚ, d.degreesPerTrigger = .fin g ∧ 1 / 2 ≤ g ∧ g ≤ 359 ∧
    (d.type = .missingCamsync → 2 ≤ d.numTriggers.toNat ∧ g * d.numTriggers.toNat ≤ 360)

theorem missing_angle_ok {d d' : Decoder} {t : Time} {b : Bool} (hw : WheelOk d)
    (h : missingTriggerUpdate d t = .ok (d', b)) (ha : AngleOk d.lastTriggerAngle) : AngleOk d'.lastTriggerAngle := by
  obtain ⟨c, s, cc, k, a, lt, e, l, hd1, -, -, -, -, -, hang⟩ := missingTriggerUpdate_frame h
  obtain ⟨g, hg, hg0, hg1, -⟩ := hw
  rw [hd1]
  show AngleOk a
  rcases hang with hang | hang | ⟨-, m, hm, hang⟩
  · rw [hang]; exact ha
  · rw [hang]; exact ⟨0, rfl, le_refl _, by norm_num⟩
  · obtain ⟨q, hq, hq0, hq1⟩ := ha
    have r0 : FloatFmt.rnd 0 = Fl.fin 0 := rnd_zero
    have r2 : FloatFmt.rnd 718 = Fl.fin 718 := by simpa using rnd_nat 718 (by norm_num)
    have hy : ∃ y, d.degreesPerTrigger * m = .fin y ∧ 0 ≤ y ∧ y ≤ 718 := by
      rw [hg]
      rcases hm with rfl | rfl
      · rw [Fl.fin_mul]; exact rnd_between (by linarith) (by linarith) r0 r2
      · rw [Fl.fin_mul]; exact rnd_between (by linarith) (by linarith) r0 r2
    obtain ⟨y, hy, hy0, hy1⟩ := hy
    rw [hang, hy, hq]
    exact wrap_ok hq0 hq1 hy0 hy1

theorem even_angle_ok {d : Decoder} (t : Time) (hw : WheelOk d)
    (ha : AngleOk d.lastTriggerAngle) : AngleOk (evenAdvance (evenBook d t) t).lastTriggerAngle := by
  obtain ⟨c, s, hb, -⟩ := evenBook_frame d t
  rw [hb]
  unfold evenAdvance
  obtain ⟨g, hg, hg0, hg1, -⟩ := hw
  obtain ⟨q, hq, hq0, hq1⟩ := ha
  split_ifs with h1
  · have := wrap_ok (a := q) (y := g) hq0 hq1 (by linarith) (by linarith)
    rw [← hq, ← hg] at this
    exact this
  · exact ⟨q, hq, hq0, hq1⟩

/-- The tooth count stays inside the wheel. -/
def CountOk (d : Decoder) : Prop :=
  d.type = .missingCamsync → d.state = .sync → d.triggersSinceLastSync.toNat < d.numTriggers.toNat - 1

theorem camFinish_angle {d : Decoder} {v : Bool} {ex : Option Time} (ht : d.type = .missingCamsync) (hw : WheelOk d)
    (hc : CountOk d) (ha : AngleOk d.lastTriggerAngle) :
    AngleOk (camFinish v d ex).d.lastTriggerAngle ∧ CountOk (camFinish v d ex).d := by
  obtain ⟨g, hg, hg0, hg1, hn⟩ := hw
  obtain ⟨hn2, hgn⟩ := hn ht
  unfold camFinish
  by_cases h1 : d.state = .sync
  · simp only [h1, ne_eq, not_true_eq_false, if_false]
    by_cases h2 : (!v && (d.camThis || d.camLast)) = true
    · simp only [if_pos h2, Bool.not_true, Bool.and_false, Bool.false_eq_true, if_false]
      refine ⟨?_, fun _ _ => hc ht h1⟩
      have hk := hc ht h1
      have r0 : FloatFmt.rnd 0 = Fl.fin 0 := rnd_zero
      have r1 : FloatFmt.rnd 359 = Fl.fin 359 := by simpa using rnd_nat 359 (by norm_num)
      have r2 : FloatFmt.rnd 719 = Fl.fin 719 := by simpa using rnd_nat 719 (by norm_num)
      have hN : d.numTriggers.toNat ≤ 720 := by
        have : (d.numTriggers.toNat : ℚ) ≤ 720 := by nlinarith
        exact_mod_cast this
      have hu : Fl.ofU32 d.triggersSinceLastSync = .fin (d.triggersSinceLastSync.toNat : ℚ) := by
        unfold Fl.ofU32
        exact rnd_nat _ (by omega)
      have hk2 : (d.triggersSinceLastSync.toNat : ℚ) + 2 ≤ d.numTriggers.toNat := by
        have : d.triggersSinceLastSync.toNat + 2 ≤ d.numTriggers.toNat := by omega
        exact_mod_cast this
      have hk0 : (0 : ℚ) ≤ d.triggersSinceLastSync.toNat := Nat.cast_nonneg _
      obtain ⟨y, hy, hy0, hy1⟩ := rnd_between (x := g * (d.triggersSinceLastSync.toNat : ℚ)) (by positivity)
        (by nlinarith) r0 r1
      rw [hg, hu, Fl.fin_mul, hy]
      obtain ⟨z, hz, hz0, hz1⟩ : ∃ z, (Fl.fin y + (if d.camThis = true then Fl.fin 0 else Fl.fin 360)) = .fin z ∧
          0 ≤ z ∧ z ≤ 719 := by
        split_ifs
        · rw [Fl.fin_add]; exact rnd_between (by linarith) (by linarith) r0 r2
        · rw [Fl.fin_add]; exact rnd_between (by linarith) (by linarith) r0 r2
      exact ⟨z, hz, hz0, by linarith⟩
    · simp only [if_neg h2]
      split_ifs
      · exact ⟨ha, fun _ h => (by cases h)⟩
      · exact ⟨ha, hc⟩
  · simp only [ne_eq, h1, not_false_eq_true, if_true]
    split_ifs
    · exact ⟨ha, fun _ h => (by cases h)⟩
    · exact ⟨ha, fun _ h => absurd h h1⟩

omit [FloatFmt] in
theorem decodeFinish_angle {d : Decoder} {old : DecState} {ex : Option Time} :
    (decodeFinish old d ex).d.lastTriggerAngle = d.lastTriggerAngle := by
  unfold decodeFinish
  split_ifs <;> rfl

theorem decode_angle {d : Decoder} {k : Int} {t : Time} {o : DecOut} (h : decode d k t = .ok o) (hw : WheelOk d)
    (hc : CountOk d) (ha : AngleOk d.lastTriggerAngle) : AngleOk o.d.lastTriggerAngle ∧ CountOk o.d := by
  have hcfg := (decode_facts h).cfg
  have hty : o.d.type = d.type := congrArg DecConfig.type hcfg
  have hnc : d.type ≠ .missingCamsync → CountOk o.d := fun hne h1 => absurd (hty.symm.trans h1) hne
  unfold decode at h
  cases ht : d.type
  all_goals simp only [ht] at h
  · refine ⟨?_, hnc (by rw [ht]; decide)⟩
    unfold decodeEvenNosync at h
    rw [bind_eq_ok] at h; obtain ⟨⟨d1, b⟩, h1, h⟩ := h
    obtain ⟨tr, r, cc, s, l, e, c, lt, hd1, -⟩ := evenTriggerUpdate_frame h1
    have := even_angle_ok t hw ha
    have hd : d1.lastTriggerAngle = (evenAdvance (evenBook d t) t).lastTriggerAngle := by rw [hd1]
    rw [← hd] at this
    simp only at h
    split_ifs at h
    all_goals
      simp only [except_pure, Except.ok.injEq] at h
      subst h
      exact this
  · refine ⟨?_, hnc (by rw [ht]; decide)⟩
    unfold decodeEvenCamsync at h
    simp only at h
    split_ifs at h
    · rw [bind_eq_ok] at h; obtain ⟨⟨d1, b⟩, h1, h⟩ := h
      obtain ⟨tr, r, cc, s, l, e, c, lt, hd1, -⟩ := evenTriggerUpdate_frame h1
      have := even_angle_ok t hw ha
      have hd : d1.lastTriggerAngle = (evenAdvance (evenBook d t) t).lastTriggerAngle := by rw [hd1]
      rw [← hd] at this
      simp only [except_pure, Except.ok.injEq] at h
      subst h
      rw [decodeFinish_angle]; exact this
    · simp only [except_pure, Except.ok.injEq] at h
      subst h
      rw [decodeFinish_angle]
      obtain ⟨s, l, a, he, ha'⟩ := evenSyncUpdate_frame d
      rw [he]
      rcases ha' with ha' | ha'
      · simpa only [ha'] using ha
      · simp only [ha']; exact ⟨0, rfl, le_refl _, by norm_num⟩
    · simp only [except_pure, Except.ok.injEq] at h
      subst h
      rw [decodeFinish_angle]; exact ha
  · refine ⟨?_, hnc (by rw [ht]; decide)⟩
    unfold decodeMissingNosync at h
    simp only at h
    split_ifs at h
    · rw [bind_eq_ok] at h; obtain ⟨⟨d1, b⟩, h1, h⟩ := h
      rw [bind_eq_ok] at h; obtain ⟨d2, h2, h⟩ := h
      have := missing_angle_ok hw h1 ha
      obtain ⟨tr, r, hd2⟩ := missingRpms_frame h2
      simp only [except_pure, Except.ok.injEq] at h
      subst h
      rw [decodeFinish_angle, hd2]; exact this
    · rw [bind_eq_ok] at h; obtain ⟨d2, h2, h⟩ := h
      obtain ⟨tr, r, hd2⟩ := missingRpms_frame h2
      simp only [except_pure, Except.ok.injEq] at h
      subst h
      rw [decodeFinish_angle, hd2]; exact ha
  · unfold decodeMissingCamsync at h
    simp only at h
    by_cases h0 : k = 0
    · rw [if_pos h0] at h
      rw [bind_eq_ok] at h; obtain ⟨⟨d1, b⟩, h1, h⟩ := h
      rw [bind_eq_ok] at h; obtain ⟨d2, h2, h⟩ := h
      have han := missing_angle_ok hw h1 ha
      obtain ⟨c, s, cc, k', a, lt, e, l, hd1, -, -, hk1, hk2, hk3, -⟩ := missingTriggerUpdate_frame h1
      obtain ⟨v, x, y, hr, hv⟩ := camRotation_frame d1
      obtain ⟨tr, r, hd2⟩ := missingRpms_frame h2
      simp only [except_pure, Except.ok.injEq] at h
      subst h
      have hn2 : 2 ≤ d.numTriggers.toNat := by obtain ⟨g, -, -, -, hn⟩ := hw; exact (hn ht).1
      refine camFinish_angle (d := d2) ?_ ?_ ?_ ?_
      · rw [hd2, hr, hd1]; exact ht
      · rw [hd2, hr, hd1]; exact hw
      · rw [hd2, hr, hd1]
        intro _ hs
        have hs' : s = .sync := hs
        by_cases hst : d.state = .sync
        · exact hk1 hst hs' hn2 (hc ht hst)
        · have : k' = 0 := hk3 hst hs'
          show k'.toNat < _
          rw [this]
          show 0 < d.numTriggers.toNat - 1
          omega
      · rw [hd2, hr]; exact han
    · rw [if_neg h0] at h
      rw [bind_eq_ok] at h; obtain ⟨d2, h2, h⟩ := h
      obtain ⟨tr, r, hd2⟩ := missingRpms_frame h2
      simp only [except_pure, Except.ok.injEq] at h
      subst h
      rw [hd2]
      by_cases h1 : k = 1
      · rw [if_pos h1]
        obtain ⟨v, x, hr, hv⟩ := camPulse_frame d
        rw [hr]
        exact camFinish_angle ht hw hc ha
      · rw [if_neg h1]
        exact camFinish_angle ht hw hc ha

/-- C39: for every admissible wheel, in every history and for every way of rounding, the reported angle of
the last trigger is at least 0 and below 720. -/
theorem C39_angle_range {d0 d : Decoder} {evs : List DecEv} (hw : WheelOk d0) (h : DecRun d0 evs d) :
    ∃ q : ℚ, d.lastTriggerAngle = .fin q ∧ 0 ≤ q ∧ q < 720 := by
  have key : d.cfg = (decoderInit d0).cfg ∧ CountOk d ∧ AngleOk d.lastTriggerAngle := by
    induction h with
    | start => exact ⟨rfl, fun _ h => (by cases h), 0, rfl, le_refl _, by norm_num⟩
    | @on d evs ev o _ he ih =>
        obtain ⟨h1, h2, h3⟩ := ih
        have hcfg := (on_facts he).cfg
        have hw' : WheelOk d := by
          obtain ⟨g, hg, hg0, hg1, hn⟩ := hw
          have e1 : d.degreesPerTrigger = d0.degreesPerTrigger := congrArg DecConfig.degreesPerTrigger h1
          have e2 : d.type = d0.type := congrArg DecConfig.type h1
          have e3 : d.numTriggers = d0.numTriggers := congrArg DecConfig.numTriggers h1
          exact ⟨g, by rw [e1, hg], hg0, hg1, by rw [e2, e3]; exact hn⟩
        refine ⟨hcfg.trans h1, ?_⟩
        cases ev with
        | trigger k t => exact (decode_angle he hw' h2 h3).symm
        | expire =>
            simp only [Decoder.on, Except.ok.injEq] at he
            subst he
            exact ⟨fun _ h => (by cases h), h3⟩
        | desync r =>
            simp only [Decoder.on, Except.ok.injEq] at he
            subst he
            exact ⟨fun _ h => (by cases h), h3⟩
  exact key.2.2

/-- The only possible undefined behaviour is a float-to-integer conversion out of range. -/
def OnlyFloat {α : Type} (x : Except Fault α) : Prop := ∀ f, x = .error f → f = .floatToInt

omit [FloatFmt] in
theorem onlyFloat_ok {α : Type} (a : α) : OnlyFloat (.ok a : Except Fault α) := fun _ h => by cases h

omit [FloatFmt] in
theorem onlyFloat_bind {α β : Type} {x : Except Fault α} {f : α → Except Fault β} (hx : OnlyFloat x)
    (hf : ∀ a, x = .ok a → OnlyFloat (f a)) : OnlyFloat (x >>= f) := by
  cases x with
  | error e => intro g h; exact hx g (by simpa using h)
  | ok a => exact hf a rfl

omit [FloatFmt] in
theorem onlyFloat_toU32 (x : Fl) : OnlyFloat (Fl.toU32 x) := by
  intro f h
  unfold Fl.toU32 at h
  split at h
  · split_ifs at h
    cases h; rfl
  · cases h; rfl

omit [FloatFmt] in
theorem onlyFloat_timeAt {d : Decoder} {i : BitVec 32} (h : i.toNat ≤ 36) : OnlyFloat (timeAt d i) := by
  intro f hf
  unfold timeAt at hf
  rw [rd_ok d.times i.toNat (Nat.lt_succ_of_le h)] at hf
  cases hf

theorem onlyFloat_rpm (t : Time) (g : Fl) : OnlyFloat (rpmFromTimeDiff t g) := onlyFloat_toU32 _
theorem onlyFloat_time (r : BitVec 32) (g : Fl) : OnlyFloat (timeFromRpmDiff r g) := onlyFloat_toU32 _

theorem onlyFloat_even {d : Decoder} (hw : d.rpmWindowSize.toNat ≤ 36) (t : Time) :
    OnlyFloat (evenTriggerUpdate d t) := by
  unfold evenTriggerUpdate
  obtain ⟨c, s, hb, -⟩ := evenBook_frame d t
  obtain ⟨a, lt, ha⟩ := evenAdvance_frame (evenBook d t) t
  simp only
  split_ifs
  · refine onlyFloat_bind ?_ (fun _ _ => onlyFloat_ok _)
    rw [ha, hb]
    unfold evenUpdateRpm
    refine onlyFloat_bind (onlyFloat_timeAt (by decide)) fun t0 _ => ?_
    refine onlyFloat_bind (onlyFloat_timeAt (by decide)) fun t1 _ => ?_
    refine onlyFloat_bind (onlyFloat_rpm _ _) fun tr _ => ?_
    refine onlyFloat_bind ?_ fun d1 _ => onlyFloat_bind (onlyFloat_toU32 _) fun _ _ => onlyFloat_ok _
    unfold evenWindowRpm
    simp only
    split_ifs
    · have hlt : (evenWindow c (pushTime d t).rpmWindowSize).toNat ≤ 36 := by
        have : (pushTime d t).rpmWindowSize = d.rpmWindowSize := rfl
        rw [this]
        unfold evenWindow
        split_ifs <;> omega
      refine onlyFloat_bind (onlyFloat_timeAt hlt) fun tw _ => ?_
      refine onlyFloat_bind (onlyFloat_timeAt (by decide)) fun t0 _ => ?_
      refine onlyFloat_bind (onlyFloat_rpm _ _) fun r _ => ?_
      split_ifs <;> exact onlyFloat_ok _
    · exact onlyFloat_ok _
  · exact onlyFloat_ok _

theorem onlyFloat_missingRpms {d : Decoder} (h1 : 1 ≤ d.numTriggers.toNat) (h2 : d.numTriggers.toNat ≤ 37) :
    OnlyFloat (missingRpms d) := by
  have havg : ∀ d : Decoder, 1 ≤ d.numTriggers.toNat → d.numTriggers.toNat ≤ 37 → OnlyFloat (missingAverageRpm d) := by
    intro d h1 h2
    unfold missingAverageRpm
    split_ifs
    · refine onlyFloat_bind (onlyFloat_timeAt (by decide)) fun t0 _ => ?_
      refine onlyFloat_bind (onlyFloat_timeAt ?_) fun t0 _ => onlyFloat_rpm _ _
      generalize d.numTriggers = n at *
      bv_omega
    · exact onlyFloat_ok _
    · exact onlyFloat_ok _
  unfold missingRpms
  split_ifs
  · refine onlyFloat_bind ?_ fun tr _ => onlyFloat_bind (havg _ h1 h2) fun _ _ => onlyFloat_ok _
    unfold missingToothRpm
    refine onlyFloat_bind (onlyFloat_timeAt (by decide)) fun t0 _ => ?_
    exact onlyFloat_bind (onlyFloat_timeAt (by decide)) fun t1 _ => onlyFloat_rpm _ _
  · exact onlyFloat_bind (havg _ h1 h2) fun _ _ => onlyFloat_ok _

theorem onlyFloat_ratio {d : Decoder} (h1 : 2 ≤ d.requiredTriggersRpm.toNat) (h2 : d.requiredTriggersRpm.toNat ≤ 36) :
    OnlyFloat (missingRatio d) := by
  unfold missingRatio
  refine onlyFloat_bind (onlyFloat_timeAt (by decide)) fun t0 _ => ?_
  refine onlyFloat_bind (onlyFloat_timeAt (by decide)) fun t1 _ => ?_
  refine onlyFloat_bind (onlyFloat_timeAt h2) fun tw _ => ?_
  have hne : ∀ p : Prop, [Decidable p] → (if p then d.requiredTriggersRpm - 1 + 1 else d.requiredTriggersRpm - 1) ≠ 0 := by
    intro p _
    generalize d.requiredTriggersRpm = r at *
    split_ifs
    · bv_omega
    · bv_omega
  simp only
  rw [if_neg (hne _)]
  exact onlyFloat_ok _

theorem onlyFloat_missing {d : Decoder} (h1 : 2 ≤ d.requiredTriggersRpm.toNat)
    (h2 : d.requiredTriggersRpm.toNat ≤ 36) (t : Time) : OnlyFloat (missingTriggerUpdate d t) := by
  by_cases hreq : (missingBump d t).currentTriggersRpm.toNat < d.requiredTriggersRpm.toNat
  · rw [mtu_wait hreq]; exact onlyFloat_ok _
  · rw [Nat.not_lt] at hreq
    by_cases hs : d.state = .sync
    · rw [mtu_sync hreq hs]
      refine onlyFloat_bind (onlyFloat_ratio h1 h2) fun ratio _ => onlyFloat_bind ?_ fun _ _ => onlyFloat_ok _
      unfold missingExpire
      refine onlyFloat_bind (onlyFloat_time _ _) fun _ _ => onlyFloat_bind (onlyFloat_toU32 _) fun _ _ => ?_
      exact onlyFloat_bind (onlyFloat_timeAt (by decide)) fun _ _ => onlyFloat_ok _
    · rw [mtu_rpm hreq hs]
      exact onlyFloat_bind (onlyFloat_ratio h1 h2) fun ratio _ => onlyFloat_ok _

theorem onlyFloat_decode {d : Decoder} (hl : TeethLimits d.requiredTriggersRpm d.numTriggers d.rpmWindowSize)
    (k : Int) (t : Time) : OnlyFloat (decode d k t) := by
  obtain ⟨hw, hr1, hr2, hn1, hn2⟩ := hl
  unfold decode
  cases d.type
  · unfold decodeEvenNosync
    refine onlyFloat_bind (onlyFloat_even hw t) fun p _ => ?_
    simp only
    split_ifs <;> exact onlyFloat_ok _
  · unfold decodeEvenCamsync
    simp only
    split_ifs
    · exact onlyFloat_bind (onlyFloat_even hw t) fun p _ => onlyFloat_ok _
    · exact onlyFloat_ok _
    · exact onlyFloat_ok _
  · unfold decodeMissingNosync
    simp only
    split_ifs
    · refine onlyFloat_bind (onlyFloat_missing hr1 hr2 t) fun p hp => ?_
      obtain ⟨d1, b⟩ := p
      obtain ⟨c, s, cc, k', a, lt, e, l, hd1, -⟩ := missingTriggerUpdate_frame hp
      refine onlyFloat_bind (onlyFloat_missingRpms ?_ ?_) fun _ _ => onlyFloat_ok _
      · rw [hd1]; exact hn1
      · rw [hd1]; exact hn2
    · exact onlyFloat_bind (onlyFloat_missingRpms hn1 hn2) fun _ _ => onlyFloat_ok _
  · unfold decodeMissingCamsync
    simp only
    by_cases h0 : k = 0
    · rw [if_pos h0]
      refine onlyFloat_bind (onlyFloat_missing hr1 hr2 t) fun p hp => ?_
      obtain ⟨d1, b⟩ := p
      obtain ⟨c, s, cc, k', a, lt, e, l, hd1, -⟩ := missingTriggerUpdate_frame hp
      obtain ⟨v, x, y, hr, hv⟩ := camRotation_frame d1
      refine onlyFloat_bind (onlyFloat_missingRpms ?_ ?_) fun _ _ => onlyFloat_ok _
      · show 1 ≤ (camRotation d1).numTriggers.toNat
        rw [hr, hd1]; exact hn1
      · show (camRotation d1).numTriggers.toNat ≤ 37
        rw [hr, hd1]; exact hn2
    · rw [if_neg h0]
      obtain ⟨v, x, hr, hv⟩ := camPulse_frame d
      refine onlyFloat_bind (onlyFloat_missingRpms ?_ ?_) fun _ _ => onlyFloat_ok _
      · split_ifs
        · rw [hr]; exact hn1
        · exact hn1
      · split_ifs
        · rw [hr]; exact hn2
        · exact hn2

/-- C44: with tooth counts and windows within the limits, whatever the history of triggers, expiries,
desynchronisations and settings changes, no event makes the decoder read outside its tooth-time history or
divide by zero. -/
theorem C44_in_bounds {d0 d : Decoder} (hl : TeethLimits d0.requiredTriggersRpm d0.numTriggers d0.rpmWindowSize)
    (h : DecReach (fun c => TeethLimits c.requiredTriggersRpm c.numTriggers c.rpmWindowSize) d0 d) (ev : DecEv) :
    d.on ev ≠ .error .oob ∧ d.on ev ≠ .error .divZero := by
  have hd : TeethLimits d.requiredTriggersRpm d.numTriggers d.rpmWindowSize := by
    induction h with
    | start => exact hl
    | @on d ev o _ he ih =>
        have hc := (on_facts he).cfg
        have e1 : o.d.requiredTriggersRpm = d.requiredTriggersRpm := congrArg DecConfig.requiredTriggersRpm hc
        have e2 : o.d.numTriggers = d.numTriggers := congrArg DecConfig.numTriggers hc
        have e3 : o.d.rpmWindowSize = d.rpmWindowSize := congrArg DecConfig.rpmWindowSize hc
        rw [e1, e2, e3]; exact ih
    | set c hc _ ih => exact hc
  have hof : OnlyFloat (d.on ev) := by
    cases ev with
    | trigger k t => exact onlyFloat_decode hd k t
    | expire => exact onlyFloat_ok _
    | desync r => exact onlyFloat_ok _
  exact ⟨fun h => (by have := hof _ h; cases this), fun h => (by have := hof _ h; cases this)⟩

/-- A bare decoder for the examples: four teeth per turn, one missing. -/
def demoDecoder (type : DecType) : Decoder :=
  { valid := false, rpm := 0, toothRpm := 0, lastTriggerTime := 0, lastTriggerAngle := .fin 0, expiration := 0,
    type := type, offset := .fin 0, maxRpmChange := .fin (3/8), curRpmChange := .fin 0, minRpm := 10,
    requiredTriggersRpm := 2, numTriggers := 4, degreesPerTrigger := .fin 90, rpmWindowSize := 2, t0Count := 0,
    t1Count := 0, loss := .noLoss, state := .nosync, currentTriggersRpm := 0, triggersSinceLastSync := 0,
    times := fun _ => 0, camThis := false, camLast := false }

/-- Teeth at given times. -/
def teeth (l : List Nat) : List DecEv := l.map fun t => .trigger 0 (BitVec.ofNat 32 t)

/-- The hypotheses are met, with a valid position, for each type of wheel without cam; and the position is
lost when a tooth is missing. -/
example : ∃ d, @DecReach binary32 (fun _ => True) (demoDecoder .evenNosync) d ∧ d.valid = true := by
  let _ := binary32
  obtain ⟨d, h1, h2⟩ := okAnd_ok (x := (decoderInit (demoDecoder .evenNosync)).run (teeth [40000, 80000, 120000, 160000]))
    (p := fun d => d.valid) (by decide +kernel)
  exact ⟨d, run_reach .start h1, h2⟩

example : ∃ d, @DecReach binary32 (fun _ => True) (demoDecoder .missingNosync) d ∧ d.valid = true := by
  let _ := binary32
  obtain ⟨d, h1, h2⟩ := okAnd_ok (x := (decoderInit (demoDecoder .missingNosync)).run
    (teeth [40000, 80000, 120000, 200000, 240000])) (p := fun d => d.valid) (by decide +kernel)
  exact ⟨d, run_reach .start h1, h2⟩

example : ∃ d o, @DecReach binary32 (fun _ => True) (demoDecoder .missingNosync) d ∧ d.valid = true ∧
    @Decoder.on binary32 d (.trigger 0 320000) = .ok o ∧ o.d.valid = false := by
  let _ := binary32
  obtain ⟨d, h1, h2⟩ := okAnd_ok (x := (decoderInit (demoDecoder .missingNosync)).run
    (teeth [40000, 80000, 120000, 200000, 240000]))
    (p := fun d => d.valid && okAnd (d.on (.trigger 0 320000)) (fun o => !o.d.valid)) (by decide +kernel)
  rw [Bool.and_eq_true] at h2
  obtain ⟨o, h3, h4⟩ := okAnd_ok h2.2
  exact ⟨d, o, run_reach .start h1, h2.1, h3, by simpa using h4⟩

/-- C39 and C44 apply to these wheels. -/
example (type : DecType) : WheelOk (demoDecoder type) ∧
    TeethLimits (demoDecoder type).requiredTriggersRpm (demoDecoder type).numTriggers (demoDecoder type).rpmWindowSize := by
  refine ⟨⟨90, rfl, by norm_num, by norm_num, fun _ => ⟨by cases type <;> decide, ?_⟩⟩, ?_⟩
  · have : (demoDecoder type).numTriggers.toNat = 4 := rfl
    rw [this]; norm_num
  · cases type <;> exact ⟨by decide, by decide, by decide, by decide, by decide⟩

/-- The result is the given fault. -/
def errIs {α : Type} (x : Except Fault α) (f : Fault) : Bool :=
  match x with
  | .ok _ => false
  | .error e => e == f

omit [FloatFmt] in
theorem errIs_error {α : Type} {x : Except Fault α} {f : Fault} (h : errIs x f = true) : x = .error f := by
  cases x with
  | error e => simp only [errIs, beq_iff_eq] at h; rw [h]
  | ok a => cases h

omit [FloatFmt] in
/-- C44: the limits matter, and the console does not enforce them.  Requiring one tooth divides by zero; a
wheel of no teeth and an averaging window of 37 teeth read outside the history. -/
theorem C44_limits_needed :
    @Decoder.run binary32 (decoderInit { demoDecoder .missingNosync with requiredTriggersRpm := 1 })
      (teeth [40000, 80000]) = .error .divZero ∧
    @Decoder.run binary32 (decoderInit { demoDecoder .missingNosync with numTriggers := 0 })
      (teeth [40000, 80000]) = .error .oob ∧
    @Decoder.run binary32 (decoderInit { demoDecoder .evenNosync with rpmWindowSize := 37 })
      (teeth ((List.range 37).map fun i => 40000 * (i + 1))) = .error .oob := by
  let _ := binary32
  exact ⟨errIs_error (by decide +kernel), errIs_error (by decide +kernel), errIs_error (by decide +kernel)⟩

end Verif
