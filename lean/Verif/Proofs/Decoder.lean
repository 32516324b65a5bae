/-
Frame lemmas about the decoder: which fields each step may change.
-/
import Verif.Model.Decoder
import Verif.Proofs.Fl

namespace Verif

variable [FloatFmt]

/-- The configuration part of a decoder, which the trigger path never writes. -/
structure DecConfig where
  type : DecType
  offset : Fl
  maxRpmChange : Fl
  minRpm : BitVec 32
  requiredTriggersRpm : BitVec 32
  numTriggers : BitVec 32
  degreesPerTrigger : Fl
  rpmWindowSize : BitVec 32

/-- Reading the configuration. -/
def Decoder.cfg (d : Decoder) : DecConfig :=
  ⟨d.type, d.offset, d.maxRpmChange, d.minRpm, d.requiredTriggersRpm, d.numTriggers, d.degreesPerTrigger,
   d.rpmWindowSize⟩

theorem evenWindowRpm_frame {d d' : Decoder} (h : evenWindowRpm d = .ok d') :
    ∃ r c, d' = { d with rpm := r, curRpmChange := c } := by
  unfold evenWindowRpm at h
  simp only at h
  split_ifs at h with hw
  · rw [bind_eq_ok] at h; obtain ⟨tw, -, h⟩ := h
    rw [bind_eq_ok] at h; obtain ⟨t0, -, h⟩ := h
    rw [bind_eq_ok] at h; obtain ⟨r, -, h⟩ := h
    split_ifs at h
    all_goals
      simp only [except_pure, Except.ok.injEq] at h
      exact ⟨_, _, h.symm⟩
  · simp only [except_pure, Except.ok.injEq] at h
    exact ⟨_, _, h.symm⟩

theorem evenChecks_frame (d : Decoder) :
    ∃ s l, evenChecks d = { d with state := s, loss := l } ∧ (s = d.state ∨ s = .nosync) := by
  unfold evenChecks
  simp only
  split_ifs
  all_goals first | exact ⟨_, _, rfl, .inr rfl⟩ | exact ⟨_, _, rfl, .inl rfl⟩

theorem evenUpdateRpm_frame {d d' : Decoder} (h : evenUpdateRpm d = .ok d') :
    ∃ tr r c s l e, d' = { d with toothRpm := tr, rpm := r, curRpmChange := c, state := s, loss := l, expiration := e } ∧
      (s = d.state ∨ s = .nosync) := by
  unfold evenUpdateRpm at h
  simp only [bind_eq_ok] at h
  obtain ⟨t0, -, t1, -, tr, -, d1, hd1, e, -, h⟩ := h
  obtain ⟨r, c, rfl⟩ := evenWindowRpm_frame hd1
  obtain ⟨s, l, hc, hs⟩ := evenChecks_frame { d with toothRpm := tr, rpm := r, curRpmChange := c }
  simp only [except_pure, Except.ok.injEq] at h
  rw [hc] at h
  exact ⟨tr, r, c, s, l, _, h.symm, hs⟩

omit [FloatFmt] in
theorem evenBook_frame (d : Decoder) (t : Time) :
    ∃ c s, evenBook d t = { pushTime d t with
        triggersSinceLastSync := d.triggersSinceLastSync + 1, currentTriggersRpm := c, state := s } ∧
      (s = d.state ∨ (d.state = .nosync ∧ s = .rpm)) ∧
      ((c.toNat ≤ maxTriggers + 1 ∧ c.toNat = d.currentTriggersRpm.toNat + 1) ∨ c = d.currentTriggersRpm) ∧
      (s ≠ .nosync → d.state ≠ .nosync ∨ d.requiredTriggersRpm.toNat ≤ c.toNat) := by
  unfold evenBook
  simp only
  by_cases h : (pushTime d t).currentTriggersRpm.toNat < maxTriggers + 1
  · simp only [if_pos h]
    have h' : d.currentTriggersRpm.toNat < 37 := h
    have hc : (d.currentTriggersRpm + 1).toNat ≤ maxTriggers + 1 ∧
        (d.currentTriggersRpm + 1).toNat = d.currentTriggersRpm.toNat + 1 := by
      constructor
      · show (d.currentTriggersRpm + 1).toNat ≤ 37
        bv_omega
      · bv_omega
    split_ifs with hs
    · exact ⟨_, _, rfl, .inr ⟨hs.1, rfl⟩, .inl hc, fun _ => .inr hs.2⟩
    · exact ⟨_, _, rfl, .inl rfl, .inl hc, fun h => .inl h⟩
  · simp only [if_neg h]
    split_ifs with hs
    · exact ⟨_, _, rfl, .inr ⟨hs.1, rfl⟩, .inr rfl, fun _ => .inr hs.2⟩
    · exact ⟨_, _, rfl, .inl rfl, .inr rfl, fun h => .inl h⟩

theorem evenAdvance_frame (d : Decoder) (t : Time) :
    ∃ a lt, evenAdvance d t = { d with lastTriggerAngle := a, lastTriggerTime := lt } := by
  unfold evenAdvance
  split_ifs
  · exact ⟨_, _, rfl⟩
  · exact ⟨_, _, rfl⟩

/-- All that an even-wheel tooth can change. -/
theorem evenTriggerUpdate_frame {d d' : Decoder} {t : Time} {b : Bool} (h : evenTriggerUpdate d t = .ok (d', b)) :
    ∃ tr r cc s l e c lt, d' = { pushTime d t with
        triggersSinceLastSync := d.triggersSinceLastSync + 1, currentTriggersRpm := c, state := s, toothRpm := tr,
        rpm := r, curRpmChange := cc, loss := l, expiration := e, lastTriggerTime := lt,
        lastTriggerAngle := (evenAdvance (evenBook d t) t).lastTriggerAngle } ∧
      (d.state = .sync → s = .sync ∨ s = .nosync) ∧ (d.state ≠ .sync → s ≠ .sync) ∧
      ((c.toNat ≤ maxTriggers + 1 ∧ c.toNat = d.currentTriggersRpm.toNat + 1) ∨ c = d.currentTriggersRpm) ∧
      (s ≠ .nosync → d.state ≠ .nosync ∨ d.requiredTriggersRpm.toNat ≤ c.toNat) := by
  unfold evenTriggerUpdate at h
  obtain ⟨c, s, hb, hs, hc, hq⟩ := evenBook_frame d t
  obtain ⟨a, lt, ha⟩ := evenAdvance_frame (evenBook d t) t
  simp only at h
  rw [ha, hb] at h ⊢
  simp only at h ⊢
  split_ifs at h with hst
  · rw [bind_eq_ok] at h; obtain ⟨d2, hd2, h⟩ := h
    obtain ⟨tr, r, cc, s', l, e, rfl, hs'⟩ := evenUpdateRpm_frame hd2
    simp only [except_pure, Except.ok.injEq, Prod.mk.injEq] at h
    refine ⟨tr, r, cc, s', l, e, c, lt, h.1.symm, ?_, ?_, hc, ?_⟩
    · intro hd; rcases hs with hs | hs
      · rcases hs' with hs' | hs'
        · left; rw [hs']; simpa [hs] using hd
        · right; exact hs'
      · exact absurd (hs.1.symm.trans hd) (by decide)
    · intro hd; rcases hs' with hs' | hs'
      · rw [hs']; rcases hs with hs | hs
        · simpa [hs] using hd
        · simp [hs.2]
      · rw [hs']; decide
    · intro hd; rcases hs' with hs' | hs'
      · rw [hs'] at hd; exact hq hd
      · exact absurd hs' hd
  · simp only [except_pure, Except.ok.injEq, Prod.mk.injEq] at h
    refine ⟨_, _, _, s, _, _, c, lt, h.1.symm, ?_, ?_, hc, hq⟩
    · intro hd; rcases hs with hs | hs
      · left; rw [hs, hd]
      · exact absurd (hs.1.symm.trans hd) (by decide)
    · intro hd; rcases hs with hs | hs
      · rwa [hs]
      · rw [hs.2]; decide

omit [FloatFmt] in
theorem evenSyncUpdate_frame (d : Decoder) :
    ∃ s l a, evenSyncUpdate d = { d with state := s, loss := l, lastTriggerAngle := a, triggersSinceLastSync := 0 } ∧
      (a = d.lastTriggerAngle ∨ a = Fl.fin 0) := by
  unfold evenSyncUpdate
  simp only
  split_ifs
  all_goals first | exact ⟨_, _, _, rfl, .inl rfl⟩ | exact ⟨_, _, _, rfl, .inr rfl⟩

/-- The bookkeeping at the start of a missing-wheel tooth. -/
def missingBump (d : Decoder) (t : Time) : Decoder :=
  { pushTime d t with
    currentTriggersRpm := if d.currentTriggersRpm.toNat < maxTriggers then d.currentTriggersRpm + 1 else d.currentTriggersRpm }

/-- The reported rpm change. -/
def missingChange (ratio : Fl) : Fl := if Fl.lt ratio (Fl.fin 1) then Fl.fin 1 - ratio else ratio - Fl.fin 1

omit [FloatFmt] in
theorem missingBump_eq (d : Decoder) (t : Time) :
    (if (pushTime d t).currentTriggersRpm.toNat < maxTriggers then
      { pushTime d t with currentTriggersRpm := (pushTime d t).currentTriggersRpm + 1 } else pushTime d t) =
    missingBump d t := by
  unfold missingBump
  by_cases h : d.currentTriggersRpm.toNat < maxTriggers
  · rw [if_pos h, if_pos (show (pushTime d t).currentTriggersRpm.toNat < maxTriggers from h)]; rfl
  · rw [if_neg h, if_neg (show ¬ (pushTime d t).currentTriggersRpm.toNat < maxTriggers from h)]; rfl

/-- What follows the history check. -/
def missingCore (d : Decoder) (t : Time) : Except Fault (Decoder × Bool) :=
  missingRatio d >>= fun ratio =>
    if d.state = .rpm then
      .ok (missingFromRpm { d with curRpmChange := missingChange ratio } (okMissing ratio d.maxRpmChange)
        (okNormal ratio d.maxRpmChange), false)
    else
      missingExpire (missingAngle (missingCount { d with curRpmChange := missingChange ratio }
        (okMissing ratio d.maxRpmChange) (okNormal ratio d.maxRpmChange)) (okMissing ratio d.maxRpmChange) t) >>=
      fun d' => .ok (d', true)

/-- What follows the bookkeeping. -/
def missingRest (d : Decoder) (t : Time) : Except Fault (Decoder × Bool) :=
  if d.currentTriggersRpm.toNat < d.requiredTriggersRpm.toNat then .ok (d, false)
  else missingCore (if d.state = .nosync then { d with state := .rpm } else d) t

theorem mtu_rest (d : Decoder) (t : Time) : missingTriggerUpdate d t = missingRest (missingBump d t) t := by
  rw [← missingBump_eq]; rfl

theorem mtu_wait {d : Decoder} {t : Time}
    (h : (missingBump d t).currentTriggersRpm.toNat < d.requiredTriggersRpm.toNat) :
    missingTriggerUpdate d t = .ok (missingBump d t, false) := by
  rw [mtu_rest]
  unfold missingRest
  rw [if_pos (show (missingBump d t).currentTriggersRpm.toNat < (missingBump d t).requiredTriggersRpm.toNat from h)]

theorem mtu_rpm {d : Decoder} {t : Time}
    (h : d.requiredTriggersRpm.toNat ≤ (missingBump d t).currentTriggersRpm.toNat) (hs : d.state ≠ .sync) :
    missingTriggerUpdate d t = (missingRatio { missingBump d t with state := .rpm } >>= fun ratio =>
      .ok (missingFromRpm { missingBump d t with state := .rpm, curRpmChange := missingChange ratio }
        (okMissing ratio d.maxRpmChange) (okNormal ratio d.maxRpmChange), false)) := by
  rw [mtu_rest]
  unfold missingRest
  rw [if_neg (show ¬ (missingBump d t).currentTriggersRpm.toNat < (missingBump d t).requiredTriggersRpm.toNat from
    Nat.not_lt.mpr h)]
  have hb : (if (missingBump d t).state = .nosync then { missingBump d t with state := .rpm } else missingBump d t) =
      { missingBump d t with state := .rpm } := by
    by_cases hn : d.state = .nosync
    · rw [if_pos (show (missingBump d t).state = .nosync from hn)]
    · rw [if_neg (show ¬ (missingBump d t).state = .nosync from hn)]
      have hr : d.state = .rpm := by revert hs hn; cases d.state <;> simp
      have hr' : (missingBump d t).state = .rpm := hr
      rw [← hr']
  rw [hb]
  rfl

theorem mtu_sync {d : Decoder} {t : Time}
    (h : d.requiredTriggersRpm.toNat ≤ (missingBump d t).currentTriggersRpm.toNat) (hs : d.state = .sync) :
    missingTriggerUpdate d t = (missingRatio (missingBump d t) >>= fun ratio =>
      missingExpire (missingAngle (missingCount { missingBump d t with curRpmChange := missingChange ratio }
        (okMissing ratio d.maxRpmChange) (okNormal ratio d.maxRpmChange)) (okMissing ratio d.maxRpmChange) t) >>=
      fun d' => .ok (d', true)) := by
  rw [mtu_rest]
  unfold missingRest
  rw [if_neg (show ¬ (missingBump d t).currentTriggersRpm.toNat < (missingBump d t).requiredTriggersRpm.toNat from
    Nat.not_lt.mpr h)]
  have hs' : (missingBump d t).state = .sync := hs
  rw [if_neg (by rw [hs']; decide)]
  unfold missingCore
  congr 1
  funext ratio
  rw [if_neg (by rw [hs']; decide)]
  rfl

omit [FloatFmt] in
theorem missingBump_count (d : Decoder) (t : Time) :
    ((missingBump d t).currentTriggersRpm.toNat ≤ maxTriggers ∧
      (missingBump d t).currentTriggersRpm.toNat = d.currentTriggersRpm.toNat + 1) ∨
    (missingBump d t).currentTriggersRpm = d.currentTriggersRpm := by
  unfold missingBump
  by_cases h : d.currentTriggersRpm.toNat < maxTriggers
  · left
    simp only [if_pos h]
    have h' : d.currentTriggersRpm.toNat < 36 := h
    constructor
    · show (d.currentTriggersRpm + 1).toNat ≤ 36
      bv_omega
    · bv_omega
  · right; simp only [if_neg h]

/-- All that a missing-wheel tooth can change. -/
theorem missingTriggerUpdate_frame {d d' : Decoder} {t : Time} {b : Bool}
    (h : missingTriggerUpdate d t = .ok (d', b)) :
    ∃ c s cc k a lt e l, d' = { pushTime d t with
        currentTriggersRpm := c, state := s, curRpmChange := cc, triggersSinceLastSync := k, lastTriggerAngle := a,
        lastTriggerTime := lt, expiration := e, loss := l } ∧
      ((c.toNat ≤ maxTriggers ∧ c.toNat = d.currentTriggersRpm.toNat + 1) ∨ c = d.currentTriggersRpm) ∧
      (s ≠ .nosync → d.state ≠ .nosync ∨ d.requiredTriggersRpm.toNat ≤ c.toNat) ∧
      (d.state = .sync → s = .sync → d.numTriggers.toNat ≥ 2 → d.triggersSinceLastSync.toNat < d.numTriggers.toNat - 1 →
        k.toNat < d.numTriggers.toNat - 1) ∧
      (d.state ≠ .sync → k = d.triggersSinceLastSync ∨ k = 0) ∧
      (d.state ≠ .sync → s = .sync → k = 0) ∧
      (a = d.lastTriggerAngle ∨ a = Fl.fin 0 ∨ (d.state = .sync ∧ ∃ m : Fl, (m = Fl.fin 1 ∨ m = Fl.fin 2) ∧
        a = if Fl.le (Fl.fin 720) (d.lastTriggerAngle + d.degreesPerTrigger * m) then
              (d.lastTriggerAngle + d.degreesPerTrigger * m) - Fl.fin 720
            else d.lastTriggerAngle + d.degreesPerTrigger * m)) := by
  by_cases hreq : (missingBump d t).currentTriggersRpm.toNat < d.requiredTriggersRpm.toNat
  · rw [mtu_wait hreq] at h
    simp only [Except.ok.injEq, Prod.mk.injEq] at h
    refine ⟨_, _, _, _, _, _, _, _, h.1.symm, missingBump_count d t, fun hx => .inl hx, ?_, ?_, ?_, .inl rfl⟩
    · intro _ _ _ h3; exact h3
    · intro _; exact .inl rfl
    · intro h1 h2; exact absurd h2 h1
  rw [Nat.not_lt] at hreq
  by_cases hs : d.state = .sync
  · rw [mtu_sync hreq hs] at h
    rw [bind_eq_ok] at h; obtain ⟨ratio, -, h⟩ := h
    rw [bind_eq_ok] at h; obtain ⟨d2, hd2, h⟩ := h
    simp only [Except.ok.injEq, Prod.mk.injEq] at h
    rw [← h.1]
    unfold missingExpire at hd2
    simp only [bind_eq_ok] at hd2
    obtain ⟨ex, -, ext, -, t0, -, h2⟩ := hd2
    simp only [except_pure, Except.ok.injEq] at h2
    rw [← h2]
    generalize okMissing ratio d.maxRpmChange = miss
    generalize okNormal ratio d.maxRpmChange = norm
    obtain ⟨m, hm1, hm2⟩ : ∃ m : Fl, (m = Fl.fin 1 ∨ m = Fl.fin 2) ∧ (if miss = true then Fl.fin 2 else Fl.fin 1) = m := by
      cases miss
      · exact ⟨_, .inl rfl, rfl⟩
      · exact ⟨_, .inr rfl, rfl⟩
    unfold missingAngle missingCount
    rw [hm2]
    have hp1 : (missingBump d t).triggersSinceLastSync = d.triggersSinceLastSync := rfl
    have hp2 : (missingBump d t).numTriggers = d.numTriggers := rfl
    by_cases h1 : d.triggersSinceLastSync + 1 = d.numTriggers - 1
    · simp only [hp1, hp2, if_pos h1]
      cases miss
      · refine ⟨_, _, _, _, _, _, _, _, rfl, missingBump_count d t, fun _ => .inr hreq, ?_, fun hx => absurd hs hx, fun hx => absurd hs hx,
          .inr (.inr ⟨hs, m, hm1, rfl⟩)⟩
        intro _ h2; cases h2
      · refine ⟨_, _, _, _, _, _, _, _, rfl, missingBump_count d t, fun _ => .inr hreq, ?_, fun hx => absurd hs hx, fun hx => absurd hs hx,
          .inr (.inr ⟨hs, m, hm1, rfl⟩)⟩
        intro _ _ hn hk
        simp only [if_true]
        show 0 < _
        omega
    · simp only [hp1, hp2, if_neg h1]
      have hk' : d.numTriggers.toNat ≥ 2 → d.triggersSinceLastSync.toNat < d.numTriggers.toNat - 1 →
          (d.triggersSinceLastSync + 1).toNat < d.numTriggers.toNat - 1 := by
        generalize d.triggersSinceLastSync = k at *
        generalize d.numTriggers = n at *
        intros; bv_omega
      cases norm
      all_goals
        exact ⟨_, _, _, _, _, _, _, _, rfl, missingBump_count d t, fun _ => .inr hreq, fun _ _ => hk', fun hx => absurd hs hx,
          fun hx => absurd hs hx, .inr (.inr ⟨hs, m, hm1, rfl⟩)⟩
  · rw [mtu_rpm hreq hs] at h
    rw [bind_eq_ok] at h; obtain ⟨ratio, -, h⟩ := h
    simp only [Except.ok.injEq, Prod.mk.injEq] at h
    rw [← h.1]
    generalize okMissing ratio d.maxRpmChange = miss
    generalize okNormal ratio d.maxRpmChange = norm
    unfold missingFromRpm
    cases miss
    · cases norm
      · exact ⟨_, _, _, _, _, _, _, _, rfl, missingBump_count d t, fun _ => .inr hreq, fun hx => absurd hx hs, fun _ => .inl rfl,
          fun _ h2 => (by cases h2), .inl rfl⟩
      · exact ⟨_, _, _, _, _, _, _, _, rfl, missingBump_count d t, fun _ => .inr hreq, fun hx => absurd hx hs, fun _ => .inl rfl,
          fun _ h2 => (by cases h2), .inl rfl⟩
    · exact ⟨_, _, _, _, _, _, _, _, rfl, missingBump_count d t, fun _ => .inr hreq, fun hx => absurd hx hs, fun _ => .inr rfl,
        fun _ _ => rfl, .inr (.inl rfl)⟩


theorem missingRpms_frame {d d' : Decoder} (h : missingRpms d = .ok d') :
    ∃ tr r, d' = { d with toothRpm := tr, rpm := r } := by
  unfold missingRpms at h
  split_ifs at h
  · simp only [bind_eq_ok, except_pure, Except.ok.injEq] at h
    obtain ⟨tr, -, r, -, h⟩ := h
    exact ⟨_, _, h.symm⟩
  · simp only [bind_eq_ok, except_pure, Except.ok.injEq] at h
    obtain ⟨r, -, h⟩ := h
    exact ⟨_, _, h.symm⟩

omit [FloatFmt] in
theorem camRotation_frame (d : Decoder) :
    ∃ v a b, camRotation d = { d with valid := v, camThis := a, camLast := b } ∧ (v = true → d.valid = true) := by
  unfold camRotation
  simp only
  split_ifs
  · exact ⟨_, _, _, rfl, fun h => by cases h⟩
  · exact ⟨_, _, _, rfl, id⟩
  · exact ⟨_, _, _, rfl, id⟩

omit [FloatFmt] in
theorem camPulse_frame (d : Decoder) :
    ∃ v a, camPulse d = { d with valid := v, camThis := a } ∧ (v = true → d.valid = true) := by
  unfold camPulse
  split_ifs
  · exact ⟨_, _, rfl, fun h => by cases h⟩
  · exact ⟨_, _, rfl, id⟩
  · exact ⟨_, _, rfl, id⟩

end Verif
