/-
C43: a stopped or skipping wheel is detected.
-/
import Verif.Props.Decoder

namespace Verif

variable [FloatFmt]
open FloatFmt

omit [FloatFmt] in
theorem timeAt_push0 (d : Decoder) (t : Time) : timeAt (pushTime d t) 0 = .ok t := by
  unfold timeAt
  exact rd_ok _ 0 (by decide)

omit [FloatFmt] in
theorem timeAt_push1 (d : Decoder) (t : Time) : timeAt (pushTime d t) 1 = .ok (d.times 0) := by
  unfold timeAt
  exact rd_ok _ 1 (by decide)

/-- An even wheel arms the expiry at one and a half times the last tooth gap. -/
theorem even_expire {d d' : Decoder} {t : Time} {b : Bool} (h : evenTriggerUpdate d t = .ok (d', b))
    (hs : d'.state ≠ .nosync) :
    b = true ∧ ∃ ext, Fl.toU32 (Fl.ofU32 (t - d.times 0) * Fl.fin (3 / 2)) = .ok ext ∧ d'.expiration = t + ext := by
  unfold evenTriggerUpdate at h
  obtain ⟨c, s, hb, hs', hc, hq⟩ := evenBook_frame d t
  obtain ⟨a, lt, ha⟩ := evenAdvance_frame (evenBook d t) t
  simp only at h
  split_ifs at h with hst
  · rw [bind_eq_ok] at h; obtain ⟨d2, hd2, h⟩ := h
    simp only [except_pure, Except.ok.injEq, Prod.mk.injEq] at h
    refine ⟨h.2.symm, ?_⟩
    rw [← h.1]
    rw [ha, hb] at hd2
    unfold evenUpdateRpm at hd2
    simp only [bind_eq_ok] at hd2
    obtain ⟨t0, ht0, t1, ht1, tr, -, d3, hd3, ext, he, h2⟩ := hd2
    have e0 : t0 = t := by
      have := timeAt_push0 d t
      exact (Except.ok.inj (this.symm.trans ht0)).symm
    have e1 : t1 = d.times 0 := by
      have := timeAt_push1 d t
      exact (Except.ok.inj (this.symm.trans ht1)).symm
    simp only [except_pure, Except.ok.injEq] at h2
    rw [e0, e1] at he
    exact ⟨ext, he, by rw [← h2, e0]⟩
  · simp only [except_pure, Except.ok.injEq, Prod.mk.injEq] at h
    exfalso
    rw [← h.1] at hs
    rw [not_or] at hst
    revert hs hst
    generalize (evenAdvance (evenBook d t) t).state = x
    cases x <;> simp

/-- A missing-tooth wheel in sync arms the expiry at the expected gap plus the tolerance. -/
theorem missing_expire {d d' : Decoder} {t : Time} {b : Bool} (h : missingTriggerUpdate d t = .ok (d', b))
    (hs : d.state = .sync) (hr : d.requiredTriggersRpm.toNat ≤ d.currentTriggersRpm.toNat) :
    b = true ∧ ∃ expected ext,
      timeFromRpmDiff d.rpm (d.degreesPerTrigger *
        (if d'.triggersSinceLastSync = d.numTriggers - 2 then Fl.fin 2 else Fl.fin 1)) = .ok expected ∧
      Fl.toU32 (Fl.ofU32 expected * (Fl.fin 1 + d.maxRpmChange)) = .ok ext ∧ d'.expiration = t + ext := by
  have hreq : d.requiredTriggersRpm.toNat ≤ (missingBump d t).currentTriggersRpm.toNat := by
    rcases missingBump_count d t with h1 | h1
    · omega
    · rw [h1]; exact hr
  rw [mtu_sync hreq hs] at h
  rw [bind_eq_ok] at h; obtain ⟨ratio, -, h⟩ := h
  rw [bind_eq_ok] at h; obtain ⟨d2, hd2, h⟩ := h
  simp only [Except.ok.injEq, Prod.mk.injEq] at h
  refine ⟨h.2.symm, ?_⟩
  rw [← h.1]
  have hcnt : ∀ miss norm cc, ∃ s k l, missingCount { missingBump d t with curRpmChange := cc } miss norm =
      { missingBump d t with curRpmChange := cc, triggersSinceLastSync := k, state := s, loss := l } := by
    intro miss norm cc
    unfold missingCount
    simp only
    split_ifs <;> exact ⟨_, _, _, rfl⟩
  obtain ⟨s, k, l, hk⟩ := hcnt (okMissing ratio d.maxRpmChange) (okNormal ratio d.maxRpmChange) (missingChange ratio)
  rw [hk] at hd2
  unfold missingExpire at hd2
  simp only [bind_eq_ok] at hd2
  obtain ⟨expected, he, ext, hx, t0, ht0, h2⟩ := hd2
  have e0 : t0 = t := by
    have := timeAt_push0 d t
    exact (Except.ok.inj (this.symm.trans ht0)).symm
  simp only [except_pure, Except.ok.injEq] at h2
  subst h2
  exact ⟨expected, ext, he, hx, by rw [e0]⟩

omit [FloatFmt] in
theorem decodeFinish_expire (old : DecState) (d : Decoder) (ex : Option Time) :
    (decodeFinish old d ex).expire = ex := by
  unfold decodeFinish; split_ifs <;> rfl

theorem camFinish_expire (v : Bool) (d : Decoder) (ex : Option Time) :
    (camFinish v d ex).expire = ex := by
  unfold camFinish; simp only; split_ifs <;> rfl

/-- C43: an even wheel.  Each tooth after which the decoder is still tracking (in the RPM or the
synchronised state) arms the expiry at that tooth plus one and a half times the gap just seen. -/
theorem C43_even_armed {d : Decoder} {k : Int} {t : Time} {o : DecOut} (h : decode d k t = .ok o)
    (ht : d.type = .evenNosync ∨ (d.type = .evenCamsync ∧ k = 0)) (hs : o.d.state ≠ .nosync) :
    ∃ ext, Fl.toU32 (Fl.ofU32 (t - d.times 0) * Fl.fin (3 / 2)) = .ok ext ∧ o.expire = some (t + ext) := by
  unfold decode at h
  rcases ht with ht | ⟨ht, hk⟩
  · simp only [ht] at h
    unfold decodeEvenNosync at h
    rw [bind_eq_ok] at h; obtain ⟨⟨d1, b⟩, h1, h⟩ := h
    simp only at h
    have hs1 : d1.state ≠ .nosync ∧ o.expire = expireReq d1 b := by
      by_cases hr : d1.state = .rpm ∨ d1.state = .sync
      · refine ⟨?_, ?_⟩
        · rcases hr with hr | hr <;> (rw [hr]; decide)
        · rw [if_pos hr] at h; simp only [except_pure, Except.ok.injEq] at h; rw [← h]
      · exfalso
        rw [if_neg hr] at h
        split_ifs at h
        · simp only [except_pure, Except.ok.injEq] at h
          exact hs (by rw [← h]; rfl)
        · simp only [except_pure, Except.ok.injEq] at h
          rw [← h] at hs
          rw [not_or] at hr
          revert hs hr
          simp only
          generalize d1.state = x
          cases x <;> simp
    obtain ⟨hb, ext, he, hx⟩ := even_expire h1 hs1.1
    exact ⟨ext, he, by rw [hs1.2, hb, ← hx]; rfl⟩
  · simp only [ht] at h
    unfold decodeEvenCamsync at h
    simp only [hk, if_true] at h
    rw [bind_eq_ok] at h; obtain ⟨⟨d1, b⟩, h1, h⟩ := h
    simp only [except_pure, Except.ok.injEq] at h
    subst h
    have hs1 : d1.state ≠ .nosync := by
      intro hn
      apply hs
      unfold decodeFinish
      rw [if_neg (by rw [hn]; decide)]
      split_ifs
      · rfl
      · exact hn
    obtain ⟨hb, ext, he, hx⟩ := even_expire h1 hs1
    exact ⟨ext, he, by rw [decodeFinish_expire, hb, ← hx]; rfl⟩

/-- C43: a missing-tooth wheel.  Each tooth that arrives in sync arms the expiry at that tooth plus the time
expected, at the present rpm, to the next tooth, lengthened by the tolerance. -/
theorem C43_missing_armed {d : Decoder} {t : Time} {o : DecOut} (h : decode d 0 t = .ok o)
    (ht : d.type = .missingNosync ∨ d.type = .missingCamsync) (hs : d.state = .sync)
    (hr : d.requiredTriggersRpm.toNat ≤ d.currentTriggersRpm.toNat) :
    ∃ expected ext, (o.d.state = .sync → timeFromRpmDiff d.rpm (d.degreesPerTrigger *
        (if o.d.triggersSinceLastSync = d.numTriggers - 2 then Fl.fin 2 else Fl.fin 1)) = .ok expected) ∧
      Fl.toU32 (Fl.ofU32 expected * (Fl.fin 1 + d.maxRpmChange)) = .ok ext ∧ o.expire = some (t + ext) := by
  unfold decode at h
  rcases ht with ht | ht
  · simp only [ht] at h
    unfold decodeMissingNosync at h
    simp only [if_true] at h
    rw [bind_eq_ok] at h; obtain ⟨⟨d1, b⟩, h1, h⟩ := h
    rw [bind_eq_ok] at h; obtain ⟨d2, h2, h⟩ := h
    obtain ⟨hb, expected, ext, he, hx, hexp⟩ := missing_expire h1 hs hr
    obtain ⟨tr, r, hd2⟩ := missingRpms_frame h2
    simp only [except_pure, Except.ok.injEq] at h
    subst h
    refine ⟨expected, ext, ?_, hx, ?_⟩
    · intro hsync
      have : (decodeFinish d.state d2 (expireReq d1 b)).d.triggersSinceLastSync = d1.triggersSinceLastSync := by
        rw [hd2] at hsync ⊢
        unfold decodeFinish at hsync ⊢
        split_ifs at hsync ⊢
        · rfl
        · exact absurd hsync (by show DecState.nosync ≠ _; decide)
      rw [this]; exact he
    · rw [decodeFinish_expire, hb, ← hexp]; rfl
  · simp only [ht] at h
    unfold decodeMissingCamsync at h
    simp only [if_true] at h
    rw [bind_eq_ok] at h; obtain ⟨⟨d1, b⟩, h1, h⟩ := h
    rw [bind_eq_ok] at h; obtain ⟨d2, h2, h⟩ := h
    obtain ⟨hb, expected, ext, he, hx, hexp⟩ := missing_expire h1 hs hr
    obtain ⟨tr, r, hd2⟩ := missingRpms_frame h2
    obtain ⟨v, x, y, hrot, -⟩ := camRotation_frame d1
    simp only [except_pure, Except.ok.injEq] at h
    subst h
    refine ⟨expected, ext, ?_, hx, ?_⟩
    · intro hsync
      have : (camFinish d.valid d2 (expireReq d1 b)).d.triggersSinceLastSync = d1.triggersSinceLastSync := by
        have e : d2.triggersSinceLastSync = d1.triggersSinceLastSync := by rw [hd2, hrot]
        rw [← e]
        unfold camFinish at hsync ⊢
        simp only at hsync ⊢
        split_ifs at hsync ⊢
        all_goals first | rfl | cases hsync
      rw [this]; exact he
    · rw [camFinish_expire, hb, ← hexp]; rfl

/-- C43: reaching the expiry, or a desynchronisation, leaves the decoder invalid and unsynchronised, and
cancels the scheduled outputs. -/
theorem C43_expiry_invalidates (d : Decoder) :
    ∃ o, d.on .expire = .ok o ∧ o.lost = true ∧ o.d.valid = false ∧ o.d.state = .nosync ∧ o.d.loss = .expired :=
  ⟨_, rfl, rfl, rfl, rfl, rfl⟩

omit [FloatFmt] in
/-- A cam pulse on an even wheel does not leave the unsynchronised state. -/
theorem evenSync_from {d : Decoder} (h : (evenSyncUpdate d).state ≠ .nosync) : d.state ≠ .nosync := by
  intro hn
  apply h
  unfold evenSyncUpdate
  simp only [hn, reduceCtorEq, if_false]

theorem decode_even_other {d : Decoder} {k : Int} {t : Time} {o : DecOut} (h : decode d k t = .ok o)
    (ht : d.type = .evenCamsync) (hk : k ≠ 0) (hs : o.d.state ≠ .nosync) : d.state ≠ .nosync := by
  unfold decode at h
  simp only [ht] at h
  unfold decodeEvenCamsync at h
  simp only [if_neg hk] at h
  have hfin : ∀ d1 : Decoder, (decodeFinish d.state d1 none).d.state ≠ .nosync → d1.state ≠ .nosync := by
    intro d1 h1 hn
    apply h1
    unfold decodeFinish
    rw [if_neg (by rw [hn]; decide)]
    split_ifs
    · rfl
    · exact hn
  split_ifs at h
  · simp only [except_pure, Except.ok.injEq] at h
    subst h
    exact evenSync_from (hfin _ hs)
  · simp only [except_pure, Except.ok.injEq] at h
    subst h
    exact hfin _ hs

/-- C43 in full: whenever the position is valid, an expiry is pending. -/
def C43_full : Prop :=
  ∀ (d0 d : Decoder) (p : Option Time) (n : Nat), ExpiryRun d0 p n d → d.valid = true → p.isSome = true

/-- C43, the part that holds.  Whenever the position is valid an expiry is pending, in every history: for
even wheels always, for missing-tooth wheels from the first tooth after the one that gained sync. -/
theorem C43_watched_partial {d0 d : Decoder} {p : Option Time} {n : Nat} (h : ExpiryRun d0 p n d)
    (hv : d.valid = true) (hn : d0.type = .missingNosync ∨ d0.type = .missingCamsync → 1 ≤ n) : p.isSome = true := by
  have key : d.cfg = (decoderInit d0).cfg ∧ (d.valid = true → d.state = .sync) ∧
      (d.state ≠ .nosync → d.requiredTriggersRpm.toNat ≤ d.currentTriggersRpm.toNat) ∧
      (d0.type = .evenNosync ∨ d0.type = .evenCamsync → d.state ≠ .nosync → p.isSome = true) ∧
      (d0.type = .missingNosync ∨ d0.type = .missingCamsync → d.state = .sync → 1 ≤ n → p.isSome = true) := by
    clear hv hn
    induction h with
    | start => exact ⟨rfl, fun h => (by cases h), fun h => absurd rfl h, fun _ h => absurd rfl h, fun _ h => (by cases h)⟩
    | @trigger p n d k t o _ he ih =>
        obtain ⟨h1, h2, h3, h4, h5⟩ := ih
        have hf := decode_facts he
        have hty : d.type = d0.type := congrArg DecConfig.type h1
        have hrq : o.d.requiredTriggersRpm = d.requiredTriggersRpm := congrArg DecConfig.requiredTriggersRpm hf.cfg
        refine ⟨hf.cfg.trans h1, hf.sound h2, ?_, ?_, ?_⟩
        · intro hs
          rw [hrq]
          rcases hf.fresh hs with h6 | h6
          · have := h3 h6
            have hl : o.lost = false := by
              by_contra hl
              exact hs (hf.clear (by simpa using hl)).2.1
            rcases hf.cur hl with hc | hc
            · rw [hc]; exact this
            · omega
          · exact h6
        · intro hev hs
          by_cases hk : d.type = .evenNosync ∨ (d.type = .evenCamsync ∧ k = 0)
          · obtain ⟨ext, -, hx⟩ := C43_even_armed he hk hs
            rw [hx]; rfl
          · rw [hty] at hk
            have hcam : d0.type = .evenCamsync ∧ k ≠ 0 := by
              rcases hev with h6 | h6
              · exact absurd (.inl h6) hk
              · exact ⟨h6, fun h7 => hk (.inr ⟨h6, h7⟩)⟩
            have := h4 hev (decode_even_other he (hty.trans hcam.1) hcam.2 hs)
            rw [Option.isSome_or, this, Bool.or_true]
        · intro hms hs hn
          have hds : d.state = .sync := by
            by_contra hds
            rw [if_neg (fun h => hds h.1)] at hn
            omega
          rw [if_pos ⟨hds, hs⟩] at hn
          by_cases hk : k = 0
          · subst hk
            obtain ⟨e, ext, -, -, hx⟩ := C43_missing_armed he (by rw [hty]; exact hms) hds
              (h3 (by rw [hds]; decide))
            rw [hx]; rfl
          · have hne : ¬ (k = 0 ∨ d.type = .evenNosync) := by
              rw [hty]
              rintro (h6 | h6)
              · exact hk h6
              · rw [h6] at hms; rcases hms with h7 | h7 <;> cases h7
            rw [if_neg hne] at hn
            rw [Option.isSome_or, h5 hms hds hn, Bool.or_true]
    | expire _ ih =>
        exact ⟨ih.1, fun h => (by cases h), fun h => absurd rfl h, fun _ h => absurd rfl h, fun _ h => (by cases h)⟩
    | desync r _ ih =>
        exact ⟨ih.1, fun h => (by cases h), fun h => absurd rfl h, fun _ h => absurd rfl h, fun _ h => (by cases h)⟩
  obtain ⟨h1, h2, h3, h4, h5⟩ := key
  have hs := h2 hv
  cases ht : d0.type with
  | evenNosync => exact h4 (.inl ht) (by rw [hs]; decide)
  | evenCamsync => exact h4 (.inr ht) (by rw [hs]; decide)
  | missingNosync => exact h5 (.inl ht) hs (hn (.inl ht))
  | missingCamsync => exact h5 (.inr ht) hs (hn (.inr ht))

/-- Running teeth only, keeping the pending expiry and the count. -/
def runExpiry (p : Option Time) (n : Nat) (d : Decoder) : List Time → Except Fault (Option Time × Nat × Decoder)
  | [] => .ok (p, n, d)
  | t :: ts => decode d 0 t >>= fun o => runExpiry (o.expire.or p)
      (if d.state = .sync ∧ o.d.state = .sync then (if (0 : Int) = 0 ∨ d.type = .evenNosync then n + 1 else n) else 0) o.d ts

theorem runExpiry_run {d0 : Decoder} {p : Option Time} {n : Nat} {d : Decoder} (h : ExpiryRun d0 p n d) {ts : List Time}
    {r : Option Time × Nat × Decoder} (hr : runExpiry p n d ts = .ok r) : ExpiryRun d0 r.1 r.2.1 r.2.2 := by
  induction ts generalizing p n d with
  | nil => cases hr; exact h
  | cons t ts ih =>
      unfold runExpiry at hr
      rw [bind_eq_ok] at hr; obtain ⟨o, h1, h2⟩ := hr
      exact ih (.trigger h h1) h2

omit [FloatFmt] in
/-- C43 does not hold in full: the tooth that gains sync on a missing-tooth wheel makes the position valid
but arms no expiry.  If the wheel stops there the position stays valid for ever. -/
theorem C43_full_false : ¬ @C43_full binary32 := by
  let _ := binary32
  intro h
  obtain ⟨r, h1, h2⟩ := okAnd_ok (x := runExpiry none 0 (decoderInit (demoDecoder .missingNosync))
    [40000, 80000, 120000, 200000]) (p := fun r => r.2.2.valid && r.1.isNone) (by decide +kernel)
  rw [Bool.and_eq_true] at h2
  have := h _ _ _ _ (runExpiry_run .start h1) h2.1
  rw [Option.isNone_iff_eq_none] at h2
  rw [h2.2] at this
  cases this

/-- The partial theorem's hypotheses are met. -/
example : ∃ d p n, @ExpiryRun binary32 (demoDecoder .missingNosync) p n d ∧ d.valid = true ∧ 1 ≤ n := by
  let _ := binary32
  obtain ⟨r, h1, h2⟩ := okAnd_ok (x := runExpiry none 0 (decoderInit (demoDecoder .missingNosync))
    [40000, 80000, 120000, 200000, 240000]) (p := fun r => r.2.2.valid && decide (1 ≤ r.2.1)) (by decide +kernel)
  rw [Bool.and_eq_true] at h2
  exact ⟨_, _, _, runExpiry_run .start h1, h2.1, by simpa using h2.2⟩

end Verif
