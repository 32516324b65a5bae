/-
C67: restarting after a standstill.  C68: the time that belongs to the reported angle.
-/
import Verif.Proofs.DecSafe
import Verif.Model.Default
import Verif.Props.Rate

namespace Verif

variable [FloatFmt]
open Fl

/-! ### C67 -/

/-- A tooth at a real time, or a reset of the decoder (expiry), as events. -/
def restartEv : Option ℤ → DecEv
  | some t => .trigger 0 (stamp t)
  | none => .expire

/-- Teeth come in order, each at most 5000000 ticks (1.25 s) after the one before, except that any time may pass before the first
tooth after a reset. -/
def RestGaps : Option ℤ → List (Option ℤ) → Prop
  | _, [] => True
  | _, none :: l => RestGaps none l
  | none, some t :: l => RestGaps (some t) l
  | some s, some t :: l => (s < t ∧ t ≤ s + 5000000) ∧ RestGaps (some t) l

/-- C67 in full: on a missing-tooth wheel with settings in range, teeth that come in order are decoded without a fault, however
long the wheel rests between two of them (up to one turn of the clock). -/
def C67_full : Prop :=
  ∀ (d0 : Decoder) (g v : ℚ), WheelSafe (decoderInit d0) g v → (d0.type = .missingNosync ∨ d0.type = .missingCamsync) →
    ∀ ts : List ℤ, ts.IsChain (fun a b => a < b ∧ b < a + 2 ^ 32) →
      ∃ d, (decoderInit d0).run (ts.map fun t => restartEv (some t)) = .ok d

/-- A tooth is remembered. -/
theorem decode_times {d : Decoder} {t : Time} {o : DecOut} (h : decode d 0 t = .ok o)
    (hty : d.type = .missingNosync ∨ d.type = .missingCamsync) : o.d.times 0 = t := by
  have hp : (pushTime d t).times 0 = t := rfl
  unfold decode at h
  rcases hty with hty | hty
  · rw [hty] at h
    simp only at h
    unfold decodeMissingNosync at h
    simp only [if_true] at h
    rw [bind_eq_ok] at h; obtain ⟨⟨d1, b⟩, h1, h⟩ := h
    simp only at h
    rw [bind_eq_ok] at h; obtain ⟨d2, h2, h⟩ := h
    cases h
    obtain ⟨c, s, cc, k, a, lt, e, l, hd1, -⟩ := missingTriggerUpdate_frame h1
    obtain ⟨tr, r, hd2⟩ := missingRpms_frame h2
    rw [(decodeFinish_ended d.state d2 (expireReq d1 b)).times, hd2, hd1]
    exact hp
  · rw [hty] at h
    simp only at h
    unfold decodeMissingCamsync at h
    simp only [if_true] at h
    rw [bind_eq_ok] at h; obtain ⟨⟨d1, b⟩, h1, h⟩ := h
    simp only at h
    rw [bind_eq_ok] at h; obtain ⟨d2, h2, h⟩ := h
    cases h
    obtain ⟨c, s, cc, k, a, lt, e, l, hd1, -⟩ := missingTriggerUpdate_frame h1
    obtain ⟨va, x, y, hr, -⟩ := camRotation_frame d1
    obtain ⟨tr, r, hd2⟩ := missingRpms_frame h2
    rw [(camFinish_ended d.valid d2 (expireReq d1 b)).times, hd2, hr, hd1]
    exact hp

theorem rest_run {d : Decoder} {g v : ℚ} (hd : DecSafe d g v) (hty : d.type = .missingNosync ∨ d.type = .missingCamsync)
    (p : Option ℤ) (hp : ∀ s, p = some s → d.times 0 = stamp s) (h0 : p = none → d.currentTriggersRpm.toNat = 0)
    (l : List (Option ℤ)) (hl : RestGaps p l) : ∃ d', d.run (l.map restartEv) = .ok d' := by
  induction l generalizing d p with
  | nil => exact ⟨d, rfl⟩
  | cons a l ih =>
      cases a with
      | none =>
          have hl' : RestGaps none l := by cases p <;> exact hl
          obtain ⟨d', h'⟩ := ih (d := handleDecoderExpire d)
            (invalidate_safe ⟨hd.wheel.of_cfg rfl, hd.hist, hd.cur, hd.req, hd.sound, hd.awake, hd.evenAwake, hd.count, hd.angle⟩)
            hty none (fun s h => by cases h) (fun _ => rfl) hl'
          exact ⟨d', h'⟩
      | some t =>
          have hsp : Spaced d 0 (stamp t) := by
            intro _
            refine ⟨fun hc => ?_, fun h => ?_⟩
            · cases p with
              | none => exact absurd (h0 rfl) hc.ne'
              | some s =>
                  have hg : (s < t ∧ t ≤ s + 5000000) := hl.1
                  rw [hp s rfl, stamp_sub]
                  have := stamp_toNat (d := t - s) (by omega) (by omega)
                  omega
            · rcases hty with h' | h' <;> rcases h with h | h <;> (rw [h'] at h; cases h)
          obtain ⟨o, ho, hs, -⟩ := decode_safe hd hsp
          have hl' : RestGaps (some t) l := by
            cases p with
            | none => exact hl
            | some s => exact hl.2
          have hcfg : o.d.type = d.type := congrArg DecConfig.type (decode_facts ho).cfg
          have hty' : o.d.type = .missingNosync ∨ o.d.type = .missingCamsync := by rw [hcfg]; exact hty
          obtain ⟨d', h'⟩ := ih (d := o.d) hs hty' (some t)
            (fun s h => by cases h; exact decode_times ho hty) (fun h => by cases h) hl'
          refine ⟨d', ?_⟩
          show ((decode d 0 (stamp t)) >>= fun o => o.d.run (l.map restartEv)) = _
          rw [ho, except_bind_ok, h']

/-- **C67, the part that holds.**  A standstill of any length is harmless if the decoder was reset when it began (as the expiry of
a synchronised decoder does) or if it is at most 1.25 s. -/
theorem C67_rest_partial {d0 : Decoder} {g v : ℚ} (hw : WheelSafe (decoderInit d0) g v)
    (hty : d0.type = .missingNosync ∨ d0.type = .missingCamsync) (l : List (Option ℤ)) (hl : RestGaps none l) :
    ∃ d, (decoderInit d0).run (l.map restartEv) = .ok d := by
  refine rest_run (d := decoderInit d0) ⟨hw, fun i _ h => absurd h (Nat.not_lt_zero _), Nat.zero_le _, fun h => absurd rfl h,
    fun h => (by cases h), fun h => (by cases h), fun _ h => (by cases h), fun _ h => (by cases h), ⟨0, rfl, le_refl _, by norm_num⟩⟩
    hty none (fun s h => by cases h) (fun _ => rfl) l hl

/-- The shipped wheel turns a little, stops for an hour and turns again: the hypotheses are met. -/
example : RestGaps none [some 100, some 10100, some 20100, none, some 14400000000, some 14400010000] := by
  simp [RestGaps]

omit [FloatFmt] in
theorem shipped_wheel : WheelSafe (decoderInit (@dfltDecoder binary32)) 10 ((@dfltDecoder binary32).maxRpmChange).toQ := by
  let _ := binary32
  refine ⟨?_, ?_, ?_, ?_, by norm_num, by norm_num, ?_, fun _ => ?_, fun h => ?_⟩
  · decide +kernel
  · decide +kernel
  · decide +kernel
  · decide +kernel
  · unfold TeethLimits; decide +kernel
  · have h : ((decoderInit dfltDecoder).numTriggers).toNat = 36 := by decide +kernel
    rw [h]; norm_num
  · rcases h with h | h <;> cases h

/-- Twenty teeth, a rest of 750 s, fifteen teeth, the gap and one more tooth. -/
def restDemo : List ℤ :=
  (List.range 20).map (fun i : ℕ => 10000 * (i + 1 : ℤ)) ++ (List.range 15).map (fun i : ℕ => 3000000000 + 10000 * (i + 1 : ℤ)) ++
    [3000170000, 3000180000]

omit [FloatFmt] in
/-- C67 is false of the code: the shipped wheel turns through twenty teeth without reaching the gap, rests for 750 s, and turns
again.  The average speed at the gap is taken over the rest and is 0; at the next tooth the stall timeout is computed by a division
by that speed, and converting the result to an integer is undefined. -/
theorem C67_full_false : ¬ @C67_full binary32 := by
  let _ := binary32
  intro h
  obtain ⟨d, hd⟩ := h dfltDecoder _ _ shipped_wheel (.inr rfl) restDemo (by decide +kernel)
  have he : (decoderInit dfltDecoder).run (restDemo.map fun t => restartEv (some t)) = .error .floatToInt :=
    errIs_error (by decide +kernel)
  rw [he] at hd
  cases hd

/-! ### C68 -/

/-- Events that are not teeth. -/
def NotTooth (d : Decoder) : DecEv → Prop
  | .trigger k _ => ¬ IsTooth d k
  | _ => True

theorem tooth_time {d : Decoder} {k : Int} {t : Time} {o : DecOut} (h : decode d k t = .ok o) (hk : IsTooth d k)
    (hs : d.state = .sync) (hr : d.requiredTriggersRpm.toNat ≤ d.currentTriggersRpm.toNat) : o.d.lastTriggerTime = t := by
  have fin1 : ∀ (s : DecState) (d1 : Decoder) (ex : Option Time), (decodeFinish s d1 ex).d.lastTriggerTime = d1.lastTriggerTime := by
    intro s d1 ex
    unfold decodeFinish
    split_ifs <;> rfl
  have fin2 : ∀ (s : Bool) (d1 : Decoder) (ex : Option Time), (camFinish s d1 ex).d.lastTriggerTime = d1.lastTriggerTime := by
    intro s d1 ex
    unfold camFinish
    simp only
    split_ifs <;> rfl
  have ev : ∀ d1 b, evenTriggerUpdate d t = .ok (d1, b) → d1.lastTriggerTime = t := by
    intro d1 b h1
    unfold evenTriggerUpdate at h1
    have hst : (evenBook d t).state = .sync := by
      obtain ⟨c, s, hb, hs', -⟩ := evenBook_frame d t
      rw [hb]
      rcases hs' with h | h
      · exact h.trans hs
      · rw [hs] at h; cases h.1
    have ha : (evenAdvance (evenBook d t) t).lastTriggerTime = t ∧ (evenAdvance (evenBook d t) t).state = .sync := by
      unfold evenAdvance
      rw [if_pos hst]
      exact ⟨rfl, hst⟩
    simp only at h1
    rw [if_pos (.inr ha.2), bind_eq_ok] at h1
    obtain ⟨d2, h2, h1⟩ := h1
    cases h1
    obtain ⟨_, _, _, _, _, _, hfr, -⟩ := evenUpdateRpm_frame h2
    rw [hfr]
    exact ha.1
  have mi : ∀ d1 b, missingTriggerUpdate d t = .ok (d1, b) → d1.lastTriggerTime = t := by
    intro d1 b h1
    have hb : d.requiredTriggersRpm.toNat ≤ (missingBump d t).currentTriggersRpm.toNat := by
      unfold missingBump
      simp only
      split_ifs with hlt
      · have h36 : d.currentTriggersRpm.toNat < 36 := hlt
        rw [BitVec.toNat_add, Nat.mod_eq_of_lt (by show _ + 1 < 4294967296; omega)]
        show _ ≤ _ + 1
        omega
      · exact hr
    rw [mtu_sync hb hs] at h1
    rw [bind_eq_ok] at h1; obtain ⟨ratio, -, h1⟩ := h1
    rw [bind_eq_ok] at h1; obtain ⟨d2, h2, h1⟩ := h1
    cases h1
    unfold missingExpire at h2
    simp only [bind_eq_ok] at h2
    obtain ⟨ex, -, ext, -, t0, -, h2⟩ := h2
    cases h2
    rfl
  unfold decode at h
  cases ht : d.type
  all_goals rw [ht] at h; simp only at h
  · unfold decodeEvenNosync at h
    rw [bind_eq_ok] at h; obtain ⟨⟨d1, b⟩, h1, h⟩ := h
    simp only at h
    split_ifs at h
    · cases h; rfl
    · cases h; exact ev d1 b h1
  · have hk0 : k = 0 := by
      rcases hk with h | h
      · exact h
      · rw [ht] at h; cases h
    unfold decodeEvenCamsync at h
    simp only [hk0, if_true] at h
    rw [bind_eq_ok] at h; obtain ⟨⟨d1, b⟩, h1, h⟩ := h
    cases h
    rw [fin1]; exact ev d1 b h1
  · have hk0 : k = 0 := by
      rcases hk with h | h
      · exact h
      · rw [ht] at h; cases h
    unfold decodeMissingNosync at h
    simp only [hk0, if_true] at h
    rw [bind_eq_ok] at h; obtain ⟨⟨d1, b⟩, h1, h⟩ := h
    simp only at h
    rw [bind_eq_ok] at h; obtain ⟨d2, h2, h⟩ := h
    cases h
    obtain ⟨tr, r, hd2⟩ := missingRpms_frame h2
    rw [fin1, hd2]; exact mi d1 b h1
  · have hk0 : k = 0 := by
      rcases hk with h | h
      · exact h
      · rw [ht] at h; cases h
    unfold decodeMissingCamsync at h
    simp only [hk0, if_true] at h
    rw [bind_eq_ok] at h; obtain ⟨⟨d1, b⟩, h1, h⟩ := h
    simp only at h
    rw [bind_eq_ok] at h; obtain ⟨d2, h2, h⟩ := h
    cases h
    obtain ⟨va, x, y, hr, -⟩ := camRotation_frame d1
    obtain ⟨tr, r, hd2⟩ := missingRpms_frame h2
    rw [fin2, hd2, hr]; exact mi d1 b h1

/-- Other events leave the time alone. -/
theorem other_time {d : Decoder} {ev : DecEv} {o : DecOut} (h : d.on ev = .ok o) (hk : NotTooth d ev) :
    o.d.lastTriggerTime = d.lastTriggerTime := by
  have fin1 : ∀ (s : DecState) (d1 : Decoder) (ex : Option Time), (decodeFinish s d1 ex).d.lastTriggerTime = d1.lastTriggerTime := by
    intro s d1 ex
    unfold decodeFinish
    split_ifs <;> rfl
  have fin2 : ∀ (s : Bool) (d1 : Decoder) (ex : Option Time), (camFinish s d1 ex).d.lastTriggerTime = d1.lastTriggerTime := by
    intro s d1 ex
    unfold camFinish
    simp only
    split_ifs <;> rfl
  cases ev with
  | expire => cases h; rfl
  | desync r => cases h; rfl
  | trigger k t =>
      have h : decode d k t = .ok o := h
      have hk : ¬ (k = 0 ∨ d.type = .evenNosync) := hk
      push Not at hk
      unfold decode at h
      cases ht : d.type
      all_goals rw [ht] at h; simp only at h
      · exact absurd ht hk.2
      · unfold decodeEvenCamsync at h
        simp only [hk.1, if_false] at h
        split_ifs at h
        · cases h
          obtain ⟨s, l, a, he, -⟩ := evenSyncUpdate_frame d
          rw [fin1, he]
        · cases h; rw [fin1]
      · unfold decodeMissingNosync at h
        simp only [hk.1, if_false] at h
        rw [bind_eq_ok] at h; obtain ⟨d2, h2, h⟩ := h
        cases h
        obtain ⟨tr, r, hd2⟩ := missingRpms_frame h2
        rw [fin1, hd2]
      · unfold decodeMissingCamsync at h
        simp only [hk.1, if_false] at h
        rw [bind_eq_ok] at h; obtain ⟨d2, h2, h⟩ := h
        cases h
        obtain ⟨tr, r, hd2⟩ := missingRpms_frame h2
        rw [fin2, hd2]
        split_ifs
        · obtain ⟨va, x, hr, -⟩ := camPulse_frame d
          rw [hr]
        · rfl

theorem others_time {d d' : Decoder} {evs : List DecEv} (h : d.run evs = .ok d') (hk : ∀ ev ∈ evs, NotTooth d ev) :
    d'.lastTriggerTime = d.lastTriggerTime := by
  induction evs generalizing d with
  | nil => cases h; rfl
  | cons ev evs ih =>
      unfold Decoder.run at h
      rw [bind_eq_ok] at h; obtain ⟨o, h1, h⟩ := h
      have hty : o.d.type = d.type := congrArg DecConfig.type (on_facts h1).cfg
      rw [ih h ?_, other_time h1 (hk ev (List.mem_cons_self ..))]
      intro ev' hm
      have := hk ev' (List.mem_cons_of_mem _ hm)
      cases ev' with
      | trigger k t =>
          show ¬ (k = 0 ∨ o.d.type = .evenNosync)
          rw [hty]; exact this
      | _ => trivial

theorem run_required {d0 d : Decoder} {evs : List DecEv} (h : DecRun d0 evs d) :
    (d.valid = true → d.state = .sync) ∧ (d.state ≠ .nosync → d.requiredTriggersRpm.toNat ≤ d.currentTriggersRpm.toNat) := by
  induction h with
  | start => exact ⟨fun h => (by cases h), fun h => absurd rfl h⟩
  | @on d evs ev o _ he ih =>
      have hf := on_facts he
      refine ⟨hf.sound ih.1, fun hs => ?_⟩
      have hreq : o.d.requiredTriggersRpm = d.requiredTriggersRpm := congrArg DecConfig.requiredTriggersRpm hf.cfg
      rw [hreq]
      cases hl : o.lost
      · rcases hf.fresh hs with h5 | h5
        · have := ih.2 h5
          rcases hf.cur hl with hc | hc
          · rw [hc]; exact this
          · omega
        · exact h5
      · exact absurd (hf.clear hl).2.1 hs

/-- C68 in full: when the decoder is valid, the time it reports for its angle is the time of the latest tooth. -/
def C68_full : Prop :=
  ∀ (d0 d1 d2 : Decoder) (before after : List DecEv) (k : Int) (t : Time) (o : DecOut), DecRun d0 before d1 → IsTooth d1 k →
    d1.on (.trigger k t) = .ok o → o.d.run after = .ok d2 → (∀ ev ∈ after, NotTooth o.d ev) → d2.valid = true →
    d2.lastTriggerTime = t

/-- **C68**, when the decoder was already valid before that tooth: for all four wheels. -/
theorem C68_latest_tooth_partial {d0 d1 d2 : Decoder} {before after : List DecEv} {k : Int} {t : Time} {o : DecOut}
    (h : DecRun d0 before d1) (hv : d1.valid = true) (hk : IsTooth d1 k) (h1 : d1.on (.trigger k t) = .ok o)
    (h2 : o.d.run after = .ok d2) (ha : ∀ ev ∈ after, NotTooth o.d ev) : d2.lastTriggerTime = t := by
  obtain ⟨i1, i2⟩ := run_required h
  have hs := i1 hv
  rw [others_time h2 ha]
  exact tooth_time h1 hk hs (i2 (by rw [hs]; decide))

/-- Without teeth an even wheel without cam does not become valid. -/
theorem still_valid {d d' : Decoder} {evs : List DecEv} (hty : d.type = .evenNosync) (h : d.run evs = .ok d')
    (hk : ∀ ev ∈ evs, NotTooth d ev) (hv : d'.valid = true) : d.valid = true := by
  induction evs generalizing d with
  | nil => cases h; exact hv
  | cons ev evs ih =>
      unfold Decoder.run at h
      rw [bind_eq_ok] at h; obtain ⟨o, h1, h⟩ := h
      have h0 := hk ev (List.mem_cons_self ..)
      have hty' : o.d.type = d.type := congrArg DecConfig.type (on_facts h1).cfg
      have hv' := ih (hty'.trans hty) h (fun ev' hm => by
        have := hk ev' (List.mem_cons_of_mem _ hm)
        cases ev' with
        | trigger k t =>
            show ¬ (k = 0 ∨ o.d.type = .evenNosync)
            rw [hty']; exact this
        | _ => trivial)
      cases ev with
      | trigger k t => exact absurd (.inr hty) h0
      | _ => cases h1; cases hv'

/-- **C68** for an even wheel without cam, in full. -/
theorem C68_even_partial {d0 d1 d2 : Decoder} {before after : List DecEv} {k : Int} {t : Time} {o : DecOut}
    (hty : d0.type = .evenNosync) (h : DecRun d0 before d1) (h1 : d1.on (.trigger k t) = .ok o)
    (h2 : o.d.run after = .ok d2) (ha : ∀ ev ∈ after, NotTooth o.d ev) (hv : d2.valid = true) : d2.lastTriggerTime = t := by
  have ht : d1.type = .evenNosync := by
    clear h1 h2
    induction h with
    | start => exact hty
    | on _ he ih => exact (congrArg DecConfig.type (on_facts he).cfg : _ = _).trans ih
  rw [others_time h2 ha]
  have hv := still_valid ((congrArg DecConfig.type (on_facts h1).cfg : _ = _).trans ht) h2 ha hv
  have hvs := (on_facts h1).sound (run_required h).1 hv
  have h1 : decode d1 k t = .ok o := h1
  unfold decode at h1
  rw [ht] at h1
  simp only at h1
  unfold decodeEvenNosync at h1
  rw [bind_eq_ok] at h1; obtain ⟨⟨d3, b⟩, h3, h1⟩ := h1
  simp only at h1
  split_ifs at h1 with hst
  · cases h1; rfl
  · cases h1; cases hvs
  · cases h1; exact absurd (.inr hvs) hst

/-- Met: an even wheel becomes valid and keeps the time of the tooth through a pulse on an unused input. -/
example : ∃ d1 o, @DecReach binary32 (fun _ => True) (demoDecoder .evenNosync) d1 ∧
    @Decoder.on binary32 d1 (.trigger 0 120000) = .ok o ∧ o.d.valid = true := by
  let _ := binary32
  obtain ⟨d, h1, h2⟩ := okAnd_ok (x := (decoderInit (demoDecoder .evenNosync)).run (teeth [40000, 80000]))
    (p := fun d => okAnd (d.on (.trigger 0 120000)) fun o => o.d.valid) (by decide +kernel)
  obtain ⟨o, h3, h4⟩ := okAnd_ok h2
  exact ⟨d, o, run_reach .start h1, h3, h4⟩

theorem run_decRun {d0 : Decoder} (l : List DecEv) (d e : Decoder) (bs : List DecEv) (hb : DecRun d0 bs d) (hr : d.run l = .ok e) :
    ∃ bs', DecRun d0 bs' e := by
  induction l generalizing d bs with
  | nil => cases hr; exact ⟨bs, hb⟩
  | cons a l ih =>
      unfold Decoder.run at hr
      rw [bind_eq_ok] at hr; obtain ⟨o, h1, hr⟩ := hr
      exact ih _ _ (.on hb h1) hr

omit [FloatFmt] in
/-- C68 is false at the tooth that gains synchronisation on a missing-tooth wheel: the decoder is valid, and the time it reports is
from before (here still zero). -/
theorem C68_full_false : ¬ @C68_full binary32 := by
  let _ := binary32
  intro h
  obtain ⟨d1, h1, h2⟩ := okAnd_ok (x := (decoderInit (demoDecoder .missingNosync)).run (teeth [40000, 80000, 120000]))
    (p := fun d => okAnd (d.on (.trigger 0 200000)) fun o => o.d.valid && decide (o.d.lastTriggerTime = 0)) (by decide +kernel)
  obtain ⟨o, h3, h4⟩ := okAnd_ok h2
  rw [Bool.and_eq_true] at h4
  obtain ⟨bs, hb⟩ := run_decRun _ _ _ _ .start h1
  have := h _ d1 o.d bs [] 0 200000 o hb (.inl rfl) h3 rfl (fun _ h => by cases h) h4.1
  rw [of_decide_eq_true h4.2] at this
  exact absurd this (by decide)

omit [FloatFmt] in
/-- It is false too between the cam pulse that synchronises an even wheel and the next tooth. -/
theorem C68_cam_stale : ∃ d1 o d2 bs, @DecRun binary32 (demoDecoder .evenCamsync) bs d1 ∧
    @Decoder.on binary32 d1 (.trigger 0 120000) = .ok o ∧ @Decoder.run binary32 o.d [.trigger 1 130000] = .ok d2 ∧
    d2.valid = true ∧ d2.lastTriggerTime = 0 := by
  let _ := binary32
  obtain ⟨d1, h1, h2⟩ := okAnd_ok (x := (decoderInit (demoDecoder .evenCamsync)).run (teeth [40000, 80000]))
    (p := fun d => okAnd (d.on (.trigger 0 120000)) fun o => okAnd (o.d.run [.trigger 1 130000]) fun d2 =>
      d2.valid && decide (d2.lastTriggerTime = 0)) (by decide +kernel)
  obtain ⟨o, h3, h4⟩ := okAnd_ok h2
  obtain ⟨d2, h5, h6⟩ := okAnd_ok h4
  rw [Bool.and_eq_true] at h6
  obtain ⟨bs, hb⟩ := run_decRun _ _ _ _ .start h1
  exact ⟨d1, o, d2, bs, hb, h3, h5, h6.1, of_decide_eq_true h6.2⟩

end Verif
