/-
The whole firmware seen from its parts: what a step of the engine does to the outputs, to the callback queue and to the
log.
-/
import Verif.Spec.Engine
import Verif.Props.Callback
import Verif.Props.Decoder
import Verif.Proofs.EventLog
import Mathlib.Logic.Relation

namespace Verif

open Relation (ReflTransGen)

/-- Replace the events. -/
def Dma.withEvs {n : Nat} (s : Dma n) (evs : Fin n → OEvent) : Dma n := { s with evs := evs }

theorem setEv_self {n : Nat} (evs : Fin n → OEvent) (i : Fin n) : setEv evs i (evs i) = evs := by
  funext j
  unfold setEv
  split_ifs with h
  · rw [h]
  · rfl

theorem invalidateAt_path {n : Nat} {s : Dma n} {evs evs' : Fin n → OEvent} {i : Fin n} (h : invalidateAt evs i = .ok evs') :
    ReflTransGen DmaStep (s.withEvs evs) (s.withEvs evs') := by
  unfold invalidateAt at h
  rw [bind_eq_ok] at h; obtain ⟨ev, h1, h⟩ := h
  simp only [except_pure, Except.ok.injEq] at h
  subst h
  unfold invalidateOne at h1
  split_ifs at h1 with h2 h3
  · cases h1; rw [setEv_self]
  · have := descheduleEvent_cases h1
    subst this
    exact .single (.cancel (s.withEvs evs) i)
  · cases h1; rw [setEv_self]

/-- Cancelling the outputs is a sequence of single cancellations. -/
theorem invalidate_path {n : Nat} {s : Dma n} {evs evs' : Fin n → OEvent} (h : invalidateEvents evs = .ok evs') :
    ReflTransGen DmaStep (s.withEvs evs) (s.withEvs evs') := by
  unfold invalidateEvents at h
  generalize List.finRange n = l at h
  induction l generalizing evs with
  | nil => cases h; exact .refl
  | cons i l ih =>
      rw [List.foldlM_cons, bind_eq_ok] at h
      obtain ⟨evs1, h1, h⟩ := h
      exact (invalidateAt_path h1).trans (ih h)

variable [FloatFmt]

theorem reset_path {n : Nat} {s : Dma n} {i : Fin n} {d : Decoder} {stop : Time} {ev1 : OEvent}
    (h : resetIfFired (s.evs i) d stop = .ok (some ev1)) : ReflTransGen DmaStep s (s.set i ev1) := by
  unfold resetIfFired at h
  by_cases hf : eventHasFired (s.evs i) = true
  · rw [if_pos hf, bind_eq_ok] at h
    obtain ⟨b, h1, h⟩ := h
    cases b
    · simp only [Bool.false_eq_true, if_false] at h
      rw [bind_eq_ok] at h; obtain ⟨ev, h2, h⟩ := h
      simp only [except_pure, Except.ok.injEq, Option.some.injEq] at h
      subst h
      exact .single (.reset s i ev hf h2)
    · simp only [if_true] at h; cases h
  · rw [if_neg hf] at h
    simp only [except_pure, Except.ok.injEq, Option.some.injEq] at h
    subst h
    have : s.set i (s.evs i) = s := by unfold Dma.set; rw [setEv_self]
    rw [this]

omit [FloatFmt] in
theorem set_set {n : Nat} (s : Dma n) (i : Fin n) (a b : OEvent) : (s.set i a).set i b = s.set i b := by
  unfold Dma.set setEv
  congr 1
  funext j
  simp only
  split_ifs <;> rfl

omit [FloatFmt] in
theorem set_get {n : Nat} (s : Dma n) (i : Fin n) (a : OEvent) : (s.set i a).evs i = a := by
  unfold Dma.set setEv
  simp

omit [FloatFmt] in
/-- Arming an output. -/
theorem safely_path {n : Nat} {s : Dma n} (i : Fin n) (ev : OEvent) (ns np : Time) :
    ReflTransGen DmaStep (s.set i ev) (s.set i (scheduleSafely s.earliest ev ns np)) := by
  have h1 := DmaStep.repin (s.set i ev) i
  rw [set_get, set_set] at h1
  have h2 := DmaStep.arm (s.set i (setPins ev)) i ns np (by rw [set_get]; rfl)
  rw [set_get, set_set] at h2
  exact (ReflTransGen.single h1).tail h2

/-- `schedule_event` is a sequence of the elementary output steps. -/
theorem scheduleEvent_path {n : Nat} {s : Dma n} {env : SchedEnv} (he : env.earliest = s.earliest) {i : Fin n}
    {r : (Fin n → OEvent) × Option Time} (h : scheduleEvent env s.evs i = .ok r) :
    ReflTransGen DmaStep s (s.withEvs r.1) := by
  have hself : s.set i (s.evs i) = s := by unfold Dma.set; rw [setEv_self]
  unfold scheduleEvent at h
  cases ht : (s.evs i).type with
  | disabled =>
      rw [ht] at h; cases h; exact .refl
  | ignition =>
      rw [ht] at h
      simp only at h
      split_ifs at h with hc
      · rw [bind_eq_ok] at h; obtain ⟨evs, h1, h⟩ := h
        cases h
        exact invalidate_path (s := s) h1
      · rw [bind_eq_ok] at h; obtain ⟨ev, h1, h⟩ := h
        cases h
        show ReflTransGen DmaStep s (s.set i ev)
        rcases scheduleIgnition_cases h1 with rfl | ⟨stop, dwell, ev1, -, -, h2, rfl | ⟨-, -, rfl⟩⟩
        · rw [hself]
        · exact reset_path h2
        · rw [he]
          exact (reset_path h2).trans (safely_path i ev1 _ _)
  | fuel =>
      rw [ht] at h
      simp only at h
      split_ifs at h with hc
      · rw [bind_eq_ok] at h; obtain ⟨evs, h1, h⟩ := h
        cases h
        exact invalidate_path (s := s) h1
      · rw [bind_eq_ok] at h; obtain ⟨⟨ev, cb⟩, h1, h⟩ := h
        cases h
        show ReflTransGen DmaStep s (s.set i ev)
        rcases scheduleFuel_cases h1 with h2 | ⟨stop, ev1, -, h2, h3 | ⟨-, h3⟩⟩
        · cases h2
          rw [hself]
        · cases h3
          exact reset_path h2
        · cases h3
          rw [he]
          exact (reset_path h2).trans (safely_path i ev1 _ _)

theorem engSchedule_path {e e' : Engine} {now : Time} {i : Fin maxEvents} (h : engSchedule e now i = .ok e') :
    ReflTransGen DmaStep e.dma e'.dma := by
  unfold engSchedule at h
  split_ifs at h with hd
  · cases h; exact .refl
  · rw [bind_eq_ok] at h; obtain ⟨⟨cut, v⟩, h1, h⟩ := h
    simp only at h
    rw [bind_eq_ok] at h; obtain ⟨⟨evs, cb⟩, h2, h⟩ := h
    simp only at h
    rw [bind_eq_ok] at h; obtain ⟨q, h3, h⟩ := h
    cases h
    exact scheduleEvent_path (s := e.dma) (env := engEnv { e with vals := v } now cut) rfl h2

theorem engDecode_path {e e' : Engine} {k : Int} {t : Time} (h : engDecode e k t = .ok e') :
    ReflTransGen DmaStep e.dma e'.dma := by
  unfold engDecode at h
  simp only [bind_eq_ok] at h
  obtain ⟨o, h1, q, h2, evs, h3, h⟩ := h
  cases h
  unfold cancelIf at h3
  split_ifs at h3 with hl
  · exact invalidate_path (s := e.dma) h3
  · cases h3; exact .refl

theorem engCalc_dma {e e' : Engine} {now : Time} (h : engCalc e now = .ok e') : e'.dma = e.dma ∧ e'.q = e.q ∧
    e'.log = e.log ∧ e'.given = e.given ∧ e'.cfg = e.cfg ∧ (e'.pc = .idle ∨ e'.pc = .loop 0) := by
  unfold engCalc at h
  split_ifs at h
  · simp only [bind_eq_ok] at h
    obtain ⟨v, h1, ⟨v2, s⟩, h2, h⟩ := h
    cases h; exact ⟨rfl, rfl, rfl, rfl, rfl, .inr rfl⟩
  · cases h; exact ⟨rfl, rfl, rfl, rfl, rfl, .inl rfl⟩

theorem engCallback_path {e e' : Engine} {now : Time} {c : CbId} (h : engCallback e now c = .ok e') :
    ReflTransGen DmaStep e.dma e'.dma := by
  cases c with
  | expire =>
      unfold engCallback at h
      rw [bind_eq_ok] at h; obtain ⟨evs, h1, h⟩ := h
      cases h
      exact invalidate_path (s := e.dma) h1
  | event i => exact engSchedule_path h
  | testTrigger => cases h; exact .refl
  | replay => cases h; exact .refl

theorem engWork_path {e e' : Engine} {now : Time} (h : engWork e now = .ok e') : ReflTransGen DmaStep e.dma e'.dma := by
  unfold engWork at h
  split at h
  · cases h; exact .refl
  · split at h
    · rw [bind_eq_ok] at h; obtain ⟨e1, h1, h⟩ := h
      rw [(engCalc_dma h).1]
      exact engDecode_path h1
    · rw [bind_eq_ok] at h; obtain ⟨l, h1, h⟩ := h
      cases h; exact .refl
  · unfold engLoop at h
    split_ifs at h
    · rw [bind_eq_ok] at h; obtain ⟨e1, h1, h⟩ := h
      cases h
      exact engSchedule_path (e' := e1) h1
    · cases h; exact .refl
  · rw [bind_eq_ok] at h; obtain ⟨q, h1, h⟩ := h
    cases h; exact .refl

omit [FloatFmt] in
theorem whenIdle_ok {e e' : Engine} {f : Except Fault Engine} (h : whenIdle e f = .ok e') : e' = e ∨ (e.pc = .idle ∧ f = .ok e') := by
  unfold whenIdle at h
  split at h
  · rename_i hp; exact .inr ⟨hp, h⟩
  · cases h; exact .inl rfl

omit [FloatFmt] in
theorem engSwap_dma (e : Engine) (now : Time) : (engSwap e now).dma = bufferSwap e.dma now := by
  unfold engSwap
  generalize bufferSwap e.dma now = s
  rfl

/-- Every step of the engine is a sequence of elementary output steps. -/
theorem engStep_path {e e' : Engine} {a : EngAct} (ha : SwapOk e a) (h : engStep e a = .ok e') :
    ReflTransGen DmaStep e.dma e'.dma := by
  cases a with
  | trigger k t =>
      rcases whenIdle_ok h with rfl | ⟨-, h⟩
      · exact .refl
      · unfold engTrigger at h
        rw [bind_eq_ok] at h; obtain ⟨l, h1, h⟩ := h
        cases h; exact .refl
  | work now => exact engWork_path h
  | timer now =>
      rcases whenIdle_ok h with rfl | ⟨-, h⟩
      · exact .refl
      · unfold engTimer at h
        rw [bind_eq_ok] at h; obtain ⟨⟨c, q⟩, h1, h⟩ := h
        simp only at h
        rw [bind_eq_ok] at h; obtain ⟨e1, h2, h⟩ := h
        cases h
        exact engCallback_path (e := { e with q := q }) (e' := e1) h2
  | desync r =>
      rcases whenIdle_ok h with rfl | ⟨-, h⟩
      · exact .refl
      · unfold engDesync at h
        rw [bind_eq_ok] at h; obtain ⟨evs, h1, h⟩ := h
        cases h
        exact invalidate_path (s := e.dma) h1
  | swap now =>
      have h : engSwap e now = e' := Except.ok.inj h
      rw [← h, engSwap_dma]
      exact .single (.swap e.dma now ha)
  | sensors s => cases h; exact .refl
  | get =>
      unfold engStep engLog at h
      rw [bind_eq_ok] at h; obtain ⟨l, h1, h⟩ := h
      cases h; exact .refl
  | getStep =>
      unfold engStep engLog at h
      rw [bind_eq_ok] at h; obtain ⟨l, h1, h⟩ := h
      cases h; exact .refl
  | logging b =>
      unfold engStep engLog at h
      rw [bind_eq_ok] at h; obtain ⟨l, h1, h⟩ := h
      cases h; exact .refl

/-! ### Trigger counters -/

omit [FloatFmt] in
theorem decodeFinish_counts (s : DecState) (d : Decoder) (ex : Option Time) :
    (decodeFinish s d ex).d.t0Count = d.t0Count ∧ (decodeFinish s d ex).d.t1Count = d.t1Count := by
  unfold decodeFinish
  split_ifs <;> exact ⟨rfl, rfl⟩

theorem camFinish_counts (v : Bool) (d : Decoder) (ex : Option Time) :
    (camFinish v d ex).d.t0Count = d.t0Count ∧ (camFinish v d ex).d.t1Count = d.t1Count := by
  unfold camFinish
  simp only
  split_ifs <;> exact ⟨rfl, rfl⟩

/-- Decoding does not touch the counters. -/
theorem decode_counts {d : Decoder} {k : Int} {t : Time} {o : DecOut} (h : decode d k t = .ok o) :
    o.d.t0Count = d.t0Count ∧ o.d.t1Count = d.t1Count := by
  unfold decode at h
  cases ht : d.type
  all_goals simp only [ht] at h
  · unfold decodeEvenNosync at h
    rw [bind_eq_ok] at h; obtain ⟨⟨d1, b⟩, h1, h⟩ := h
    obtain ⟨tr, r, cc, s, l, e, c, lt, hd1, -⟩ := evenTriggerUpdate_frame h1
    simp only at h
    split_ifs at h
    all_goals
      simp only [except_pure, Except.ok.injEq] at h
      subst h
      subst hd1
      exact ⟨rfl, rfl⟩
  · unfold decodeEvenCamsync at h
    simp only at h
    split_ifs at h
    · rw [bind_eq_ok] at h; obtain ⟨⟨d1, b⟩, h1, h⟩ := h
      obtain ⟨tr, r, cc, s, l, e, c, lt, hd1, -⟩ := evenTriggerUpdate_frame h1
      simp only [except_pure, Except.ok.injEq] at h
      subst h
      subst hd1
      exact decodeFinish_counts _ _ _
    · simp only [except_pure, Except.ok.injEq] at h
      subst h
      obtain ⟨s, l, a, he, -⟩ := evenSyncUpdate_frame d
      rw [he]
      exact decodeFinish_counts _ _ _
    · simp only [except_pure, Except.ok.injEq] at h
      subst h
      exact decodeFinish_counts _ _ _
  · unfold decodeMissingNosync at h
    simp only at h
    split_ifs at h
    · rw [bind_eq_ok] at h; obtain ⟨⟨d1, b⟩, h1, h⟩ := h
      rw [bind_eq_ok] at h; obtain ⟨d2, h2, h⟩ := h
      obtain ⟨c, s, cc, k', a, lt, e, l, hd1, -⟩ := missingTriggerUpdate_frame h1
      obtain ⟨tr, r, hd2⟩ := missingRpms_frame h2
      simp only [except_pure, Except.ok.injEq] at h
      subst h
      rw [hd2, hd1]
      exact decodeFinish_counts _ _ _
    · rw [bind_eq_ok] at h; obtain ⟨d2, h2, h⟩ := h
      obtain ⟨tr, r, hd2⟩ := missingRpms_frame h2
      simp only [except_pure, Except.ok.injEq] at h
      subst h
      rw [hd2]
      exact decodeFinish_counts _ _ _
  · unfold decodeMissingCamsync at h
    simp only at h
    by_cases h0 : k = 0
    · rw [if_pos h0] at h
      rw [bind_eq_ok] at h; obtain ⟨⟨d1, b⟩, h1, h⟩ := h
      rw [bind_eq_ok] at h; obtain ⟨d2, h2, h⟩ := h
      obtain ⟨c, s, cc, k', a, lt, e, l, hd1, -⟩ := missingTriggerUpdate_frame h1
      obtain ⟨v, x, y, hr, hv⟩ := camRotation_frame d1
      obtain ⟨tr, r, hd2⟩ := missingRpms_frame h2
      simp only [except_pure, Except.ok.injEq] at h
      subst h
      rw [hd2, hr, hd1]
      exact camFinish_counts _ _ _
    · rw [if_neg h0] at h
      rw [bind_eq_ok] at h; obtain ⟨d2, h2, h⟩ := h
      obtain ⟨tr, r, hd2⟩ := missingRpms_frame h2
      simp only [except_pure, Except.ok.injEq] at h
      subst h
      rw [hd2]
      by_cases h1 : k = 1
      · rw [if_pos h1]
        obtain ⟨v, x, hr, hv⟩ := camPulse_frame d
        rw [hr]
        exact camFinish_counts _ _ _
      · rw [if_neg h1]
        exact camFinish_counts _ _ _

/-! ### Which outputs can be armed -/

/-- No start edge is armed. -/
def NoArmed {n : Nat} (evs : Fin n → OEvent) : Prop := ∀ i, (evs i).start.state ≠ .scheduled

/-- The start edge of a disabled output is not armed. -/
def OffIdle {n : Nat} (evs : Fin n → OEvent) : Prop := ∀ i, (evs i).type = .disabled → (evs i).start.state ≠ .scheduled

omit [FloatFmt] in
theorem enabled_of_ne {ev : OEvent} (h : ev.type ≠ .disabled) : Enabled ev := by
  unfold Enabled
  cases ht : ev.type with
  | disabled => exact absurd ht h
  | fuel => exact .inl rfl
  | ignition => exact .inr rfl

omit [FloatFmt] in
theorem inv_noArmed {n : Nat} {evs evs' : Fin n → OEvent} (h : invalidateEvents evs = .ok evs') (ho : OffIdle evs) :
    NoArmed evs' ∧ OffIdle evs' := by
  have key : NoArmed evs' := by
    intro i
    obtain ⟨h1, h2, h3⟩ := C17_invalidate h i
    by_cases hd : (evs i).type = .disabled
    · rw [h2 (ho i hd)]; exact ho i hd
    · exact h1 (enabled_of_ne (by rw [h3]; exact hd))
  exact ⟨key, fun i _ => key i⟩

theorem scheduleIgnition_type {env : SchedEnv} {ev ev' : OEvent} (h : scheduleIgnition env ev = .ok ev') :
    ev'.type = ev.type := by
  have hr : ∀ {stop ev1}, resetIfFired ev env.d stop = .ok (some ev1) → ev1.type = ev.type := by
    intro stop ev1 h
    unfold resetIfFired at h
    split_ifs at h
    · rw [bind_eq_ok] at h; obtain ⟨b, -, h⟩ := h
      cases b
      · simp only [Bool.false_eq_true, if_false] at h
        rw [bind_eq_ok] at h; obtain ⟨v, h2, h⟩ := h
        cases h
        unfold resetFiredEvent at h2
        rw [bind_eq_ok] at h2; obtain ⟨-, -, h2⟩ := h2
        rw [bind_eq_ok] at h2; obtain ⟨-, -, h2⟩ := h2
        cases h2; rfl
      · cases h
    · cases h; rfl
  rcases scheduleIgnition_cases h with rfl | ⟨stop, dwell, ev1, -, -, h2, rfl | ⟨-, -, rfl⟩⟩
  · rfl
  · exact hr h2
  · rw [← hr h2]
    unfold scheduleSafely scheduleCrit
    split_ifs <;> rfl

theorem scheduleFuel_type {env : SchedEnv} {ev : OEvent} {r : OEvent × Option Time} (h : scheduleFuel env ev = .ok r) :
    r.1.type = ev.type := by
  have hr : ∀ {stop ev1}, resetIfFired ev env.d stop = .ok (some ev1) → ev1.type = ev.type := by
    intro stop ev1 h
    unfold resetIfFired at h
    split_ifs at h
    · rw [bind_eq_ok] at h; obtain ⟨b, -, h⟩ := h
      cases b
      · simp only [Bool.false_eq_true, if_false] at h
        rw [bind_eq_ok] at h; obtain ⟨v, h2, h⟩ := h
        cases h
        unfold resetFiredEvent at h2
        rw [bind_eq_ok] at h2; obtain ⟨-, -, h2⟩ := h2
        rw [bind_eq_ok] at h2; obtain ⟨-, -, h2⟩ := h2
        cases h2; rfl
      · cases h
    · cases h; rfl
  rcases scheduleFuel_cases h with rfl | ⟨stop, ev1, -, h2, rfl | ⟨-, rfl⟩⟩
  · rfl
  · exact hr h2
  · show (scheduleSafely _ _ _ _).type = _
    rw [← hr h2]
    unfold scheduleSafely scheduleCrit
    split_ifs <;> rfl

theorem schedule_offIdle {n : Nat} {env : SchedEnv} {evs : Fin n → OEvent} {i : Fin n}
    {r : (Fin n → OEvent) × Option Time} (h : scheduleEvent env evs i = .ok r) (ho : OffIdle evs) : OffIdle r.1 := by
  have hset : ∀ ev : OEvent, ev.type = (evs i).type → (evs i).type ≠ .disabled → OffIdle (setEv evs i ev) := by
    intro ev h1 h2 j
    unfold setEv
    split_ifs with hj
    · intro h3; exact absurd (h1.symm.trans h3) h2
    · exact ho j
  unfold scheduleEvent at h
  cases ht : (evs i).type with
  | disabled => rw [ht] at h; cases h; exact ho
  | ignition =>
      rw [ht] at h
      simp only at h
      split_ifs at h
      · rw [bind_eq_ok] at h; obtain ⟨evs1, h1, h⟩ := h
        cases h; exact (inv_noArmed h1 ho).2
      · rw [bind_eq_ok] at h; obtain ⟨ev, h1, h⟩ := h
        cases h; exact hset _ (scheduleIgnition_type h1) (by rw [ht]; decide)
  | fuel =>
      rw [ht] at h
      simp only at h
      split_ifs at h
      · rw [bind_eq_ok] at h; obtain ⟨evs1, h1, h⟩ := h
        cases h; exact (inv_noArmed h1 ho).2
      · rw [bind_eq_ok] at h; obtain ⟨⟨ev, cb⟩, h1, h⟩ := h
        cases h; exact hset _ (scheduleFuel_type h1) (by rw [ht]; decide)

/-- With an invalid decoder nothing is armed, and nothing else changes. -/
theorem schedule_lost {n : Nat} {env : SchedEnv} {evs : Fin n → OEvent} {i : Fin n}
    {r : (Fin n → OEvent) × Option Time} (h : scheduleEvent env evs i = .ok r) (hv : env.d.valid = false)
    (hn : NoArmed evs) : r.1 = evs ∧ r.2 = none := by
  by_cases ht : (evs i).type = .disabled
  · unfold scheduleEvent at h
    rw [ht] at h; cases h; exact ⟨rfl, rfl⟩
  · obtain ⟨h1, h2⟩ := C17_schedule_event h (enabled_of_ne ht) (.inl hv)
    exact ⟨funext fun j => (h2 j).2 (hn j), h1⟩

omit [FloatFmt] in
theorem swap_start (s : Dma maxEvents) (now : Time) (i : Fin maxEvents) :
    ((bufferSwap s now).evs i).type = (s.evs i).type ∧
    SwapEdge (roundToBuffer now + 128) (s.buf s.cur).first (s.evs i).start ((bufferSwap s now).evs i).start := by
  have := (bufferSwap_spec s now).2.2.2.1 i
  rw [this]
  exact ⟨rfl, swapEdge _ _ _⟩

end Verif
