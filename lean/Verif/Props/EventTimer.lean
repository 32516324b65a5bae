/-
C10: timer interrupts and due work.
-/
import Verif.Model.EventTimer
import Verif.Proofs.Callback
import Verif.Props.Callback

namespace Verif

/-- Histories of the clock, the timer and the queue from power-on; the flag says whether the
history is inside the timer interrupt.  `ok` restricts when the clock may move. -/
inductive EvReach (hw : TimerHw) (ok : EvTimer CbId → Prop) : EvTimer CbId → Bool → Prop
  | init (now : Time) : EvReach hw ok { q := CbQ.init CbId, now := now, set := none, flag := false } false
  | tick {s b} : EvReach hw ok s b → ok s → EvReach hw ok (evTick hw s) b
  | request {s s' b} (c : CbId) (t : Time) : EvReach hw ok s b → evRequest s c t = .ok s' → EvReach hw ok s' b
  | take {s s'} (c : CbId) : EvReach hw ok s false → s.flag = true → evTake s = .ok (c, s') → EvReach hw ok s' true
  | rearm {s s'} : EvReach hw ok s true → evRearm s = .ok s' → EvReach hw ok s' false

/-- Full statement of C10 for a platform: whenever the interrupt is pending there is a pending
callback whose time has come, so that the handler runs it. -/
def C10_full (hw : TimerHw) : Prop :=
  ∀ s : EvTimer CbId, EvReach hw (fun _ => True) s false → s.flag = true →
    ∃ c s', evTake s = .ok (c, s')

/-- Two conditions on the running system: with nothing pending, the clock does not come upon the
time the timer was last set to; a pending interrupt is served within half a wrap. -/
def TimerQuiet (hw : TimerHw) (s : EvTimer CbId) : Prop :=
  (s.q.n = 0 → ∀ t, s.set = some t → hw.hit t s.now (s.now + hw.step) = false) ∧
  (s.flag = true → ∀ c, s.q.arr 0 = some c → timeBeforeOrEqual (s.q.time c) (s.now + hw.step) = true)

theorem armTimer_q {s : EvTimer CbId} {t : Time} : (armTimer s t).q = s.q := rfl

/-- On both kinds of timer, under `TimerQuiet`, every pending interrupt finds due work.  Missing for
C10: the cases excluded by `TimerQuiet`, in which the statement is false (below). -/
theorem C10_partial (hw : TimerHw) (hhit : ∀ t b, hw.hit t b (b + hw.step) = true →
      timeBeforeOrEqual t (b + hw.step) = true)
    (s : EvTimer CbId) (h : EvReach hw (TimerQuiet hw) s false) (hf : s.flag = true) :
    ∃ c s', evTake s = .ok (c, s') := by
  -- invariant
  have key : ∀ s b, EvReach hw (TimerQuiet hw) s b → ∃ l, QInv s.q l ∧
      (b = false → ∀ a l', l = a :: l' → s.set = some (s.q.time a)) ∧
      (b = false → s.flag = true → ∃ a l', l = a :: l' ∧ timeBeforeOrEqual (s.q.time a) s.now = true) ∧
      (l = [] → s.flag = false) := by
    intro s b h
    induction h with
    | init => exact ⟨[], ⟨fun i h => rfl, rfl, List.nodup_nil, fun c => by simp [CbQ.init]⟩, by simp, by simp, by simp⟩
    | @tick s b _ hq ih =>
      obtain ⟨l, hl, hset, hflag, hnil⟩ := ih
      have hnil' : l = [] → (evTick hw s).flag = false := by
        intro e
        have h0 : s.q.n = 0 := by rw [hl.count, e]; rfl
        simp only [evTick, Bool.or_eq_false_iff]
        refine ⟨hnil e, ?_⟩
        cases hs : s.set with
        | none => rfl
        | some t => exact hq.1 h0 t hs
      refine ⟨l, hl, hset, ?_, hnil'⟩
      intro hb hf
      rcases l with _ | ⟨a, l'⟩
      · rw [hnil' rfl] at hf; cases hf
      · refine ⟨a, l', rfl, ?_⟩
        have ha0 : s.q.arr 0 = some a := hl.array 0 (by decide)
        simp only [evTick, Bool.or_eq_true] at hf ⊢
        rcases hf with hf | hf
        · exact hq.2 hf a ha0
        · rw [hset hb a l' rfl] at hf
          exact hhit _ _ hf
    | @request s s' b c t _ e ih =>
      obtain ⟨l, hl, _, _, _⟩ := ih
      obtain ⟨q', l0, l1, l2, e1, _, _, hq, _⟩ := scheduleCallback_spec card_cbId hl c t
      obtain ⟨a0, l', hl'⟩ : ∃ a l', l1 ++ c :: l2 = a :: l' := by cases l1 <;> simp
      unfold evRequest at e
      rw [e1, except_bind_ok, headTime_ok (l := l') (hl' ▸ hq.array)] at e
      simp only [except_bind_ok, except_pure] at e
      injection e with e
      subst e
      refine ⟨l1 ++ c :: l2, hq, ?_, ?_, by simp⟩
      · intro _ a l'' e; rw [hl'] at e; cases e; rfl
      · intro _ hf; exact ⟨a0, l', hl', hf⟩
    | @take s s' c _ hf e ih =>
      obtain ⟨l, hl, _, _, _⟩ := ih
      unfold evTake at e
      rw [bind_eq_ok] at e
      obtain ⟨⟨c', q'⟩, e1, e2⟩ := e
      obtain ⟨l', hl', hq', _⟩ := executeTake_spec hl (hl.len card_cbId) e1
      simp only [except_pure] at e2
      injection e2 with e2
      injection e2 with e2 e3
      subst e3
      exact ⟨l', hq', by simp, by simp, by simp⟩
    | @rearm s s' _ e ih =>
      obtain ⟨l, hl, _, _, hnil⟩ := ih
      unfold evRearm at e
      rcases l with _ | ⟨a, l'⟩
      · rw [if_neg (by rw [hl.count]; simp)] at e
        simp only [except_pure] at e
        injection e with e
        subst e
        exact ⟨[], hl, by simp, fun _ hf => (by rw [hnil rfl] at hf; cases hf), hnil⟩
      · rw [if_pos (by rw [hl.count]; simp), headTime_ok hl.array] at e
        simp only [except_bind_ok, except_pure] at e
        injection e with e
        subst e
        refine ⟨a :: l', ⟨hl.array, hl.count, hl.nodup, hl.flag⟩, ?_, ?_, by simp⟩
        · intro _ b l'' e; cases e; rfl
        · intro _ hf; exact ⟨a, l', rfl, hf⟩
  obtain ⟨l, hl, _, hflag, _⟩ := key s false h
  obtain ⟨a, l', rfl, hdue⟩ := hflag rfl hf
  obtain ⟨l1, l2, q1, h1, h2, h3, _⟩ :=
    callbackRemove_spec hl.array hl.count (hl.len card_cbId) (show a ∈ a :: l' by simp)
  have h0 : rd s.q.arr 0 = .ok (some a) := by
    have h0 := rd_ok s.q.arr 0 (by decide)
    rw [hl.array 0 (by decide)] at h0
    exact h0
  have hn : s.q.n > 0 := by rw [hl.count]; simp
  refine ⟨a, { s with q := q1, flag := false }, ?_⟩
  unfold evTake executeTake
  rw [headTime_ok hl.array, decide_eq_true hn, cassert_true, except_bind_ok, except_bind_ok, hdue,
    cassert_true, except_bind_ok, h0, except_bind_ok]
  dsimp only
  rw [h3]; rfl

/-- `C10_partial` applies to both kinds of timer. -/
theorem C10_hit_is_due :
    (∀ t b, compareTimer.hit t b (b + compareTimer.step) = true →
      timeBeforeOrEqual t (b + compareTimer.step) = true) ∧
    ∀ t b, hostedTimer.hit t b (b + hostedTimer.step) = true →
      timeBeforeOrEqual t (b + hostedTimer.step) = true := by
  constructor
  · intro t b h
    simp only [compareTimer, beq_iff_eq] at h ⊢
    rw [← h]
    simp [timeBeforeOrEqual]
  · intro t b h
    have h : timeInRange t b (b + 128#32) = true := h
    show timeBeforeOrEqual t (b + 128#32) = true
    simp only [timeInRange, timeBeforeOrEqual, decide_eq_true_eq] at h ⊢
    have e : (b + 128#32 - b).toNat = 128 := by
      have : b + 128#32 - b = 128#32 := by
        rw [BitVec.add_comm, BitVec.add_sub_cancel]
      rw [this]; rfl
    rw [e] at h
    have h2 : t - (b + 128#32) = (t - b) - 128#32 := by
      apply BitVec.eq_of_toNat_eq
      simp only [BitVec.toNat_sub, BitVec.toNat_add, BitVec.toNat_ofNat]
      omega
    rw [h2]
    generalize t - b = d at h
    have : (d - 128#32).toInt = (d.toNat : Int) - 128 := by
      rw [BitVec.toInt_eq_toNat_bmod, BitVec.toNat_sub]
      simp only [BitVec.toNat_ofNat]
      rw [Int.bmod_def]
      split <;> omega
    omega

/-- On the hosted platform C10 is false: a callback due exactly at a step of the clock, with no
other pending, is noticed twice; the second interrupt finds an empty queue and fails the
assertion. -/
theorem C10_hosted_full_false : ¬ C10_full hostedTimer := by
  intro h
  obtain ⟨s1, e1, s2, e2, f2, s3, e3, f3, e4⟩ : ∃ s1 : EvTimer CbId,
      evRequest { q := CbQ.init CbId, now := 0, set := none, flag := false } .expire 128 = .ok s1 ∧
      ∃ s2, evTake (evTick hostedTimer s1) = .ok (CbId.expire, s2) ∧ (evTick hostedTimer s1).flag = true ∧
      ∃ s3, evRearm s2 = .ok s3 ∧ (evTick hostedTimer s3).flag = true ∧
        evTake (evTick hostedTimer s3) = .error .assertFail :=
    ⟨_, rfl, _, rfl, by decide +kernel, _, rfl, by decide +kernel, rfl⟩
  have r : EvReach hostedTimer (fun _ => True) _ _ :=
    .tick (.rearm (.take _ (.tick (.request _ _ (.init 0) e1) trivial) f2 e2) e3) trivial
  obtain ⟨c, s', e⟩ := h _ r f3
  rw [e4] at e
  cases e

theorem evTake_empty {s : EvTimer CbId} (h : s.q.n = 0) : evTake s = .error .assertFail := by
  unfold evTake executeTake
  rw [h]
  rfl

/-- The state after the last callback has run, `n` ticks later. -/
theorem ticks_reach {s : EvTimer CbId} (h : EvReach compareTimer (fun _ => True) s false) (n : Nat) :
    ∃ f, EvReach compareTimer (fun _ => True) { s with now := s.now + BitVec.ofNat 32 n, flag := f } false := by
  induction n with
  | zero => exact ⟨s.flag, by simpa using h⟩
  | succ n ih =>
    obtain ⟨f, hf⟩ := ih
    have := EvReach.tick hf trivial
    refine ⟨(evTick compareTimer { s with now := s.now + BitVec.ofNat 32 n, flag := f }).flag, ?_⟩
    convert this using 2
    · rfl
    · show s.now + BitVec.ofNat 32 (n + 1) = s.now + BitVec.ofNat 32 n + 1#32
      rw [BitVec.ofNat_add, BitVec.add_assoc]
    · rfl

/-- On the 32-bit compare timers C10 is false: the compare interrupt is never switched off, so 2^32
ticks (about 18 minutes) after the last callback ran it comes again and finds an empty queue. -/
theorem C10_compare_full_false : ¬ C10_full compareTimer := by
  intro h
  obtain ⟨s1, e1, s2, e2, f2, s3, e3, hs3⟩ : ∃ s1 : EvTimer CbId,
      evRequest { q := CbQ.init CbId, now := 0, set := none, flag := false } .expire 0 = .ok s1 ∧
      ∃ s2, evTake s1 = .ok (CbId.expire, s2) ∧ s1.flag = true ∧
      ∃ s3, evRearm s2 = .ok s3 ∧ (s3.now = 0 ∧ s3.set = some 0 ∧ s3.q.n = 0) :=
    ⟨_, rfl, _, rfl, by decide +kernel, _, rfl, by decide +kernel⟩
  have r3 : EvReach compareTimer (fun _ => True) s3 false :=
    .rearm (.take _ (.request _ _ (.init 0) e1) f2 e2) e3
  obtain ⟨N, hN⟩ : ∃ N : Nat, BitVec.ofNat 32 N = 4294967295#32 := ⟨4294967295, rfl⟩
  obtain ⟨f, r4⟩ := ticks_reach r3 N
  have r5 := EvReach.tick r4 trivial
  obtain ⟨c, s', e⟩ := h _ r5 (by
    simp only [evTick, hs3.1, hs3.2.1, hN, compareTimer, Bool.or_eq_true]
    right; decide +kernel)
  rw [evTake_empty (by exact hs3.2.2)] at e
  cases e

/-- What that interrupt does in the stm32f4 and gd32f4 builds, where assertions are compiled out: it
writes in front of the callback array. -/
theorem C10_empty_queue_writes_oob (q : CbQ CbId) (h : q.n = 0) (harr : ∀ i, q.arr i = none) :
    executeTakeNdebug q = .error .oob := by
  unfold executeTakeNdebug
  have h0 : rd q.arr 0 = .ok none := by
    have h0 := rd_ok q.arr 0 (by decide)
    rw [harr] at h0
    exact h0
  rw [h0, h]
  rfl

/-- A history that meets the conditions of `C10_partial` with an interrupt pending. -/
example : ∃ s, EvReach compareTimer (TimerQuiet compareTimer) s false ∧ s.flag = true := by
  obtain ⟨s1, e1, n1, t1, f1, g1⟩ : ∃ s1 : EvTimer CbId,
      evRequest { q := CbQ.init CbId, now := 0, set := none, flag := false } (.event 2) 1 = .ok s1 ∧
      s1.q.n = 1 ∧ s1.set = some 1 ∧ s1.flag = false ∧ (evTick compareTimer s1).flag = true :=
    ⟨_, rfl, by decide +kernel, by decide +kernel, by decide +kernel, by decide +kernel⟩
  refine ⟨_, .tick (.request _ _ (.init 0) e1) ⟨?_, ?_⟩, g1⟩
  · rw [n1]; simp
  · rw [f1]; simp

end Verif
