/-
The decoder of the whole firmware, fed with a list of triggers, is the decoder fed with the list.
-/
import Verif.Proofs.Recount
import Verif.Props.Safe
import Verif.Proofs.ClockRun

namespace Verif

variable [FloatFmt]

/-- A list of triggers and the states of a decoder fed with it, in which the expiry callback is never due before the next
trigger has been handled. -/
structure DecPlan (d0 : Decoder) (ev : ℕ → Int × ℤ) (x : ℕ → Decoder × Option Time) : Prop where
  first : x 0 = (decoderInit d0, none)
  step : ∀ j, ∃ o, decode (x j).1 (ev j).1 (stamp (ev j).2) = .ok o ∧ x (j + 1) = (o.d, o.expire.or (x j).2)
  pending : ∀ j t, (x (j + 1)).2 = some t → ∃ E : ℤ, t = stamp E ∧ (ev (j + 1)).2 + 256 ≤ E ∧ E < (ev j).2 + 2 ^ 30

/-- The firmware has decoded the first triggers of the list. -/
structure DecodedTo (ev : ℕ → Int × ℤ) (x : ℕ → Decoder × Option Time) (j : ℕ) (e : Engine) : Prop where
  decoder : ∃ a b, e.cfg.decoder = (x j).1.recount a b
  queue : ∃ l, QInv e.q l
  expiry : e.q.scheduled .expire = true → (x j).2 = some (e.q.time .expire)
  recording : ∀ k t, e.pc = .record k t → e.given.length = j + 1 ∧ k = (ev j).1 ∧ t = stamp (ev j).2
  idle : (∀ k t, e.pc ≠ .record k t) → e.given.length = j

theorem recount_recount (d : Decoder) (a b a' b' : BitVec 32) : (d.recount a b).recount a' b' = d.recount a' b' := rfl

theorem recount_count (d : Decoder) (a b : BitVec 32) (k : Int) : ∃ a' b', countTrigger (d.recount a b) k = d.recount a' b' := by
  unfold countTrigger
  split_ifs
  · exact ⟨a + 1, b, rfl⟩
  · exact ⟨a, b + 1, rfl⟩
  · exact ⟨a, b, rfl⟩

/-- A request for a callback of an event leaves the expiry callback alone. -/
theorem requestEvent_expiry {q q' : CbQ CbId} {l : List CbId} (h : QInv q l) {i : Fin maxEvents} {cb : Option Time}
    (hq : requestEvent q i cb = .ok q') :
    (∃ l', QInv q' l') ∧ q'.scheduled .expire = q.scheduled .expire ∧ q'.time .expire = q.time .expire := by
  cases cb with
  | none => cases hq; exact ⟨⟨l, h⟩, rfl, rfl⟩
  | some t =>
      obtain ⟨q1, l0, l1, l2, h1, h2, h3, h4, h5, -⟩ := scheduleCallback_spec card_cbId h (.event i) t
      have hq : scheduleCallback q (.event i) t = .ok q' := hq
      rw [h1] at hq
      cases hq
      refine ⟨⟨_, h4⟩, ?_, ?_⟩
      · rw [h4.flag, h.flag]
        have hm : CbId.expire ∈ l1 ++ CbId.event i :: l2 ↔ CbId.expire ∈ l := by
          have h6 : CbId.expire ∈ l.erase (.event i) ↔ CbId.expire ∈ l := List.mem_erase_of_ne (fun h => nomatch h)
          rw [← h6, ← h2, h3]
          simp
        exact decide_eq_decide.mpr hm
      · rw [h5]
        rfl

/-- A request for the expiry callback replaces the one before. -/
theorem requestExpire_expiry {q q' : CbQ CbId} {l : List CbId} (h : QInv q l) {ex old : Option Time}
    (ho : q.scheduled .expire = true → old = some (q.time .expire)) (hq : requestExpire q ex = .ok q') :
    (∃ l', QInv q' l') ∧ (q'.scheduled .expire = true → ex.or old = some (q'.time .expire)) := by
  cases ex with
  | none => cases hq; exact ⟨⟨l, h⟩, ho⟩
  | some t =>
      obtain ⟨q1, l0, l1, l2, h1, h2, h3, h4, h5, -⟩ := scheduleCallback_spec card_cbId h .expire t
      have hq : scheduleCallback q .expire t = .ok q' := hq
      rw [h1] at hq
      cases hq
      refine ⟨⟨_, h4⟩, fun _ => ?_⟩
      rw [h5]
      rfl

/-- Scheduling an output leaves the decoder, the expiry callback and the triggers alone. -/
theorem engSchedule_keeps {e e' : Engine} {now : Time} {i : Fin maxEvents} {l : List CbId} (hl : QInv e.q l)
    (h : engSchedule e now i = .ok e') :
    e'.cfg.decoder = e.cfg.decoder ∧ e'.given = e.given ∧ e'.pc = e.pc ∧ (∃ l', QInv e'.q l') ∧
      e'.q.scheduled .expire = e.q.scheduled .expire ∧ e'.q.time .expire = e.q.time .expire := by
  unfold engSchedule at h
  split_ifs at h
  · cases h; exact ⟨rfl, rfl, rfl, ⟨l, hl⟩, rfl, rfl⟩
  · simp only [bind_eq_ok, except_pure, Except.ok.injEq] at h
    obtain ⟨⟨cut, v⟩, h1, ⟨evs, cb⟩, h2, q, h3, rfl⟩ := h
    exact ⟨rfl, rfl, rfl, requestEvent_expiry hl h3⟩

/-- Steps that leave the decoder, the callbacks and the triggers alone. -/
theorem DecodedTo.keep {ev : ℕ → Int × ℤ} {x : ℕ → Decoder × Option Time} {j : ℕ} {e e' : Engine} (h : DecodedTo ev x j e)
    (h1 : e'.cfg.decoder = e.cfg.decoder) (h2 : e'.q = e.q) (h3 : e'.given = e.given) (h4 : e'.pc = e.pc) : DecodedTo ev x j e' :=
  ⟨by rw [h1]; exact h.decoder, by rw [h2]; exact h.queue, by rw [h2]; exact h.expiry, by rw [h3, h4]; exact h.recording,
    by rw [h3, h4]; exact h.idle⟩

/-- The interrupt handler goes on. -/
theorem work_decoded {d0 : Decoder} {ev : ℕ → Int × ℤ} {x : ℕ → Decoder × Option Time} (hp : DecPlan d0 ev x) {j : ℕ} {e e' : Engine}
    {now : Time} (h : DecodedTo ev x j e) (hw : engWork e now = .ok e') : ∃ j', j ≤ j' ∧ DecodedTo ev x j' e' := by
  obtain ⟨l, hl⟩ := h.queue
  unfold engWork at hw
  rcases hpc : e.pc with _ | ⟨k, t⟩ | i | _
  · rw [hpc] at hw; cases hw; exact ⟨j, le_refl j, h⟩
  · rw [hpc] at hw
    simp only at hw
    obtain ⟨hg, hk, ht⟩ := h.recording k t hpc
    rcases hrec : e.log.recPc with _ | _ | _
    · rw [hrec] at hw
      simp only [bind_eq_ok] at hw
      obtain ⟨e1, h1, h2⟩ := hw
      obtain ⟨a, b, hd⟩ := h.decoder
      obtain ⟨o, ho, hx⟩ := hp.step j
      obtain ⟨a', b', hc⟩ := recount_count (x j).1 a b k
      unfold engDecode at h1
      rw [hd, hc, decode_recount, hk, ht, ho] at h1
      simp only [Except.map, except_bind_ok, bind_eq_ok, except_pure, Except.ok.injEq] at h1
      obtain ⟨q, hq, evs, hev, rfl⟩ := h1
      obtain ⟨c1, c2⟩ := requestExpire_expiry hl h.expiry hq
      have key : ∀ e2 : Engine, e2.cfg.decoder = o.d.recount a' b' → e2.q = q → e2.given = e.given → (∀ k t, e2.pc ≠ .record k t) →
          DecodedTo ev x (j + 1) e2 := by
        intro e2 k1 k2 k3 k4
        refine ⟨⟨a', b', by rw [hx]; exact k1⟩, by rw [k2]; exact c1, by rw [k2, hx]; exact c2, fun k t h => absurd h (k4 k t), fun _ => ?_⟩
        rw [k3]; exact hg
      refine ⟨j + 1, Nat.le_succ j, ?_⟩
      unfold engCalc at h2
      split_ifs at h2
      · simp only [bind_eq_ok, except_pure, Except.ok.injEq] at h2
        obtain ⟨v, -, ⟨v', s⟩, -, rfl⟩ := h2
        exact key _ rfl rfl rfl (fun _ _ h => nomatch h)
      · cases h2
        exact key _ rfl rfl rfl (fun _ _ h => nomatch h)
    all_goals
      rw [hrec] at hw
      simp only [bind_eq_ok, except_pure, Except.ok.injEq] at hw
      obtain ⟨lg, -, rfl⟩ := hw
      exact ⟨j, le_refl j, h.keep rfl rfl rfl hpc.symm⟩
  · rw [hpc] at hw
    have hj := h.idle (by rw [hpc]; exact fun _ _ h => nomatch h)
    simp only [engLoop] at hw
    split_ifs at hw with hi
    · simp only [bind_eq_ok, except_pure, Except.ok.injEq] at hw
      obtain ⟨e1, h1, rfl⟩ := hw
      obtain ⟨k1, k2, k3, k4, k5, k6⟩ := engSchedule_keeps hl h1
      refine ⟨j, le_refl j, ⟨by rw [k1]; exact h.decoder, k4, ?_, (fun _ _ h => nomatch h), fun _ => by rw [k2]; exact hj⟩⟩
      show e1.q.scheduled .expire = true → _ = some (e1.q.time .expire)
      rw [k5, k6]; exact h.expiry
    · cases hw
      exact ⟨j, le_refl j, ⟨h.decoder, h.queue, h.expiry, (fun _ _ h => nomatch h), fun _ => hj⟩⟩
  · rw [hpc] at hw
    have hj := h.idle (by rw [hpc]; exact fun _ _ h => nomatch h)
    simp only [bind_eq_ok, except_pure, Except.ok.injEq] at hw
    obtain ⟨q, hq, rfl⟩ := hw
    obtain ⟨q', h1, h2, h3, -⟩ := executeRearm_spec hl
    obtain rfl : q' = q := by rw [h1] at hq; exact Except.ok.inj hq
    refine ⟨j, le_refl j, ⟨h.decoder, ⟨l, h2⟩, ?_, (fun _ _ h => nomatch h), fun _ => hj⟩⟩
    show q'.scheduled .expire = true → _ = some (q'.time .expire)
    rw [h2.flag, h3, ← hl.flag]
    exact h.expiry

/-- The timer interrupt, at tick `n`: the expiry callback is not due. -/
theorem timer_decoded {d0 : Decoder} {ev : ℕ → Int × ℤ} {x : ℕ → Decoder × Option Time} (hp : DecPlan d0 ev x) {j : ℕ} {e e' : Engine}
    {n : ℤ} (h : DecodedTo ev x j e) (hpc : e.pc = .idle) (ht : engTimer e (stamp n) = .ok e')
    (past : ∀ i < j, (ev i).2 ≤ n) (soon : n < (ev j).2 + 256) : DecodedTo ev x j e' := by
  obtain ⟨l, hl⟩ := h.queue
  have hj := h.idle (by rw [hpc]; exact fun _ _ h => nomatch h)
  unfold engTimer at ht
  simp only [bind_eq_ok, except_pure, Except.ok.injEq] at ht
  obtain ⟨⟨c, q⟩, h1, e1, h2, rfl⟩ := ht
  obtain ⟨l', rfl, k1, k2, k3⟩ := executeTake_spec hl (QInv.len card_cbId hl) h1
  have hnd := hl.nodup
  rw [List.nodup_cons] at hnd
  have hflag : ∀ d, d ≠ c → q.scheduled d = e.q.scheduled d := by
    intro d hd
    rw [k1.flag, hl.flag]
    refine decide_eq_decide.mpr ?_
    rw [List.mem_cons]
    exact ⟨Or.inr, fun h => h.resolve_left hd⟩
  have hne : c ≠ .expire := by
    rintro rfl
    have hs : e.q.scheduled .expire = true := by rw [hl.flag]; simp
    have hx := h.expiry hs
    cases j with
    | zero => rw [hp.first] at hx; cases hx
    | succ j =>
        obtain ⟨E, hE, b1, b2⟩ := hp.pending j _ hx
        rw [hE] at k3
        unfold timeBeforeOrEqual at k3
        have := past j (by omega)
        rw [stamp_sub, stamp_toInt (by rw [abs_lt]; omega), decide_eq_true_eq] at k3
        omega
  have key : DecodedTo ev x j { e1 with pc := .rearm } := by
    cases c with
    | expire => exact absurd rfl hne
    | event i =>
        obtain ⟨m1, m2, m3, m4, m5, m6⟩ := engSchedule_keeps (e := { e with q := q }) k1 h2
        refine ⟨by rw [show ({ e1 with pc := EngPc.rearm } : Engine).cfg = e1.cfg from rfl, m1]; exact h.decoder, m4, ?_, (fun _ _ h => nomatch h), fun _ => ?_⟩
        · show e1.q.scheduled .expire = true → _ = some (e1.q.time .expire)
          rw [m5, m6]
          show q.scheduled .expire = true → _ = some (q.time .expire)
          rw [hflag _ hne.symm, k2]
          exact h.expiry
        · show e1.given.length = j
          rw [m2]; exact hj
    | testTrigger =>
        cases h2
        refine ⟨h.decoder, ⟨_, k1⟩, ?_, (fun _ _ h => nomatch h), fun _ => hj⟩
        show q.scheduled .expire = true → _ = some (q.time .expire)
        rw [hflag _ hne.symm, k2]
        exact h.expiry
    | replay =>
        cases h2
        refine ⟨h.decoder, ⟨_, k1⟩, ?_, (fun _ _ h => nomatch h), fun _ => hj⟩
        show q.scheduled .expire = true → _ = some (q.time .expire)
        rw [hflag _ hne.symm, k2]
        exact h.expiry
  exact key

/-- One step at tick `n'`. -/
theorem step_decoded {d0 : Decoder} {ev : ℕ → Int × ℤ} {x : ℕ → Decoder × Option Time} (hp : DecPlan d0 ev x) {j : ℕ} {e e' : Engine}
    {n' : ℤ} {a : EngAct} (hj : DecodedTo ev x j e) (h3 : ∀ now, a ≠ .swap now) (h4 : Honest n' a) (h5 : engStep e a = .ok e')
    (h6 : EventsGiven ev n' e') : ∃ j', j ≤ j' ∧ DecodedTo ev x j' e' := by
  cases a with
  | trigger k t =>
      rcases whenIdle_ok h5 with rfl | ⟨hpc, h5⟩
      · exact ⟨j, le_refl j, hj⟩
      · have hl := hj.idle (by rw [hpc]; exact fun _ _ h => nomatch h)
        unfold engTrigger at h5
        simp only [bind_eq_ok, except_pure, Except.ok.injEq] at h5
        obtain ⟨lg, -, rfl⟩ := h5
        obtain ⟨K, k1, -, -⟩ := h6
        have k1 : e.given ++ [(k, t)] = (List.range K).map (fun j => ((ev j).1, stamp (ev j).2)) := k1
        have hK : K = j + 1 := by
          have := congrArg List.length k1
          simp only [List.length_append, List.length_map, List.length_range, List.length_singleton] at this
          omega
        have hlast : (k, t) = ((ev j).1, stamp (ev j).2) := by
          rw [hK, List.range_succ, List.map_append] at k1
          have := (List.append_inj' k1 rfl).2
          simpa using this
        have hlast' := Prod.mk.injEq _ _ _ _ ▸ hlast
        refine ⟨j, le_refl j, ⟨hj.decoder, hj.queue, hj.expiry, ?_, fun h => absurd rfl (h k t)⟩⟩
        intro k' t' he
        cases he
        exact ⟨by show (e.given ++ [(k, t)]).length = _; rw [List.length_append, hl]; rfl, hlast'.1, hlast'.2⟩
  | work now => exact work_decoded hp hj h5
  | timer now =>
      have h4 : now = stamp n' := h4
      subst h4
      rcases whenIdle_ok h5 with rfl | ⟨hpc, h5⟩
      · exact ⟨j, le_refl j, hj⟩
      · have hl := hj.idle (by rw [hpc]; exact fun _ _ h => nomatch h)
        obtain ⟨K, k1, k2, k3⟩ := h6
        have hgiven : e'.given = e.given := by
          unfold engTimer at h5
          simp only [bind_eq_ok, except_pure, Except.ok.injEq] at h5
          obtain ⟨⟨c, q⟩, m1, e1, m2, rfl⟩ := h5
          obtain ⟨l, hq⟩ := hj.queue
          obtain ⟨l', rfl, q1, -⟩ := executeTake_spec hq (QInv.len card_cbId hq) m1
          show e1.given = e.given
          cases c with
          | expire =>
              simp only [engCallback, bind_eq_ok, except_pure, Except.ok.injEq] at m2
              obtain ⟨_, -, rfl⟩ := m2
              rfl
          | event i => exact (engSchedule_keeps (e := { e with q := q }) q1 m2).2.1
          | testTrigger => cases m2; rfl
          | replay => cases m2; rfl
        have hK : K = j := by
          have := congrArg List.length k1
          rw [hgiven, hl] at this
          simpa using this.symm
        subst hK
        exact ⟨K, le_refl K, timer_decoded hp hj hpc h5 k2 k3⟩
  | desync r => exact h4.elim
  | swap now => exact absurd rfl (h3 now)
  | sensors s => cases h5; exact ⟨j, le_refl j, hj.keep rfl rfl rfl rfl⟩
  | get =>
      simp only [engStep, engLog, bind_eq_ok, except_pure, Except.ok.injEq] at h5
      obtain ⟨lg, -, rfl⟩ := h5
      exact ⟨j, le_refl j, hj.keep rfl rfl rfl rfl⟩
  | getStep =>
      simp only [engStep, engLog, bind_eq_ok, except_pure, Except.ok.injEq] at h5
      obtain ⟨lg, -, rfl⟩ := h5
      exact ⟨j, le_refl j, hj.keep rfl rfl rfl rfl⟩
  | logging b =>
      simp only [engStep, engLog, bind_eq_ok, except_pure, Except.ok.injEq] at h5
      obtain ⟨lg, -, rfl⟩ := h5
      exact ⟨j, le_refl j, hj.keep rfl rfl rfl rfl⟩

/-- A buffer swap. -/
theorem swap_decoded {ev : ℕ → Int × ℤ} {x : ℕ → Decoder × Option Time} {j : ℕ} {e : Engine} (hj : DecodedTo ev x j e) (now : Time) :
    DecodedTo ev x j (engSwap e now) := by
  refine hj.keep ?_ ?_ ?_ ?_ <;>
  · unfold engSwap
    generalize bufferSwap e.dma now = s
    rfl

/-- The firmware has decoded the first triggers of the list, whatever else happens. -/
theorem timed_decoded {d0 : Decoder} {ev : ℕ → Int × ℤ} {x : ℕ → Decoder × Option Time} (hp : DecPlan d0 ev x) {G : ℤ → Engine → Prop}
    (hG : ∀ n e, G n e → EventsGiven ev n e) {e0 e : Engine} {n E : ℤ} (hb : EngBoot e0) (hd : e0.cfg.decoder = decoderInit d0)
    (h : EngTimed Honest G e0 n E e) : G n e ∧ ∃ j, DecodedTo ev x j e := by
  induction h with
  | boot _ _ _ h4 =>
      refine ⟨h4, 0, ?_⟩
      refine ⟨⟨_, _, by rw [hp.first, hd]; rfl⟩, ⟨[], ?_⟩, ?_, ?_, fun _ => by rw [hb.given]; rfl⟩
      · rw [hb.queue]
        exact ⟨fun i h => rfl, rfl, List.nodup_nil, fun c => by simp [CbQ.init]⟩
      · rw [hb.queue]; intro h; cases h
      · rw [hb.pc]; exact fun _ _ h => nomatch h
  | @step n n' E e e' a _ h1 h2 h3 h4 h5 h6 ih =>
      obtain ⟨g, j, hj⟩ := ih
      refine ⟨h6, ?_⟩
      obtain ⟨j', -, hj'⟩ := step_decoded hp hj h3 h4 h5 (hG _ _ h6)
      exact ⟨j', hj'⟩
  | @swap n n' E e _ h1 h2 h3 h4 ih =>
      obtain ⟨-, j, hj⟩ := ih
      exact ⟨h4, j, swap_decoded hj _⟩

/-- The run goes on: no trigger is taken back. -/
theorem on_decoded {d0 : Decoder} {ev : ℕ → Int × ℤ} {x : ℕ → Decoder × Option Time} (hp : DecPlan d0 ev x) {G : ℤ → Engine → Prop}
    (hG : ∀ n e, G n e → EventsGiven ev n e) {e1 e : Engine} {n1 E1 n E : ℤ} {j : ℕ} (hj : DecodedTo ev x j e1)
    (h : EngOn Honest G n1 E1 e1 n E e) : ∃ j', j ≤ j' ∧ DecodedTo ev x j' e := by
  induction h with
  | refl => exact ⟨j, le_refl j, hj⟩
  | step a _ h1 h2 h3 h4 h5 h6 ih =>
      obtain ⟨j1, l1, hj1⟩ := ih
      obtain ⟨j2, l2, hj2⟩ := step_decoded hp hj1 h3 h4 h5 (hG _ _ h6)
      exact ⟨j2, le_trans l1 l2, hj2⟩
  | swap _ h1 h2 h3 h4 ih =>
      obtain ⟨j1, l1, hj1⟩ := ih
      exact ⟨j1, l1, swap_decoded hj1 _⟩

end Verif
