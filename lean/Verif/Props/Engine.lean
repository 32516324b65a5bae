/-
C45 (every trigger is counted and logged) and C61 (a lost decoder leaves the outputs quiet), for the whole firmware.
-/
import Verif.Proofs.Engine
import Verif.Props.EventLog
import Verif.Spec.Demo

namespace Verif

variable [FloatFmt]
open Relation (ReflTransGen)

/-! ### What each step does to each part -/

/-- How the decoder, the events and the ghost list change in one step. -/
structure EngParts (e e' : Engine) : Prop where
  types : OffIdle e.cfg.events → OffIdle e'.cfg.events
  sync : (e.cfg.decoder.valid = true → e.cfg.decoder.state = .sync) → e'.cfg.decoder.valid = true → e'.cfg.decoder.state = .sync
  armed : (e.cfg.decoder.valid = true → e.cfg.decoder.state = .sync) → OffIdle e.cfg.events →
    (e.cfg.decoder.valid = false → NoArmed e.cfg.events) → e'.cfg.decoder.valid = false → NoArmed e'.cfg.events

omit [FloatFmt] in
theorem parts_same {e e' : Engine} (h1 : e'.cfg.events = e.cfg.events) (h2 : e'.cfg.decoder = e.cfg.decoder) : EngParts e e' :=
  ⟨fun h => by rw [h1]; exact h, fun h => by rw [h2]; exact h, fun _ _ h hv => by rw [h1]; exact h (by rw [← h2]; exact hv)⟩

theorem schedule_parts {e e' : Engine} {now : Time} {i : Fin maxEvents} (h : engSchedule e now i = .ok e') :
    EngParts e e' ∧ e'.cfg.decoder = e.cfg.decoder ∧ e'.log = e.log ∧ e'.given = e.given ∧ e'.pc = e.pc := by
  unfold engSchedule at h
  split_ifs at h with hd
  · cases h; exact ⟨parts_same rfl rfl, rfl, rfl, rfl, rfl⟩
  · rw [bind_eq_ok] at h; obtain ⟨⟨cut, v⟩, h1, h⟩ := h
    simp only at h
    rw [bind_eq_ok] at h; obtain ⟨⟨evs, cb⟩, h2, h⟩ := h
    simp only at h
    rw [bind_eq_ok] at h; obtain ⟨q, h3, h⟩ := h
    cases h
    refine ⟨⟨fun ho => schedule_offIdle h2 ho, id, fun _ _ ha hv => ?_⟩, rfl, rfl, rfl, rfl⟩
    have hv' : e.cfg.decoder.valid = false := hv
    have := (schedule_lost h2 hv' (ha hv')).1
    show NoArmed evs
    have this : evs = e.cfg.events := this
    rw [this]
    exact ha hv'

theorem decode_parts {e e' : Engine} {k : Int} {t : Time} (h : engDecode e k t = .ok e') :
    EngParts e e' ∧ e'.log = e.log ∧ e'.given = e.given ∧ e'.pc = e.pc ∧
    e'.cfg.decoder.t0Count = e.cfg.decoder.t0Count + (if k = 0 then 1 else 0) ∧
    e'.cfg.decoder.t1Count = e.cfg.decoder.t1Count + (if k = 1 then 1 else 0) := by
  unfold engDecode at h
  simp only [bind_eq_ok] at h
  obtain ⟨o, h1, q, h2, evs, h3, h⟩ := h
  cases h
  have hc := decode_counts h1
  have hf := decode_facts h1
  have hv : (countTrigger e.cfg.decoder k).valid = e.cfg.decoder.valid := by unfold countTrigger; split_ifs <;> rfl
  have hs : (countTrigger e.cfg.decoder k).state = e.cfg.decoder.state := by unfold countTrigger; split_ifs <;> rfl
  have hevs : (o.lost = true ∧ invalidateEvents e.cfg.events = .ok evs) ∨ (o.lost = false ∧ evs = e.cfg.events) := by
    unfold cancelIf at h3
    split_ifs at h3 with hl
    · exact .inl ⟨hl, h3⟩
    · exact .inr ⟨by simpa using hl, (Except.ok.inj h3).symm⟩
  refine ⟨⟨fun ho => ?_, fun hp => ?_, fun hp ho ha hov => ?_⟩, rfl, rfl, rfl, ?_, ?_⟩
  · rcases hevs with ⟨-, hi⟩ | ⟨-, rfl⟩
    · exact (inv_noArmed hi ho).2
    · exact ho
  · exact hf.sound (by rw [hv, hs]; exact hp)
  · rcases hevs with ⟨-, hi⟩ | ⟨hl, rfl⟩
    · exact (inv_noArmed hi ho).1
    · apply ha
      by_contra hne
      have h4 := hf.drop (by rw [hv, hs]; exact hp) (by rw [hv]; simpa using hne) hov
      rw [hl] at h4
      cases h4
  · show o.d.t0Count = _
    rw [hc.1]
    unfold countTrigger
    split_ifs with h5 h6
    · rfl
    · exact (BitVec.add_zero _).symm
    · exact (BitVec.add_zero _).symm
  · show o.d.t1Count = _
    rw [hc.2]
    unfold countTrigger
    split_ifs with h5 h6 h7
    · omega
    · exact (BitVec.add_zero _).symm
    · rfl
    · exact (BitVec.add_zero _).symm

/-- The recorder's progress never shortens the list of recorded events. -/
def pendingRec : RecPc → List LogEvent
  | .fetchSeq ev => [ev]
  | _ => []

/-- Counters and the log after a step. -/
structure EngBooks (c0 c1 : BitVec 32) (e : Engine) : Prop where
  counts : ∃ done, (match e.pc with | .record k t => e.given = done ++ [(k, t)] | _ => e.given = done) ∧
    e.cfg.decoder.t0Count = c0 + BitVec.ofNat 32 (done.countP fun g => g.1 = 0) ∧
    e.cfg.decoder.t1Count = c1 + BitVec.ofNat 32 (done.countP fun g => g.1 = 1)
  busy : e.log.recPc ≠ .idle → ∃ k t, e.pc = .record k t
  run : ∃ las, logRun logBoot las = .ok e.log

omit [FloatFmt] in
theorem logRun_snoc {s s' s'' : LogSys} {as : List LogAct} {a : LogAct} (h : logRun s as = .ok s') (h' : logStep s' a = .ok s'') :
    logRun s (as ++ [a]) = .ok s'' := by
  induction as generalizing s with
  | nil =>
      obtain rfl : s = s' := Except.ok.inj h
      show (logStep s a >>= fun s => logRun s []) = _
      rw [h']; rfl
  | cons b as ih =>
      unfold logRun at h
      rw [bind_eq_ok] at h; obtain ⟨s1, h1, h⟩ := h
      show (logStep s b >>= fun s => logRun s (as ++ [a])) = _
      rw [h1]; exact ih h

omit [FloatFmt] in
theorem calc_same [FloatFmt] {e e' : Engine} {now : Time} (h : engCalc e now = .ok e') : EngParts e e' := by
  have h5 := (engCalc_dma h).2.2.2.2.1
  exact parts_same (by rw [h5]) (by rw [h5])

omit [FloatFmt] in
theorem lost_parts {e : Engine} {evs : Fin maxEvents → OEvent} {d : Decoder} {q : CbQ CbId}
    (h : invalidateEvents e.cfg.events = .ok evs) (hd : d.valid = false) :
    EngParts e { e with cfg := { e.cfg with decoder := d, events := evs }, q := q } :=
  ⟨fun ho => (inv_noArmed h ho).2, fun _ hv => (by rw [hd] at hv; cases hv), fun _ ho _ _ => (inv_noArmed h ho).1⟩

theorem callback_parts {e e' : Engine} {now : Time} {c : CbId} (h : engCallback e now c = .ok e') :
    EngParts e e' ∧ e'.log = e.log ∧ e'.given = e.given ∧ e'.pc = e.pc ∧
    e'.cfg.decoder.t0Count = e.cfg.decoder.t0Count ∧ e'.cfg.decoder.t1Count = e.cfg.decoder.t1Count := by
  cases c with
  | expire =>
      unfold engCallback at h
      rw [bind_eq_ok] at h; obtain ⟨evs, h1, h⟩ := h
      cases h
      exact ⟨lost_parts (q := e.q) h1 rfl, rfl, rfl, rfl, rfl, rfl⟩
  | event i =>
      obtain ⟨h1, h2, h3, h4, h5⟩ := schedule_parts (show engSchedule e now i = .ok e' from h)
      exact ⟨h1, h3, h4, h5, by rw [h2], by rw [h2]⟩
  | testTrigger => cases h; exact ⟨parts_same rfl rfl, rfl, rfl, rfl, rfl, rfl⟩
  | replay => cases h; exact ⟨parts_same rfl rfl, rfl, rfl, rfl, rfl, rfl⟩

omit [FloatFmt] in
theorem swap_parts (e : Engine) (now : Time) : EngParts e (engSwap e now) := by
  have hev : (engSwap e now).cfg.events = (bufferSwap e.dma now).evs := by
    unfold engSwap
    generalize bufferSwap e.dma now = s
    rfl
  have hd : (engSwap e now).cfg.decoder = e.cfg.decoder := by
    unfold engSwap
    generalize bufferSwap e.dma now = s
    rfl
  have hst : ∀ i, ((bufferSwap e.dma now).evs i).type = (e.cfg.events i).type ∧ SwapEdge (roundToBuffer now + 128)
      (e.buf e.cur).first (e.cfg.events i).start ((bufferSwap e.dma now).evs i).start := swap_start e.dma now
  generalize (bufferSwap e.dma now).evs = evs at hev hst
  refine ⟨fun ho i hi => ?_, fun hp => by rw [hd]; exact hp, fun _ _ ha hv i => ?_⟩
  · rw [hev] at hi ⊢
    obtain ⟨h1, h2⟩ := hst i
    intro h3
    exact ho i (h1.symm.trans hi) (h2.scheduled.mp h3).1
  · rw [hev]
    intro h3
    rw [hd] at hv
    exact ha hv i ((hst i).2.scheduled.mp h3).1

/-- Every step keeps the invariants about armed outputs. -/
theorem step_parts {e e' : Engine} {a : EngAct} (h : engStep e a = .ok e') : EngParts e e' := by
  have hsame : EngParts e e := parts_same rfl rfl
  have hlog : ∀ b, engLog e b = .ok e' → EngParts e e' := by
    intro b h
    unfold engLog at h
    rw [bind_eq_ok] at h; obtain ⟨l, h1, h⟩ := h
    cases h; exact parts_same rfl rfl
  cases a with
  | trigger k t =>
      rcases whenIdle_ok h with rfl | ⟨-, h⟩
      · exact hsame
      · unfold engTrigger at h
        rw [bind_eq_ok] at h; obtain ⟨l, h1, h⟩ := h
        cases h; exact parts_same rfl rfl
  | work now =>
      have h : engWork e now = .ok e' := h
      unfold engWork at h
      split at h
      · cases h; exact hsame
      · split at h
        · rw [bind_eq_ok] at h; obtain ⟨e1, h1, h⟩ := h
          have p1 := (decode_parts h1).1
          have h5 := (engCalc_dma h).2.2.2.2.1
          exact ⟨fun ho => by rw [h5]; exact p1.types ho, fun hp => by rw [h5]; exact p1.sync hp,
            fun hp ho ha hv => by rw [h5] at hv ⊢; exact p1.armed hp ho ha hv⟩
        · rw [bind_eq_ok] at h; obtain ⟨l, h1, h⟩ := h
          cases h; exact parts_same rfl rfl
      · unfold engLoop at h
        split_ifs at h
        · rw [bind_eq_ok] at h; obtain ⟨e1, h1, h⟩ := h
          cases h
          have p1 := (schedule_parts h1).1
          exact ⟨p1.types, p1.sync, p1.armed⟩
        · cases h; exact parts_same rfl rfl
      · rw [bind_eq_ok] at h; obtain ⟨q, h1, h⟩ := h
        cases h; exact parts_same rfl rfl
  | timer now =>
      rcases whenIdle_ok h with rfl | ⟨-, h⟩
      · exact hsame
      · unfold engTimer at h
        rw [bind_eq_ok] at h; obtain ⟨⟨c, q⟩, h1, h⟩ := h
        simp only at h
        rw [bind_eq_ok] at h; obtain ⟨e1, h2, h⟩ := h
        cases h
        have p1 := (callback_parts h2).1
        exact ⟨p1.types, p1.sync, p1.armed⟩
  | desync r =>
      rcases whenIdle_ok h with rfl | ⟨-, h⟩
      · exact hsame
      · unfold engDesync at h
        rw [bind_eq_ok] at h; obtain ⟨evs, h1, h⟩ := h
        cases h
        exact lost_parts (q := e.q) h1 rfl
  | swap now =>
      have h : engSwap e now = e' := Except.ok.inj h
      rw [← h]; exact swap_parts e now
  | sensors s => cases h; exact parts_same rfl rfl
  | get => exact hlog _ h
  | getStep => exact hlog _ h
  | logging b => exact hlog _ h

/-! ### C45 -/

omit [FloatFmt] in
theorem getStep_rec {s s' : LogSys} (h : getStep s = .ok s') : s'.recPc = s.recPc ∧ s'.started = s.started ∧
    s'.log.enabled = s.log.enabled := by
  unfold getStep at h
  split at h
  · cases h; exact ⟨rfl, rfl, rfl⟩
  · cases h; exact ⟨rfl, rfl, rfl⟩
  · split_ifs at h <;> cases h <;> exact ⟨rfl, rfl, rfl⟩
  · rw [bind_eq_ok] at h; obtain ⟨x, -, h⟩ := h; cases h; exact ⟨rfl, rfl, rfl⟩
  · rw [bind_eq_ok] at h; obtain ⟨x, -, h⟩ := h; cases h; exact ⟨rfl, rfl, rfl⟩
  · rw [bind_eq_ok] at h; obtain ⟨x, -, h⟩ := h; cases h; exact ⟨rfl, rfl, rfl⟩
  · rw [bind_eq_ok] at h; obtain ⟨x, -, h⟩ := h; cases h; exact ⟨rfl, rfl, rfl⟩
  · cases h; exact ⟨rfl, rfl, rfl⟩

omit [FloatFmt] in
theorem client_rec {s s' : LogSys} {a : LogAct} (ha : a = .get ∨ a = .getStep ∨ ∃ b, a = .enable b)
    (h : logStep s a = .ok s') : s'.recPc = s.recPc ∧ s'.started = s.started ∧
      (s'.log.enabled = s.log.enabled ∨ a = .enable s'.log.enabled) := by
  rcases ha with rfl | rfl | ⟨b, rfl⟩
  · simp only [logStep] at h
    split at h <;> cases h <;> exact ⟨rfl, rfl, .inl rfl⟩
  · obtain ⟨h1, h2, h3⟩ := getStep_rec (show getStep s = .ok s' from h)
    exact ⟨h1, h2, .inl h3⟩
  · simp only [logStep] at h
    split at h
    · cases h; exact ⟨rfl, rfl, .inr rfl⟩
    · cases h; exact ⟨rfl, rfl, .inl rfl⟩

omit [FloatFmt] in
theorem recStep_started {s s' : LogSys} (h : recStep s = .ok s') :
    s'.started ++ pendingRec s'.recPc = s.started ++ pendingRec s.recPc ∧ s'.log.enabled = s.log.enabled := by
  unfold recStep at h
  split at h
  · cases h; exact ⟨rfl, rfl⟩
  · rename_i hp; cases h; rw [hp]; exact ⟨List.append_nil _, rfl⟩
  · rename_i hp; cases h; rw [hp]; exact ⟨rfl, rfl⟩
  · rename_i hp; cases h; rw [hp]; refine ⟨?_, rfl⟩; simp only; split_ifs <;> rfl
  · rename_i hp; rw [bind_eq_ok] at h; obtain ⟨x, -, h⟩ := h; cases h; rw [hp]; exact ⟨rfl, rfl⟩
  · rename_i hp; rw [bind_eq_ok] at h; obtain ⟨x, -, h⟩ := h
    rw [bind_eq_ok] at h; obtain ⟨y, -, h⟩ := h; cases h; rw [hp]; exact ⟨rfl, rfl⟩
  · rename_i hp; cases h; rw [hp]; exact ⟨rfl, rfl⟩

omit [FloatFmt] in
/-- Only the handler's own steps change `pc`, the counters or the recorder. -/
theorem books_keep {c0 c1 : BitVec 32} {e e' : Engine} (h : EngBooks c0 c1 e) (hpc : e'.pc = e.pc) (hg : e'.given = e.given)
    (h0 : e'.cfg.decoder.t0Count = e.cfg.decoder.t0Count) (h1 : e'.cfg.decoder.t1Count = e.cfg.decoder.t1Count)
    (hr : e'.log.recPc = e.log.recPc) (hl : ∃ las, logRun logBoot las = .ok e'.log) : EngBooks c0 c1 e' := by
  obtain ⟨⟨done, a, b, c⟩, d, -⟩ := h
  refine ⟨⟨done, ?_, by rw [h0]; exact b, by rw [h1]; exact c⟩, fun hne => ?_, hl⟩
  · rw [hpc, hg]; exact a
  · rw [hpc]; exact d (by rw [← hr]; exact hne)

omit [FloatFmt] in
/-- A state where the handler is past the recording. -/
theorem books_done {c0 c1 : BitVec 32} {e e' : Engine} (h : EngBooks c0 c1 e) (hpc : ∀ k t, e.pc ≠ .record k t)
    (hpc' : ∀ k t, e'.pc ≠ .record k t) (hg : e'.given = e.given)
    (h0 : e'.cfg.decoder.t0Count = e.cfg.decoder.t0Count) (h1 : e'.cfg.decoder.t1Count = e.cfg.decoder.t1Count)
    (hl : e'.log = e.log) : EngBooks c0 c1 e' := by
  obtain ⟨⟨done, a, b, c⟩, d, r⟩ := h
  refine ⟨⟨done, ?_, by rw [h0]; exact b, by rw [h1]; exact c⟩, fun hne => ?_, by rw [hl]; exact r⟩
  · have ha : e.given = done := by
      revert a
      cases hp : e.pc with
      | record k t => exact absurd hp (hpc k t)
      | _ => exact id
    cases hp : e'.pc with
    | record k t => exact absurd hp (hpc' k t)
    | _ => exact hg.trans ha
  · rw [hl] at hne
    obtain ⟨k, t, hk⟩ := d hne
    exact absurd hk (hpc k t)

theorem step_books {c0 c1 : BitVec 32} {e e' : Engine} {a : EngAct} (hb : EngBooks c0 c1 e) (h : engStep e a = .ok e') :
    EngBooks c0 c1 e' := by
  obtain ⟨las, hlas⟩ := hb.run
  have hlog : ∀ b, (b = .get ∨ b = .getStep ∨ ∃ c, b = .enable c) → engLog e b = .ok e' → EngBooks c0 c1 e' := by
    intro b hb' h
    unfold engLog at h
    rw [bind_eq_ok] at h; obtain ⟨l, h1, h⟩ := h
    cases h
    exact books_keep hb rfl rfl rfl rfl (client_rec hb' h1).1 ⟨_, logRun_snoc hlas h1⟩
  cases a with
  | trigger k t =>
      rcases whenIdle_ok h with rfl | ⟨hpc, h⟩
      · exact hb
      · unfold engTrigger at h
        rw [bind_eq_ok] at h; obtain ⟨l, h1, h⟩ := h
        cases h
        obtain ⟨⟨done, a, b, c⟩, -, -⟩ := hb
        rw [hpc] at a
        exact ⟨⟨done, by show e.given ++ _ = _; rw [a], b, c⟩, fun _ => ⟨k, t, rfl⟩, ⟨_, logRun_snoc hlas h1⟩⟩
  | work now =>
      have h : engWork e now = .ok e' := h
      unfold engWork at h
      split at h
      · cases h; exact hb
      · rename_i k t hpc
        split at h
        · rename_i hrec
          rw [bind_eq_ok] at h; obtain ⟨e1, h1, h⟩ := h
          obtain ⟨-, l1, g1, p1, d0, d1⟩ := decode_parts h1
          obtain ⟨-, -, l2, g2, cf, p2⟩ := engCalc_dma h
          obtain ⟨⟨done, a, b, c⟩, -, r⟩ := hb
          rw [hpc] at a
          have ha : e.given = done ++ [(k, t)] := a
          refine ⟨⟨done ++ [(k, t)], ?_, ?_, ?_⟩, fun hne => ?_, by rw [l2, l1]; exact r⟩
          · rcases p2 with p2 | p2 <;> rw [p2, g2, g1] <;> exact ha
          · rw [cf, d0, b, List.countP_append, BitVec.ofNat_add, BitVec.add_assoc]
            by_cases hk : k = 0 <;> simp [hk]
          · rw [cf, d1, c, List.countP_append, BitVec.ofNat_add, BitVec.add_assoc]
            by_cases hk : k = 1 <;> simp [hk]
          · rw [l2, l1] at hne; exact absurd hrec hne
        · rw [bind_eq_ok] at h; obtain ⟨l, h1, h⟩ := h
          cases h
          obtain ⟨⟨done, a, b, c⟩, -, -⟩ := hb
          exact ⟨⟨done, a, b, c⟩, fun _ => ⟨k, t, hpc⟩, ⟨_, logRun_snoc hlas (a := .recStep) h1⟩⟩
      · rename_i i hpc
        unfold engLoop at h
        split_ifs at h
        · rw [bind_eq_ok] at h; obtain ⟨e1, h1, h⟩ := h
          cases h
          obtain ⟨-, s1, s2, s3, s4⟩ := schedule_parts h1
          exact books_done hb (by rw [hpc]; exact fun _ _ hh => nomatch hh) (fun _ _ hh => nomatch hh) s3
            (congrArg Decoder.t0Count s1) (congrArg Decoder.t1Count s1) s2
        · cases h
          exact books_done hb (by rw [hpc]; exact fun _ _ hh => nomatch hh) (fun _ _ hh => nomatch hh) rfl rfl rfl rfl
      · rename_i hpc
        rw [bind_eq_ok] at h; obtain ⟨q, h1, h⟩ := h
        cases h
        exact books_done hb (by rw [hpc]; exact fun _ _ hh => nomatch hh) (fun _ _ hh => nomatch hh) rfl rfl rfl rfl
  | timer now =>
      rcases whenIdle_ok h with rfl | ⟨hpc, h⟩
      · exact hb
      · unfold engTimer at h
        rw [bind_eq_ok] at h; obtain ⟨⟨c, q⟩, h1, h⟩ := h
        simp only at h
        rw [bind_eq_ok] at h; obtain ⟨e1, h2, h⟩ := h
        cases h
        obtain ⟨-, s1, s2, s3, s4, s5⟩ := callback_parts h2
        exact books_done hb (by rw [hpc]; exact fun _ _ hh => nomatch hh) (fun _ _ hh => nomatch hh) s2 s4 s5 s1
  | desync r =>
      rcases whenIdle_ok h with rfl | ⟨hpc, h⟩
      · exact hb
      · unfold engDesync at h
        rw [bind_eq_ok] at h; obtain ⟨evs, h1, h⟩ := h
        cases h
        exact books_keep hb rfl rfl rfl rfl rfl hb.run
  | swap now =>
      have h : engSwap e now = e' := Except.ok.inj h
      rw [← h]
      unfold engSwap
      generalize bufferSwap e.dma now = s
      exact books_keep hb rfl rfl rfl rfl rfl hb.run
  | sensors s => cases h; exact books_keep hb rfl rfl rfl rfl rfl hb.run
  | get => exact hlog _ (.inl rfl) h
  | getStep => exact hlog _ (.inr (.inl rfl)) h
  | logging b => exact hlog _ (.inr (.inr ⟨b, rfl⟩)) h

theorem reach_books {P : EngAct → Prop} {e0 e : Engine} (hb : EngBoot e0) (h : EngReach P e0 e) :
    EngBooks e0.cfg.decoder.t0Count e0.cfg.decoder.t1Count e := by
  induction h with
  | boot =>
      refine ⟨⟨[], ?_, by simp, by simp⟩, fun hne => ?_, ⟨[], by rw [hb.log]; rfl⟩⟩
      · rw [hb.pc]; exact hb.given
      · rw [hb.log] at hne; exact absurd rfl hne
  | step a _ _ _ hs ih => exact step_books ih hs

/-- C45, counting: whenever the trigger handler is not in the middle of recording, the two counters have advanced by the
number of triggers delivered on each input, modulo 2^32. -/
theorem C45_counters {P : EngAct → Prop} {e0 e : Engine} (hb : EngBoot e0) (h : EngReach P e0 e)
    (hpc : ∀ k t, e.pc ≠ .record k t) :
    e.cfg.decoder.t0Count = e0.cfg.decoder.t0Count + BitVec.ofNat 32 (e.given.countP fun g => g.1 = 0) ∧
    e.cfg.decoder.t1Count = e0.cfg.decoder.t1Count + BitVec.ofNat 32 (e.given.countP fun g => g.1 = 1) := by
  obtain ⟨⟨done, a, b, c⟩, -, -⟩ := reach_books hb h
  have ha : e.given = done := by
    revert a
    cases hp : e.pc with
    | record k t => exact absurd hp (hpc k t)
    | _ => exact id
  rw [ha]
  exact ⟨b, c⟩

/-- What is logged, while logging stays on. -/
structure EngStarted (e : Engine) : Prop where
  on : e.log.log.enabled = true
  list : e.log.started ++ pendingRec e.log.recPc = e.given.map fun g => triggerEvent g.1 g.2

theorem step_started {c0 c1 : BitVec 32} {e e' : Engine} {a : EngAct} (hb : EngBooks c0 c1 e) (hs : EngStarted e)
    (ha : KeepsLogging a) (h : engStep e a = .ok e') : EngStarted e' := by
  have hkeep : e'.log = e.log → e'.given = e.given → EngStarted e' := fun h1 h2 =>
    ⟨by rw [h1]; exact hs.on, by rw [h1, h2]; exact hs.list⟩
  have hlog : ∀ b, (b = .get ∨ b = .getStep ∨ b = .enable true) → engLog e b = .ok e' → EngStarted e' := by
    intro b hb' h
    unfold engLog at h
    rw [bind_eq_ok] at h; obtain ⟨l, h1, h⟩ := h
    cases h
    have hb2 : b = .get ∨ b = .getStep ∨ ∃ c, b = .enable c := by
      rcases hb' with h | h | h
      · exact .inl h
      · exact .inr (.inl h)
      · exact .inr (.inr ⟨_, h⟩)
    obtain ⟨r1, r2, r3⟩ := client_rec hb2 h1
    refine ⟨?_, by show l.started ++ pendingRec l.recPc = _; rw [r1, r2]; exact hs.list⟩
    rcases r3 with r3 | r3
    · exact r3.trans hs.on
    · rcases hb' with h | h | h
      · rw [h] at r3; cases r3
      · rw [h] at r3; cases r3
      · rw [h] at r3
        exact (LogAct.enable.inj r3).symm
  cases a with
  | trigger k t =>
      rcases whenIdle_ok h with rfl | ⟨hpc, h⟩
      · exact hs
      · unfold engTrigger at h
        rw [bind_eq_ok] at h; obtain ⟨l, h1, h⟩ := h
        cases h
        have hidle : e.log.recPc = .idle := by
          by_contra hne
          obtain ⟨k, t, hk⟩ := hb.busy hne
          rw [hpc] at hk; cases hk
        simp only [logStep, hidle, hs.on, if_true, Except.ok.injEq] at h1
        subst h1
        refine ⟨hs.on, ?_⟩
        have := hs.list
        rw [hidle] at this
        show e.log.started ++ [triggerEvent k t] = (e.given ++ [(k, t)]).map _
        rw [List.map_append, ← this]
        simp [pendingRec]
  | work now =>
      have h : engWork e now = .ok e' := h
      unfold engWork at h
      split at h
      · cases h; exact hs
      · split at h
        · rw [bind_eq_ok] at h; obtain ⟨e1, h1, h⟩ := h
          obtain ⟨-, l1, g1, p1, d0, d1⟩ := decode_parts h1
          obtain ⟨-, -, l2, g2, cf, p2⟩ := engCalc_dma h
          exact hkeep (l2.trans l1) (g2.trans g1)
        · rw [bind_eq_ok] at h; obtain ⟨l, h1, h⟩ := h
          cases h
          obtain ⟨r1, r2⟩ := recStep_started h1
          exact ⟨r2.trans hs.on, r1.trans hs.list⟩
      · unfold engLoop at h
        split_ifs at h
        · rw [bind_eq_ok] at h; obtain ⟨e1, h1, h⟩ := h
          cases h
          obtain ⟨-, s1, s2, s3, s4⟩ := schedule_parts h1
          exact hkeep s2 s3
        · cases h; exact hkeep rfl rfl
      · rw [bind_eq_ok] at h; obtain ⟨q, h1, h⟩ := h
        cases h; exact hkeep rfl rfl
  | timer now =>
      rcases whenIdle_ok h with rfl | ⟨hpc, h⟩
      · exact hs
      · unfold engTimer at h
        rw [bind_eq_ok] at h; obtain ⟨⟨c, q⟩, h1, h⟩ := h
        simp only at h
        rw [bind_eq_ok] at h; obtain ⟨e1, h2, h⟩ := h
        cases h
        obtain ⟨-, s1, s2, -⟩ := callback_parts h2
        exact hkeep s1 s2
  | desync r =>
      rcases whenIdle_ok h with rfl | ⟨hpc, h⟩
      · exact hs
      · unfold engDesync at h
        rw [bind_eq_ok] at h; obtain ⟨evs, h1, h⟩ := h
        cases h; exact hkeep rfl rfl
  | swap now =>
      have h : engSwap e now = e' := Except.ok.inj h
      refine hkeep ?_ ?_
      · rw [← h]
        unfold engSwap
        generalize bufferSwap e.dma now = s
        rfl
      · rw [← h]
        unfold engSwap
        generalize bufferSwap e.dma now = s
        rfl
  | sensors s => cases h; exact hkeep rfl rfl
  | get => exact hlog _ (.inl rfl) h
  | getStep => exact hlog _ (.inr (.inl rfl)) h
  | logging b =>
      obtain rfl : b = true := ha
      exact hlog _ (.inr (.inr rfl)) h

/-- C45, logging: while logging is on, the events recorded are exactly one trigger event for each delivered trigger, with
its input and time, in order of delivery; what the client has got or will get is a part of that, in the same order, each
numbered by its position (C46 says what is left out: only what came while the log was full). -/
theorem C45_logged {e0 e : Engine} (hb : EngBoot e0) (h : EngReach KeepsLogging e0 e) (hpc : ∀ k t, e.pc ≠ .record k t) :
    e.log.started = (e.given.map fun g => ⟨g.2, 0, .trigger, BitVec.ofInt 32 g.1⟩) ∧
    (e.log.delivered ++ waiting e.log.log).Sublist
      (numbered (e.given.map fun g => ⟨g.2, 0, .trigger, BitVec.ofInt 32 g.1⟩)) := by
  show e.log.started = (e.given.map fun g => triggerEvent g.1 g.2) ∧
    (e.log.delivered ++ waiting e.log.log).Sublist (numbered (e.given.map fun g => triggerEvent g.1 g.2))
  have hs : EngStarted e := by
    clear hpc
    induction h with
    | boot => exact ⟨by rw [hb.log]; rfl, by rw [hb.log, hb.given]; rfl⟩
    | step a hr ha _ hs ih => exact step_started (reach_books hb hr) ih ha hs
  have hbk := reach_books hb h
  have hidle : e.log.recPc = .idle := by
    by_contra hne
    obtain ⟨k, t, hk⟩ := hbk.busy hne
    exact hpc k t hk
  have h1 : e.log.started = (e.given.map fun g => triggerEvent g.1 g.2) := by
    have := hs.list
    rw [hidle] at this
    simpa [pendingRec] using this
  refine ⟨h1, ?_⟩
  obtain ⟨las, hl⟩ := hbk.run
  obtain ⟨s, e1, e2, -⟩ := C46_fifo las
  rw [hl] at e1
  cases e1
  rw [← h1]
  exact e2

/-! ### C61 -/

theorem reach_dma {P : EngAct → Prop} {e0 e : Engine} (hb : EngBoot e0) (h : EngReach P e0 e) : DmaReach e.dma := by
  induction h with
  | boot => exact .start hb.outputs
  | step a _ _ hso hs ih =>
      have hp := engStep_path hso hs
      clear hs hso
      revert hp
      generalize Engine.dma _ = x at ih
      generalize Engine.dma _ = y
      intro hp
      induction hp with
      | refl => exact ih
      | tail _ h1 ih' => exact .step ih' h1

/-- The invariant behind C61. -/
structure EngQuiet (e : Engine) : Prop where
  off : OffIdle e.cfg.events
  sync : e.cfg.decoder.valid = true → e.cfg.decoder.state = .sync
  lost : e.cfg.decoder.valid = false → NoArmed e.cfg.events

theorem step_quiet {e e' : Engine} {a : EngAct} (hq : EngQuiet e) (h : engStep e a = .ok e') : EngQuiet e' := by
  have p := step_parts h
  exact ⟨p.types hq.off, p.sync hq.sync, p.armed hq.sync hq.off hq.lost⟩

theorem reach_quiet {P : EngAct → Prop} {e0 e : Engine} (hb : EngBoot e0) (h : EngReach P e0 e) : EngQuiet e := by
  induction h with
  | boot =>
      have hn : NoArmed e0.cfg.events := fun i hs => by
        have := hb.events i false
        rw [show (e0.cfg.events i).edge false = (e0.cfg.events i).start from rfl] at this
        rw [this] at hs; cases hs
      obtain ⟨d, hd⟩ := hb.decoder
      exact ⟨fun i _ => hn i, fun hv => (by rw [hd] at hv; cases hv), fun _ => hn⟩
  | step a _ _ _ hs ih => exact step_quiet ih hs

/-- C61, first part: whenever the decoder is not valid, no output has a start edge that has not already been handed to the
hardware.  This holds in every reachable state, including the middle of the interrupt handlers. -/
theorem C61_nothing_armed {P : EngAct → Prop} {e0 e : Engine} (hb : EngBoot e0) (h : EngReach P e0 e)
    (hv : e.cfg.decoder.valid = false) (i : Fin maxEvents) : (e.cfg.events i).start.state ≠ .scheduled :=
  (reach_quiet hb h).lost hv i

omit [FloatFmt] in
theorem inv_same {n : Nat} {evs evs' : Fin n → OEvent} (h : invalidateEvents evs = .ok evs') (hn : NoArmed evs) : evs' = evs :=
  funext fun i => (C17_invalidate h i).2.1 (hn i)

theorem schedule_same {e e' : Engine} {now : Time} {i : Fin maxEvents} (h : engSchedule e now i = .ok e')
    (hv : e.cfg.decoder.valid = false) (hn : NoArmed e.cfg.events) : e'.cfg.events = e.cfg.events ∧ e'.q = e.q := by
  unfold engSchedule at h
  split_ifs at h with hd
  · cases h; exact ⟨rfl, rfl⟩
  · rw [bind_eq_ok] at h; obtain ⟨⟨cut, v⟩, h1, h⟩ := h
    simp only at h
    rw [bind_eq_ok] at h; obtain ⟨⟨evs, cb⟩, h2, h⟩ := h
    simp only at h
    rw [bind_eq_ok] at h; obtain ⟨q, h3, h⟩ := h
    cases h
    obtain ⟨h4, h5⟩ := schedule_lost h2 hv hn
    have h5 : cb = none := h5
    rw [h5] at h3
    cases h3
    exact ⟨h4, rfl⟩

/-- While the decoder is not valid, only buffer swaps change the outputs: not even the trigger at which it becomes valid. -/
theorem lost_same {e e' : Engine} {a : EngAct} (hq : EngQuiet e) (hv : e.cfg.decoder.valid = false)
    (hns : ∀ now, a ≠ .swap now) (h : engStep e a = .ok e') : e'.dma = e.dma := by
  have hn := hq.lost hv
  have hd : ∀ {e1 e2 : Engine}, e2.cfg.events = e1.cfg.events → e2.buf = e1.buf → e2.cur = e1.cur → e2.dma = e1.dma := by
    intro e1 e2 h1 h2 h3
    unfold Engine.dma
    rw [h1, h2, h3]
  have hsch : ∀ {e1 e2 : Engine} {now i}, engSchedule e1 now i = .ok e2 → e2.buf = e1.buf ∧ e2.cur = e1.cur := by
    intro e1 e2 now i h
    unfold engSchedule at h
    split_ifs at h
    · cases h; exact ⟨rfl, rfl⟩
    · rw [bind_eq_ok] at h; obtain ⟨⟨cut, v⟩, h1, h⟩ := h
      simp only at h
      rw [bind_eq_ok] at h; obtain ⟨⟨evs, cb⟩, h2, h⟩ := h
      simp only at h
      rw [bind_eq_ok] at h; obtain ⟨q, h3, h⟩ := h
      cases h; exact ⟨rfl, rfl⟩
  have hlog : ∀ b, engLog e b = .ok e' → e'.dma = e.dma := by
    intro b h
    unfold engLog at h
    rw [bind_eq_ok] at h; obtain ⟨l, h1, h⟩ := h
    cases h; rfl
  cases a with
  | trigger k t =>
      rcases whenIdle_ok h with rfl | ⟨-, h⟩
      · rfl
      · unfold engTrigger at h
        rw [bind_eq_ok] at h; obtain ⟨l, h1, h⟩ := h
        cases h; rfl
  | work now =>
      have h : engWork e now = .ok e' := h
      unfold engWork at h
      split at h
      · cases h; rfl
      · split at h
        · rw [bind_eq_ok] at h; obtain ⟨e1, h1, h⟩ := h
          rw [(engCalc_dma h).1]
          unfold engDecode at h1
          simp only [bind_eq_ok] at h1
          obtain ⟨o, -, q, -, evs, h3, h1⟩ := h1
          cases h1
          refine hd ?_ rfl rfl
          show evs = _
          unfold cancelIf at h3
          split_ifs at h3
          · exact inv_same h3 hn
          · cases h3; rfl
        · rw [bind_eq_ok] at h; obtain ⟨l, h1, h⟩ := h
          cases h; rfl
      · unfold engLoop at h
        split_ifs at h
        · rw [bind_eq_ok] at h; obtain ⟨e1, h1, h⟩ := h
          cases h
          exact hd (schedule_same h1 hv hn).1 (hsch h1).1 (hsch h1).2
        · cases h; rfl
      · rw [bind_eq_ok] at h; obtain ⟨q, h1, h⟩ := h
        cases h; rfl
  | timer now =>
      rcases whenIdle_ok h with rfl | ⟨-, h⟩
      · rfl
      · unfold engTimer at h
        rw [bind_eq_ok] at h; obtain ⟨⟨c, q⟩, h1, h⟩ := h
        simp only at h
        rw [bind_eq_ok] at h; obtain ⟨e1, h2, h⟩ := h
        cases h
        cases c with
        | expire =>
            unfold engCallback at h2
            rw [bind_eq_ok] at h2; obtain ⟨evs, h3, h2⟩ := h2
            cases h2
            exact hd (inv_same h3 hn) rfl rfl
        | event i => exact hd (schedule_same (e := { e with q := q }) h2 hv hn).1 (hsch h2).1 (hsch h2).2
        | testTrigger => cases h2; rfl
        | replay => cases h2; rfl
  | desync r =>
      rcases whenIdle_ok h with rfl | ⟨-, h⟩
      · rfl
      · unfold engDesync at h
        rw [bind_eq_ok] at h; obtain ⟨evs, h1, h⟩ := h
        cases h
        exact hd (inv_same h1 hn) rfl rfl
  | swap now => exact absurd rfl (hns now)
  | sensors s => cases h; rfl
  | get => exact hlog _ h
  | getStep => exact hlog _ h
  | logging b => exact hlog _ h

theorem lost_reach {e e' : Engine} {n : Nat} (hl : WhileLost e n e') {P : EngAct → Prop} (hP : ∀ a, P a) {e0 : Engine}
    (h : EngReach P e0 e) : EngReach P e0 e' ∧ e'.cfg.decoder.valid = false := by
  induction hl with
  | refl hv => exact ⟨h, hv⟩
  | step a _ hso hs hv ih => exact ⟨.step a ih.1 (hP a) hso hs, hv⟩

/-- What a swap does to a start edge when nothing is armed. -/
theorem lost_start {e0 e e' : Engine} {n : Nat} (hb : EngBoot e0) (h : EngReach (fun _ => True) e0 e) (hl : WhileLost e n e')
    (i : Fin maxEvents) (hs : (e'.cfg.events i).start.state = .submitted) :
    n < 2 ∧ (e.cfg.events i).start.state = .submitted ∧ (e'.cfg.events i).start.time = (e.cfg.events i).start.time ∧
    (n = 1 → ((e'.cfg.events i).start.time - (e'.buf e'.cur).first).toNat < 128) := by
  induction hl with
  | refl hv => exact ⟨by omega, hs, rfl, by omega⟩
  | @step e1 e2 n a hw hso hst hv ih =>
      obtain ⟨hr, hv1⟩ := lost_reach hw (fun _ => trivial) h
      have hq := reach_quiet hb hr
      have key : (∀ now, a ≠ .swap now) → n < 2 ∧ (e.cfg.events i).start.state = .submitted ∧
          (e2.cfg.events i).start.time = (e.cfg.events i).start.time ∧
          (n = 1 → ((e2.cfg.events i).start.time - (e2.buf e2.cur).first).toNat < 128) := by
        intro hns
        have hd := lost_same hq hv1 hns hst
        have h1 : e2.cfg.events = e1.cfg.events := congrArg Dma.evs hd
        have h2 : e2.buf = e1.buf := congrArg Dma.buf hd
        have h3 : e2.cur = e1.cur := congrArg Dma.cur hd
        rw [h1] at hs
        obtain ⟨a1, a2, a3, a4⟩ := ih hs
        rw [h1, h2, h3]
        exact ⟨a1, a2, a3, a4⟩
      cases a with
      | swap now =>
          have h2 : engSwap e1 now = e2 := Except.ok.inj hst
          have hdm : e2.dma = bufferSwap e1.dma now := by rw [← h2, engSwap_dma]
          have hev : e2.cfg.events = (bufferSwap e1.dma now).evs := congrArg Dma.evs hdm
          have hI := dma_reach_inv (reach_dma hb hr)
          obtain ⟨c1, c2, c3, -, -⟩ := bufferSwap_spec e1.dma now
          have hse := (swap_start e1.dma now i).2
          rw [hev] at hs ⊢
          rcases hse.submitted.mp hs with ⟨h5, -⟩ | ⟨h5, h6⟩
          · exact absurd h5 (hq.lost hv1 i)
          · obtain ⟨a1, a2, a3, a4⟩ := ih h5
            have hlt := hI.submitted i false h5
            have hlt : ((e1.cfg.events i).start.time - (e1.buf e1.cur).first).toNat < 256 := hlt
            have h6 : 128 ≤ ((e1.cfg.events i).start.time - (e1.buf e1.cur).first).toNat := h6
            have hn0 : n = 0 := by
              by_contra hne
              have := a4 (by omega)
              omega
            have hfirst : (e2.buf e2.cur).first = (e1.buf e1.cur).first + 128 := by
              have hb1 : e2.buf = (bufferSwap e1.dma now).buf := congrArg Dma.buf hdm
              have hb2 : e2.cur = (bufferSwap e1.dma now).cur := congrArg Dma.cur hdm
              rw [hb1, hb2, c1, c2]
              exact hI.adjacent
            refine ⟨by show n + 1 < 2; omega, a2, hse.time.trans a3, fun _ => ?_⟩
            rw [hse.time, hfirst]
            show ((e1.cfg.events i).start.time - ((e1.buf e1.cur).first + 128)).toNat < 128
            generalize (e1.cfg.events i).start.time = x at *
            generalize (e1.buf e1.cur).first = y at *
            bv_omega
      | _ => exact key (fun _ hh => nomatch hh)

/-- C61, second part: while the decoder stays invalid, every pulse that begins is one that had already been handed to the
hardware when it became invalid, at the same tick; and once the two buffers in flight have been played (two swaps, 256
ticks), no pulse begins at all. -/
theorem C61_no_new_pulse {e0 e e' : Engine} {n : Nat} (hb : EngBoot e0) (h : EngReach (fun _ => True) e0 e)
    (hl : WhileLost e n e') (i : Fin maxEvents) (hs : (e'.cfg.events i).start.state = .submitted) :
    n < 2 ∧ (e.cfg.events i).start.state = .submitted ∧ (e'.cfg.events i).start.time = (e.cfg.events i).start.time := by
  obtain ⟨a, b, c, -⟩ := lost_start hb h hl i hs
  exact ⟨a, b, c⟩

/-- C61 at the pins: once the decoder has been invalid for two swaps, a buffer in play drives a pin only to the resting
level of an output on that pin (the end of a pulse already begun). -/
theorem C61_pins {e0 e e' : Engine} {n : Nat} (hb : EngBoot e0) (h : EngReach (fun _ => True) e0 e)
    (hl : WhileLost e n e') (hn : 2 ≤ n) {b : Bool} {t : Time} {p : Fin 16} {v : Bool} (hd : Drives (e'.buf b) t p v) :
    ∃ i, ((e'.cfg.events i).pin.setWidth 8).toNat = p ∧ v = (e'.cfg.events i).inverted := by
  obtain ⟨hr, -⟩ := lost_reach hl (fun _ => trivial) h
  have hD := reach_dma hb hr
  obtain ⟨-, i, w, h1, -, h3, h4⟩ := (C19_exact hD b t p v).mp hd
  have hw : w = true := by
    by_contra hne
    have hw : w = false := by simpa using hne
    subst hw
    have := (lost_start hb h hl i h1).1
    omega
  subst hw
  have hp := (dma_reach_inv hD).pins i true (.inr h1)
  have hp : (setPins (e'.cfg.events i)).stop = (e'.cfg.events i).stop := hp
  refine ⟨i, ?_, ?_⟩
  · rw [← h3]
    show _ = (e'.cfg.events i).stop.pin.toNat
    rw [← hp]; rfl
  · rw [← h4]
    show (e'.cfg.events i).stop.val = _
    rw [← hp]; rfl

/-! ### The hypotheses are met -/

/-- One ignition output. -/
def demoEvents : Fin maxEvents → OEvent := fun i =>
  if i = 0 then dfltEvent .ignition 300 3 else dfltEvent .disabled 0 0

def demoStart : Dma maxEvents := bufferSwap (bufferSwap (Dma.boot demoEvents) 200) 300

/-- The shipped tables, one ignition output and a wheel of four teeth with one missing. -/
def demoEngine : Engine :=
  { cfg := { demoConfig with decoder := decoderInit (demoDecoder .missingNosync), events := demoStart.evs }
    vals := zeroCalc, tipin := Tipin.init, q := CbQ.init CbId, log := logBoot, buf := demoStart.buf, cur := demoStart.cur,
    pc := .idle, given := [] }

theorem demoEngine_boot : EngBoot demoEngine := by
  have hu : ∀ i w, ((demoEvents i).edge w).state = .unscheduled := by
    intro i w
    unfold demoEvents
    split_ifs <;> cases w <;> rfl
  have hsw : ∀ (s : Dma maxEvents) (now : Time), (∀ i w, ((s.evs i).edge w).state = .unscheduled) →
      ∀ i w, (((bufferSwap s now).evs i).edge w).state = .unscheduled := by
    intro s now hs i w
    rw [(bufferSwap_spec s now).2.2.2.1 i, mapEdges_edge]
    exact (swapEdge _ _ _).unscheduled.mpr (hs i w)
  refine ⟨⟨demoEvents, 200, 300, hu, by decide, by decide, by decide, by decide, ?_⟩, ?_, ⟨_, rfl⟩, rfl, rfl, rfl, rfl⟩
  · show demoEngine.dma = demoStart
    unfold demoEngine Engine.dma
    generalize demoStart = s
    rfl
  · have hc : demoEngine.cfg.events = demoStart.evs := by
      unfold demoEngine
      generalize demoStart = s
      rfl
    rw [hc]
    unfold demoStart
    have hu' : ∀ i w, (((Dma.boot demoEvents).evs i).edge w).state = .unscheduled := hu
    generalize Dma.boot demoEvents = s at hu' ⊢
    exact hsw _ _ (hsw _ _ hu')

/-- A tooth, and the handler running to its end. -/
def demoTooth (t : Nat) : List EngAct :=
  .trigger 0 (BitVec.ofNat 32 t) :: List.replicate 24 (.work (BitVec.ofNat 32 (t + 10)))

def demoTeeth : List Nat → List EngAct
  | [] => []
  | t :: ts => demoTooth t ++ demoTeeth ts

/-- A run without swaps is a history. -/
theorem run_engReach {P : EngAct → Prop} {e0 e e' : Engine} (h : EngReach P e0 e) {as : List EngAct}
    (hP : ∀ a ∈ as, P a ∧ ∀ now, a ≠ .swap now) (hr : engRun e as = .ok e') : EngReach P e0 e' := by
  induction as generalizing e with
  | nil => cases hr; exact h
  | cons a as ih =>
      unfold engRun at hr
      rw [bind_eq_ok] at hr; obtain ⟨e1, h1, hr⟩ := hr
      have ha := hP a (List.mem_cons_self ..)
      refine ih (.step a h ha.1 ?_ h1) (fun b hb => hP b (List.mem_cons_of_mem _ hb)) hr
      cases a with
      | swap now => exact absurd rfl (ha.2 now)
      | _ => trivial

omit [FloatFmt] in
theorem demoTeeth_keeps (ts : List Nat) : ∀ a ∈ demoTeeth ts, KeepsLogging a ∧ ∀ now, a ≠ .swap now := by
  induction ts with
  | nil => intro a h; cases h
  | cons t ts ih =>
      intro a h
      unfold demoTeeth at h
      rw [List.mem_append] at h
      rcases h with h | h
      · unfold demoTooth at h
        rw [List.mem_cons] at h
        rcases h with rfl | h
        · exact ⟨trivial, fun _ hh => nomatch hh⟩
        · rw [List.eq_of_mem_replicate h]
          exact ⟨trivial, fun _ hh => nomatch hh⟩
      · exact ih a h

/-- Is the handler outside `console_record_event`? -/
def EngPc.notRecording : EngPc → Bool
  | .record _ _ => false
  | _ => true

omit [FloatFmt] in
theorem EngPc.notRecording_ne {pc : EngPc} (h : pc.notRecording = true) : ∀ k t, pc ≠ .record k t := by
  rintro k t rfl
  cases h

/-- Five teeth are counted and logged, the decoder is valid and the output is armed; then a capture overflow loses sync,
nothing is armed any more, and two swaps go by with the decoder invalid. -/
example : ∃ e, @EngReach binary32 KeepsLogging (@demoEngine binary32) e ∧ (∀ k t, e.pc ≠ .record k t) ∧
    e.cfg.decoder.valid = true ∧ e.cfg.decoder.t0Count = 5 ∧ e.given.length = 5 ∧
    (e.cfg.events 0).start.state = .scheduled := by
  let _ := binary32
  obtain ⟨e, h1, h2⟩ := okAnd_ok (x := engRun demoEngine (demoTeeth [40000, 80000, 120000, 200000, 240000]))
    (p := fun e => e.pc.notRecording && e.cfg.decoder.valid && decide (e.cfg.decoder.t0Count = 5) &&
      decide (e.given.length = 5) && decide ((e.cfg.events 0).start.state = .scheduled)) (by decide +kernel)
  simp only [Bool.and_eq_true, decide_eq_true_eq] at h2
  obtain ⟨⟨⟨⟨a, b⟩, c⟩, d⟩, f⟩ := h2
  exact ⟨e, run_engReach .boot (demoTeeth_keeps _) h1, EngPc.notRecording_ne a, b, c, d, f⟩

example : ∃ e e', @EngReach binary32 (fun _ => True) (@demoEngine binary32) e ∧ @WhileLost binary32 e 2 e' ∧
    e.given.length = 5 := by
  let _ := binary32
  obtain ⟨e, h1, h2⟩ := okAnd_ok (x := engRun demoEngine (demoTeeth [40000, 80000, 120000, 200000, 240000] ++ [.desync .overflow]))
    (p := fun e => decide (e.cfg.decoder.valid = false) && decide ((400 - (e.buf (!e.cur)).first).toNat < 128) &&
      decide (e.given.length = 5) &&
      decide ((520 - ((engSwap e 400).buf (!(engSwap e 400).cur)).first).toNat < 128)) (by decide +kernel)
  simp only [Bool.and_eq_true, decide_eq_true_eq] at h2
  obtain ⟨⟨⟨a, b⟩, c⟩, d⟩ := h2
  have hr : EngReach (fun _ => True) demoEngine e := by
    refine run_engReach .boot (fun x hx => ⟨trivial, ?_⟩) h1
    rw [List.mem_append] at hx
    rcases hx with hx | hx
    · exact (demoTeeth_keeps _ x hx).2
    · rw [List.mem_singleton] at hx
      rw [hx]; exact fun _ hh => nomatch hh
  have hd : ∀ (e : Engine) now, (engSwap e now).cfg.decoder = e.cfg.decoder := by
    intro e now
    unfold engSwap
    generalize bufferSwap e.dma now = s
    rfl
  have w1 : WhileLost e 1 (engSwap e 400) := .step (.swap 400) (.refl e a) b rfl (by rw [hd]; exact a)
  have w2 : WhileLost e 2 (engSwap (engSwap e 400) 520) := .step (.swap 520) w1 d rfl (by rw [hd, hd]; exact a)
  exact ⟨e, _, hr, w2, c⟩

end Verif
