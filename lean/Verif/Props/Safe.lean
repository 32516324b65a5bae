/-
C59: processing a trigger end to end has no undefined behaviour.
-/
import Verif.Proofs.SchedSafe
import Verif.Props.Engine
import Verif.Props.Callback

namespace Verif

variable [FloatFmt]
open Fl FloatFmt

/-! ### Invariant -/

/-- What holds in every state of a run. -/
structure EngSafe (e : Engine) (g v : ℚ) : Prop where
  dec : DecSafe e.cfg.decoder g v
  settings : CalcSafe e.cfg
  sensors : SensorsSafe e.cfg.sensors
  pairs : ∀ i, Paired (e.cfg.events i)
  queue : ∃ l, QInv e.q l ∧ (e.cfg.decoder.type = .missingNosync ∨ e.cfg.decoder.type = .missingCamsync →
    ∀ i, CbId.event i ∈ l → Alive e.cfg.decoder)
  log : ∃ acc, LogInv e.log acc
  vals : ValsSafe e.vals
  tipin : TipinSafe e.tipin
  loop : ∀ i, e.pc = .loop i → e.cfg.decoder.valid = true

/-- The settings do not change when the decoder and the events move on. -/
theorem CalcSafe.next {c : Config} (h : CalcSafe c) {d : Decoder} {evs : Fin maxEvents → OEvent} (hd : d.offset = c.decoder.offset)
    (he : ∀ i, (evs i).angle = (c.events i).angle) : CalcSafe { c with decoder := d, events := evs } :=
  { h with
    offset := by show Within d.offset _ _; rw [hd]; exact h.offset
    angles := fun i => by show Within (evs i).angle _ _; rw [he i]; exact h.angles i }

omit [FloatFmt] in
theorem DecSafe.count_up {d : Decoder} {g v : ℚ} (h : DecSafe d g v) (k : Int) : DecSafe (countTrigger d k) g v := by
  unfold countTrigger
  split_ifs
  · exact ⟨h.wheel.of_cfg rfl, h.hist, h.cur, h.req, h.sound, h.awake, h.evenAwake, h.count, h.angle⟩
  · exact ⟨h.wheel.of_cfg rfl, h.hist, h.cur, h.req, h.sound, h.awake, h.evenAwake, h.count, h.angle⟩
  · exact h

omit [FloatFmt] in
theorem DecSafe.set_loss {d : Decoder} {g v : ℚ} (h : DecSafe d g v) (r : DecLoss) : DecSafe { d with loss := r } g v :=
  ⟨h.wheel.of_cfg rfl, h.hist, h.cur, h.req, h.sound, h.awake, h.evenAwake, h.count, h.angle⟩

omit [FloatFmt] in
theorem countTrigger_fields (d : Decoder) (k : Int) :
    (countTrigger d k).type = d.type ∧ (countTrigger d k).times = d.times ∧
    (countTrigger d k).currentTriggersRpm = d.currentTriggersRpm ∧ (countTrigger d k).cfg = d.cfg ∧
    (Alive d → Alive (countTrigger d k)) := by
  unfold countTrigger
  split_ifs
  · exact ⟨rfl, rfl, rfl, rfl, id⟩
  · exact ⟨rfl, rfl, rfl, rfl, id⟩
  · exact ⟨rfl, rfl, rfl, rfl, id⟩

omit [FloatFmt] in
theorem spaced_count {d : Decoder} {k : Int} {t : Time} (h : Spaced d k t) : Spaced (countTrigger d k) k t := by
  obtain ⟨h1, h2, h3, -⟩ := countTrigger_fields d k
  unfold Spaced IsTooth at *
  rw [h1, h2, h3]
  exact h

/-! ### The queue -/

omit [FloatFmt] in
theorem requestExpire_safe {q : CbQ CbId} {l : List CbId} (h : QInv q l) (ex : Option Time) :
    ∃ q' l', requestExpire q ex = .ok q' ∧ QInv q' l' ∧ ∀ i, CbId.event i ∈ l' → CbId.event i ∈ l := by
  cases ex with
  | none => exact ⟨q, l, rfl, h, fun _ h => h⟩
  | some t =>
      obtain ⟨q', l0, l1, l2, h1, h2, h3, h4, -⟩ := scheduleCallback_spec card_cbId h .expire t
      refine ⟨q', _, h1, h4, fun i hi => ?_⟩
      rw [List.mem_append, List.mem_cons] at hi
      have : CbId.event i ∈ l0 := by
        rw [h3, List.mem_append]
        rcases hi with hi | hi | hi
        · exact .inl hi
        · cases hi
        · exact .inr hi
      rw [h2] at this
      exact List.mem_of_mem_erase this

omit [FloatFmt] in
theorem requestEvent_safe {q : CbQ CbId} {l : List CbId} (h : QInv q l) (i : Fin maxEvents) (cb : Option Time) :
    ∃ q' l', requestEvent q i cb = .ok q' ∧ QInv q' l' ∧ ∀ j, CbId.event j ∈ l' → CbId.event j ∈ l ∨ cb ≠ none := by
  cases cb with
  | none => exact ⟨q, l, rfl, h, fun _ h => .inl h⟩
  | some t =>
      obtain ⟨q', l0, l1, l2, h1, h2, h3, h4, -⟩ := scheduleCallback_spec card_cbId h (.event i) t
      exact ⟨q', _, h1, h4, fun j _ => .inr (by simp)⟩

/-! ### Steps -/

theorem engDecode_safe {e : Engine} {g v : ℚ} (hs : EngSafe e g v) {k : Int} {t : Time} (hsp : Spaced e.cfg.decoder k t) :
    ∃ e', engDecode e k t = .ok e' ∧ DecSafe e'.cfg.decoder g v ∧ CalcSafe e'.cfg ∧ SensorsSafe e'.cfg.sensors ∧
      (∀ i, Paired (e'.cfg.events i)) ∧
      (∃ l, QInv e'.q l ∧ (e'.cfg.decoder.type = .missingNosync ∨ e'.cfg.decoder.type = .missingCamsync →
        ∀ i, CbId.event i ∈ l → Alive e'.cfg.decoder)) ∧ e'.log = e.log ∧ e'.vals = e.vals ∧ e'.tipin = e.tipin := by
  obtain ⟨o, h1, h2, h3⟩ := decode_safe (hs.dec.count_up k) (spaced_count hsp)
  obtain ⟨c1, c2, c3, c4, c5⟩ := countTrigger_fields e.cfg.decoder k
  have hcfg : o.d.cfg = e.cfg.decoder.cfg := (decode_facts h1).cfg.trans c4
  have hty : o.d.type = e.cfg.decoder.type := congrArg DecConfig.type hcfg
  have hoff : o.d.offset = e.cfg.decoder.offset := congrArg DecConfig.offset hcfg
  obtain ⟨l, hl, hal⟩ := hs.queue
  obtain ⟨q', l', hq1, hq2, hq3⟩ := requestExpire_safe hl o.expire
  obtain ⟨evs, he1, he2⟩ : ∃ evs, cancelIf o.lost e.cfg.events = .ok evs ∧ ∀ i, EvNext (e.cfg.events i) (evs i) := by
    unfold cancelIf
    split_ifs
    · exact invalidateEvents_safe hs.pairs
    · exact ⟨_, rfl, fun i => EvNext.refl (hs.pairs i)⟩
  unfold engDecode
  rw [h1, except_bind_ok, hq1, except_bind_ok, he1, except_bind_ok]
  refine ⟨_, rfl, h2, hs.settings.next hoff (fun i => (he2 i).angle), hs.sensors, fun i => (he2 i).paired, ⟨l', hq2, ?_⟩, rfl, rfl, rfl⟩
  intro hm i hi
  have hm' : e.cfg.decoder.type = .missingNosync ∨ e.cfg.decoder.type = .missingCamsync := by rw [← hty]; exact hm
  exact h3 (by rw [c1]; exact hm') (c5 (hal hm' i (hq3 i hi)))

theorem engWork_record_safe {e : Engine} {g v : ℚ} (hs : EngSafe e g v) {k : Int} {t now : Time}
    (hsp : Spaced e.cfg.decoder k t) : ∃ e', (engDecode e k t >>= fun e => engCalc e now) = .ok e' ∧ EngSafe e' g v := by
  obtain ⟨e1, h1, d1, d2, d3, d4, d5, d6, d7, d8⟩ := engDecode_safe hs hsp
  rw [h1, except_bind_ok]
  unfold engCalc
  have hlog : ∃ acc, LogInv e1.log acc := by rw [d6]; exact hs.log
  by_cases hv : e1.cfg.decoder.valid = true
  · rw [if_pos hv]
    have hal := d1.awake (d1.sound hv)
    obtain ⟨v1, g1, g2, g3⟩ := calculateIgnition_safe d2 d3 hal.1 e1.vals
    obtain ⟨v2, s2, g4, g5, g6, g7, g8⟩ := calculateFueling_safe d2 d3 now (s := e1.tipin) (by rw [d8]; exact hs.tipin) v1
    rw [g1, except_bind_ok, g4, except_bind_ok]
    refine ⟨_, rfl, d1, d2, d3, d4, d5, hlog, ⟨?_, ?_, g5⟩, g6, fun _ _ => hv⟩
    · rw [g7]; exact g2
    · rw [g8]; exact g3
  · rw [if_neg hv]
    refine ⟨_, rfl, d1, d2, d3, d4, d5, hlog, by rw [d7]; exact hs.vals, by rw [d8]; exact hs.tipin, fun _ h => (by cases h)⟩

theorem engSchedule_safe {e : Engine} {g v : ℚ} (hs : EngSafe e g v) {now : Time} (i : Fin maxEvents)
    (hp : Prompt e.cfg.decoder.lastTriggerTime e.dma.earliest) (hr : 1 ≤ e.cfg.decoder.rpm.toNat) :
    ∃ e', engSchedule e now i = .ok e' ∧ EngSafe e' g v ∧ e'.cfg.decoder = e.cfg.decoder ∧ e'.pc = e.pc := by
  unfold engSchedule
  split_ifs with hd
  · exact ⟨_, rfl, hs, rfl, rfl⟩
  · obtain ⟨cut, v1, h1, h2⟩ := ignitionCut_safe hs.settings hr hs.vals
    rw [h1, except_bind_ok]
    simp only
    have he : EnvSafe (engEnv { e with vals := v1 } now cut) :=
      ⟨fun hv => hs.dec.awake (hs.dec.sound hv), hs.dec.angle, hs.settings.offset, h2.advance, h2.dwell, h2.fueling, hs.settings.minFire, hp⟩
    obtain ⟨evs, cb, h3, h4, h5⟩ := scheduleEvent_safe he hs.pairs hs.settings.angles i
    rw [h3, except_bind_ok]
    simp only
    obtain ⟨l, hl, hal⟩ := hs.queue
    obtain ⟨q', l', h6, h7, h8⟩ := requestEvent_safe hl i cb
    rw [h6, except_bind_ok]
    refine ⟨_, rfl, ⟨hs.dec, hs.settings.next rfl (fun i => (h4 i).angle), hs.sensors, fun i => (h4 i).paired, ⟨l', h7, ?_⟩, hs.log, h2,
      hs.tipin, hs.loop⟩, rfl, rfl⟩
    intro hm j hj
    rcases h8 j hj with h | h
    · exact hal hm j h
    · exact hs.dec.awake (hs.dec.sound (h5 h))

/-- The decoder is given up; the outputs are cancelled. -/
theorem lose_safe {e : Engine} {g v : ℚ} (hs : EngSafe e g v) (r : DecLoss) (hpc : e.pc = .idle) :
    ∃ evs, invalidateEvents e.cfg.events = .ok evs ∧
      EngSafe { e with cfg := { e.cfg with decoder := invalidateDecoder { e.cfg.decoder with loss := r }, events := evs } } g v := by
  obtain ⟨evs, h1, h2⟩ := invalidateEvents_safe hs.pairs
  refine ⟨evs, h1, invalidate_safe (hs.dec.set_loss r), hs.settings.next rfl (fun i => (h2 i).angle), hs.sensors,
    fun i => (h2 i).paired, ?_, hs.log, hs.vals, hs.tipin, fun i h => ?_⟩
  · obtain ⟨l, hl, hal⟩ := hs.queue
    exact ⟨l, hl, hal⟩
  · exact absurd (hpc.symm.trans h) (by simp)

theorem EngSafe.set_pc {e : Engine} {g v : ℚ} (hs : EngSafe e g v) {pc : EngPc} (h : ∀ i, pc ≠ .loop i) :
    EngSafe { e with pc := pc } g v :=
  ⟨hs.dec, hs.settings, hs.sensors, hs.pairs, hs.queue, hs.log, hs.vals, hs.tipin, fun i hi => absurd hi (h i)⟩

theorem EngSafe.set_log {e : Engine} {g v : ℚ} (hs : EngSafe e g v) {l : LogSys} (h : ∃ acc, LogInv l acc) :
    EngSafe { e with log := l } g v :=
  ⟨hs.dec, hs.settings, hs.sensors, hs.pairs, hs.queue, h, hs.vals, hs.tipin, hs.loop⟩

theorem engLog_safe {e : Engine} {g v : ℚ} (hs : EngSafe e g v) (a : LogAct) : ∃ e', engLog e a = .ok e' ∧ EngSafe e' g v := by
  obtain ⟨acc, hl⟩ := hs.log
  obtain ⟨l, acc', h1, h2, -⟩ := log_step_inv hl a
  unfold engLog
  rw [h1, except_bind_ok]
  exact ⟨_, rfl, hs.set_log ⟨acc', h2⟩⟩

omit [FloatFmt] in
theorem take_ok {q : CbQ CbId} {l : List CbId} (hl : QInv q l) {now : Time} {c : CbId} (h0 : 0 < q.n) (h1 : q.arr 0 = some c)
    (h2 : timeBeforeOrEqual (q.time c) now = true) : ∃ q' l', executeTake q now = .ok (c, q') ∧ l = c :: l' ∧ QInv q' l' := by
  rcases l with _ | ⟨c0, l'⟩
  · rw [hl.count] at h0; exact absurd h0 (by simp)
  · have h4 : q.arr 0 = some c0 := hl.array 0 (by decide)
    have hc : c0 = c := by rw [h4] at h1; exact Option.some.inj h1
    subst hc
    have key : ∃ x, executeTake q now = .ok x := by
      have h0' : rd q.arr 0 = .ok (some c0) := by
        have h0 := rd_ok q.arr 0 (by decide)
        rw [hl.array 0 (by decide)] at h0
        exact h0
      unfold executeTake
      rw [headTime_ok hl.array, decide_eq_true h0, cassert_true, except_bind_ok, except_bind_ok, h2, cassert_true, except_bind_ok,
        h0', except_bind_ok]
      simp only
      obtain ⟨-, -, q', -, -, hq, -⟩ := callbackRemove_spec hl.array hl.count (QInv.len card_cbId hl) (List.mem_cons_self (a := c0))
      rw [hq, except_bind_ok]
      exact ⟨_, rfl⟩
    obtain ⟨⟨c, q'⟩, hx⟩ := key
    obtain ⟨l2, e1, e2, -⟩ := executeTake_spec hl (QInv.len card_cbId hl) hx
    obtain ⟨rfl, rfl⟩ := List.cons.inj e1
    exact ⟨q', l', hx, rfl, e2⟩

theorem engTimer_safe {e : Engine} {g v : ℚ} (hs : EngSafe e g v) {now : Time} (hpc : e.pc = .idle) (ha : StepOk e (.timer now)) :
    ∃ e', engTimer e now = .ok e' ∧ EngSafe e' g v := by
  obtain ⟨⟨c, h0, h1, h2⟩, hp, hev⟩ := ha hpc
  obtain ⟨l, hl, hal⟩ := hs.queue
  obtain ⟨q', l', h3, h4, h5⟩ := take_ok hl h0 h1 h2
  have hs' : EngSafe { e with q := q' } g v :=
    ⟨hs.dec, hs.settings, hs.sensors, hs.pairs, ⟨l', h5, fun hm i hi => hal hm i (by rw [h4]; exact List.mem_cons_of_mem _ hi)⟩, hs.log,
      hs.vals, hs.tipin, hs.loop⟩
  unfold engTimer
  rw [h3, except_bind_ok]
  simp only
  suffices h : ∃ e', engCallback { e with q := q' } now c = .ok e' ∧ EngSafe e' g v by
    obtain ⟨e', h6, h7⟩ := h
    rw [h6, except_bind_ok]
    exact ⟨_, rfl, h7.set_pc (fun i h => by cases h)⟩
  cases c with
  | expire =>
      obtain ⟨evs, h6, h7⟩ := lose_safe hs' .expired hpc
      unfold engCallback
      simp only at h6 ⊢
      rw [h6, except_bind_ok]
      exact ⟨_, rfl, h7⟩
  | event i =>
      have hr : 1 ≤ e.cfg.decoder.rpm.toNat := by
        have hm := fun hm => (hal hm i (by rw [h4]; exact List.mem_cons_self)).1
        cases ht : e.cfg.decoder.type with
        | evenNosync => exact hev (.inl ht)
        | evenCamsync => exact hev (.inr ht)
        | missingNosync => exact hm (.inl ht)
        | missingCamsync => exact hm (.inr ht)
      obtain ⟨e', h6, h7, -, -⟩ := engSchedule_safe hs' (now := now) i hp hr
      exact ⟨e', h6, h7⟩
  | testTrigger => exact ⟨_, rfl, hs'⟩
  | replay => exact ⟨_, rfl, hs'⟩

theorem engWork_safe {e : Engine} {g v : ℚ} (hs : EngSafe e g v) {now : Time} (ha : StepOk e (.work now)) :
    ∃ e', engWork e now = .ok e' ∧ EngSafe e' g v := by
  obtain ⟨hsp, hpr⟩ := ha
  unfold engWork
  cases hpc : e.pc with
  | idle => exact ⟨_, rfl, hs⟩
  | record k t =>
      simp only
      have step : ∃ e', (recStep e.log >>= fun l => pure { e with log := l } : Except Fault Engine) = .ok e' ∧ EngSafe e' g v := by
        obtain ⟨acc, hl⟩ := hs.log
        obtain ⟨l, acc', h1, h2, -⟩ := log_step_inv hl .recStep
        have h1' : recStep e.log = .ok l := h1
        rw [h1', except_bind_ok]
        exact ⟨_, rfl, hs.set_log ⟨acc', h2⟩⟩
      cases hr : e.log.recPc with
      | idle => exact engWork_record_safe hs (hsp k t hpc hr)
      | _ => rw [← hpc]; exact step
  | loop i =>
      simp only
      unfold engLoop
      split_ifs with hi
      · have hv := hs.loop i hpc
        obtain ⟨e', h1, h2, h3, -⟩ := engSchedule_safe hs (now := now) ⟨i, hi⟩ (hpr i hpc) (hs.dec.awake (hs.dec.sound hv)).1
        rw [h1, except_bind_ok]
        exact ⟨_, rfl, h2.dec, h2.settings, h2.sensors, h2.pairs, h2.queue, h2.log, h2.vals, h2.tipin, fun _ _ => by
          show e'.cfg.decoder.valid = true
          rw [h3]; exact hv⟩
      · exact ⟨_, rfl, hs.set_pc (fun i h => by cases h)⟩
  | rearm =>
      simp only
      obtain ⟨l, hl, hal⟩ := hs.queue
      obtain ⟨q', h1, h2, -⟩ := executeRearm_spec hl
      rw [h1, except_bind_ok]
      exact ⟨_, rfl, hs.dec, hs.settings, hs.sensors, hs.pairs, ⟨l, h2, hal⟩, hs.log, hs.vals, hs.tipin, fun _ h => (by cases h)⟩

theorem engSwap_safe {e : Engine} {g v : ℚ} (hs : EngSafe e g v) (now : Time) : EngSafe (engSwap e now) g v := by
  have hx : ∀ i, EvNext (e.cfg.events i) ((bufferSwap e.dma now).evs i) := fun i => swap_paired e.dma now i (hs.pairs i)
  unfold engSwap
  generalize bufferSwap e.dma now = s at hx ⊢
  exact ⟨hs.dec, hs.settings.next rfl (fun i => (hx i).angle), hs.sensors, fun i => (hx i).paired, hs.queue, hs.log, hs.vals,
    hs.tipin, hs.loop⟩

/-- No step faults, and the invariant is kept. -/
theorem engStep_safe {e : Engine} {g v : ℚ} (hs : EngSafe e g v) {a : EngAct} (ha : StepOk e a) :
    ∃ e', engStep e a = .ok e' ∧ EngSafe e' g v := by
  have idle : ∀ f : Except Fault Engine, (e.pc = .idle → ∃ e', f = .ok e' ∧ EngSafe e' g v) →
      ∃ e', whenIdle e f = .ok e' ∧ EngSafe e' g v := by
    intro f hf
    unfold whenIdle
    cases hpc : e.pc with
    | idle => exact hf hpc
    | _ => exact ⟨_, rfl, hs⟩
  cases a with
  | trigger k t =>
      refine idle _ (fun _ => ?_)
      obtain ⟨acc, hl⟩ := hs.log
      obtain ⟨l, acc', h1, h2, -⟩ := log_step_inv hl (.call (triggerEvent k t))
      unfold engTrigger
      rw [h1, except_bind_ok]
      exact ⟨_, rfl, hs.dec, hs.settings, hs.sensors, hs.pairs, hs.queue, ⟨acc', h2⟩, hs.vals, hs.tipin, fun _ h => (by cases h)⟩
  | work now => exact engWork_safe hs ha
  | timer now => exact idle _ (fun hpc => engTimer_safe hs hpc ha)
  | desync r =>
      refine idle _ (fun hpc => ?_)
      obtain ⟨evs, h1, h2⟩ := lose_safe hs r hpc
      unfold engDesync
      rw [h1, except_bind_ok]
      exact ⟨_, rfl, h2⟩
  | swap now =>
      exact ⟨_, rfl, engSwap_safe hs now⟩
  | sensors s =>
      exact ⟨_, rfl, hs.dec, { hs.settings with }, ha, hs.pairs, hs.queue, hs.log, hs.vals, hs.tipin, hs.loop⟩
  | get => exact engLog_safe hs _
  | getStep => exact engLog_safe hs _
  | logging b => exact engLog_safe hs _

theorem boot_safe {e : Engine} (hb : EngBoot e) (h : EngSetup e) : ∃ g v, EngSafe e g v := by
  obtain ⟨g, v, hw⟩ := h.wheel
  obtain ⟨d, hd⟩ := hb.decoder
  refine ⟨g, v, ?_, h.settings, h.sensors, fun i h1 h2 => ?_, ⟨[], ?_, fun _ i h => (by cases h)⟩, ⟨[], ?_⟩, h.vals, h.tipin, fun i h => ?_⟩
  · refine ⟨hw, ?_, ?_, ?_, ?_, ?_, ?_, ?_, ?_⟩
    all_goals rw [hd]
    · exact fun i _ h => absurd h (Nat.not_lt_zero _)
    · exact Nat.zero_le _
    · exact fun h => absurd rfl h
    · exact fun h => (by cases h)
    · exact fun h => (by cases h)
    · exact fun _ h => (by cases h)
    · exact fun _ h => (by cases h)
    · exact ⟨0, rfl, le_refl _, by norm_num⟩
  · have h3 := hb.events i false
    exact absurd (h3.symm.trans h2) (by decide)
  · rw [hb.queue]; exact ⟨fun i h => rfl, rfl, List.nodup_nil, fun c => by simp [CbQ.init]⟩
  · rw [hb.log]; exact boot_inv
  · exact absurd (hb.pc.symm.trans h) (by simp)

theorem run_safe {e : Engine} {g v : ℚ} (hs : EngSafe e g v) (as : List EngAct) (ha : RunOk e as) :
    ∃ e', engRun e as = .ok e' ∧ EngSafe e' g v := by
  induction as generalizing e with
  | nil => exact ⟨e, rfl, hs⟩
  | cons a as ih =>
      obtain ⟨e1, h1, h2⟩ := engStep_safe hs ha.1
      obtain ⟨e2, h3, h4⟩ := ih h2 (ha.2 e1 h1)
      refine ⟨e2, ?_, h4⟩
      show (engStep e a >>= fun e => engRun e as) = _
      rw [h1, except_bind_ok, h3]

/-- **C59.** With settings in range, from power-up on and whatever the order of triggers, callbacks, swaps, desynchronisations
and client requests, nothing is read or written out of bounds, divided by zero or converted out of range, no assertion fails and
no loop runs forever. -/
theorem C59_no_fault {e0 : Engine} (hb : EngBoot e0) (hset : EngSetup e0) (as : List EngAct) (h : RunOk e0 as) :
    ∃ e, engRun e0 as = .ok e := by
  obtain ⟨g, v, hs⟩ := boot_safe hb hset
  obtain ⟨e, h1, -⟩ := run_safe hs as h
  exact ⟨e, h1⟩

/-! ### The shipped configuration -/

omit [FloatFmt] in
theorem within_iff (x : Fl) (a b : ℚ) : Within x a b ↔ x = .fin x.toQ ∧ a ≤ x.toQ ∧ x.toQ ≤ b := by
  constructor
  · rintro ⟨q, rfl, h1, h2⟩; exact ⟨rfl, h1, h2⟩
  · intro h; exact ⟨_, h.1, h.2.1, h.2.2⟩

instance (x : Fl) (a b : ℚ) : Decidable (Within x a b) := decidable_of_iff _ (within_iff x a b).symm

omit [FloatFmt] in
/-- The settings the firmware ships with are in range, in single precision. -/
theorem default_calcSafe : @CalcSafe binary32 (@dfltConfig binary32) := by
  let _ := binary32
  have g1 : TableIn1 dfltDeadtime 0 50 ∧ TableIn1 dfltPwc 0 50 ∧ TableIn1 dfltTipinDur 0 10000 ∧ TableIn1 dfltDwell 0 1000 := by
    decide +kernel
  have g2 : TableIn2 dfltTiming (-100) 100 ∧ TableIn2 dfltVe 0 250 ∧ TableIn2 dfltLambda (1 / 2) 4 ∧ TableIn2 dfltEnrich 0 3 ∧
      TableIn2 dfltTipin 0 4000 := by
    decide +kernel
  obtain ⟨a1, a2, a3, a4⟩ := g1
  obtain ⟨b1, b2, b3, b4, b5⟩ := g2
  exact
    { timing := ⟨_, rfl, b1⟩
      ve := fun t h => Option.some.inj h ▸ b2
      lambda := fun t h => Option.some.inj h ▸ b3
      deadtime := fun t h => Option.some.inj h ▸ a1
      pwCorrection := fun t h => Option.some.inj h ▸ a2
      enrich := fun t h => Option.some.inj h ▸ b4
      tipinAmount := fun t h => Option.some.inj h ▸ b5
      tipinDuration := fun t h => Option.some.inj h ▸ a3
      dwellTable := fun _ => ⟨_, rfl, a4⟩
      dwellTime := fun h => by cases h
      minFire := by decide +kernel
      injector := by decide +kernel
      cylinder := by decide +kernel
      stoich := by decide +kernel
      injections := by decide +kernel
      airDensity := by decide +kernel
      fuelDensity := by decide +kernel
      crankAmt := by decide +kernel
      offset := by decide +kernel
      angles := by decide +kernel }

omit [FloatFmt] in
theorem default_wheelSafe : ∃ g v, WheelSafe (@dfltDecoder binary32) g v := by
  let _ := binary32
  refine ⟨10, (dfltDecoder.maxRpmChange).toQ, ?_, ?_, ?_, ?_, by norm_num, by norm_num, ?_, fun _ => ?_, fun h => ?_⟩
  · decide +kernel
  · decide +kernel
  · decide +kernel
  · decide +kernel
  · unfold TeethLimits; decide +kernel
  · have h : (dfltDecoder.numTriggers).toNat = 36 := by decide +kernel
    rw [h]; norm_num
  · rcases h with h | h <;> cases h

omit [FloatFmt] in
/-- C59 for the firmware as shipped, in single precision: nothing is asked of the settings. -/
theorem C59_shipped {e0 : Engine} (hb : EngBoot e0) (hcfg : ∃ evs, e0.cfg = { @dfltConfig binary32 with
      decoder := decoderInit (@dfltDecoder binary32), events := evs } ∧ ∀ i, (evs i).angle = (@dfltEvents binary32 i).angle)
    (hv : e0.vals = zeroCalc) (ht : e0.tipin = Tipin.init) (as : List EngAct) (h : @RunOk binary32 e0 as) :
    ∃ e, @engRun binary32 e0 as = .ok e := by
  let _ := binary32
  obtain ⟨evs, hc, ha⟩ := hcfg
  obtain ⟨g, v, hw⟩ := default_wheelSafe
  refine C59_no_fault hb ⟨⟨g, v, ?_⟩, ?_, ?_, ?_, ?_⟩ as h
  · rw [hc]
    refine hw.of_cfg ?_
    have : (dfltDecoder.maxRpmChange).feq (.fin 0) = false := by decide +kernel
    unfold decoderInit Decoder.cfg
    simp only [this, Bool.false_eq_true, if_false]
  · rw [hc]
    exact default_calcSafe.next rfl ha
  · rw [hc]
    show SensorsSafe dfltSensors
    constructor <;> decide +kernel
  · rw [hv]
    exact ⟨⟨0, rfl, by norm_num, by norm_num⟩, by decide, by decide⟩
  · rw [ht]
    exact ⟨0, rfl, by norm_num, by norm_num⟩

/-! ### The hypotheses are met -/

instance (d : Decoder) (k : Int) (t : Time) : Decidable (Spaced d k t) := by unfold Spaced IsTooth; infer_instance
instance (a b : Time) : Decidable (Prompt a b) := by unfold Prompt; infer_instance

/-- A check of `StepOk`. -/
def stepOkB (e : Engine) : EngAct → Bool
  | .work _ =>
      match e.pc, e.log.recPc with
      | .record k t, .idle => decide (Spaced e.cfg.decoder k t)
      | .loop _, _ => decide (Prompt e.cfg.decoder.lastTriggerTime e.dma.earliest)
      | _, _ => true
  | .timer now =>
      match e.q.arr 0 with
      | some c => decide (0 < e.q.n) && timeBeforeOrEqual (e.q.time c) now &&
          decide (Prompt e.cfg.decoder.lastTriggerTime e.dma.earliest) && decide (1 ≤ e.cfg.decoder.rpm.toNat)
      | none => false
  | .sensors _ => false
  | _ => true

omit [FloatFmt] in
theorem stepOkB_ok {e : Engine} {a : EngAct} (h : stepOkB e a = true) : StepOk e a := by
  cases a with
  | work now =>
      unfold stepOkB at h
      refine ⟨fun k t hpc hr => ?_, fun i hpc => ?_⟩
      · simp only [hpc, hr] at h
        exact of_decide_eq_true h
      · simp only [hpc] at h
        exact of_decide_eq_true h
  | timer now =>
      intro _
      unfold stepOkB at h
      simp only at h
      cases hc : e.q.arr 0 with
      | none => rw [hc] at h; cases h
      | some c =>
          rw [hc] at h
          simp only [Bool.and_eq_true, decide_eq_true_eq] at h
          obtain ⟨⟨⟨h1, h2⟩, h3⟩, h4⟩ := h
          exact ⟨⟨c, h1, rfl, h2⟩, h3, fun _ => h4⟩
  | sensors s => cases h
  | _ => trivial

/-- A check of `RunOk`. -/
def runOkB (e : Engine) : List EngAct → Bool
  | [] => true
  | a :: as => stepOkB e a && match engStep e a with
      | .ok e => runOkB e as
      | .error _ => true

theorem runOkB_ok {e : Engine} {as : List EngAct} (h : runOkB e as = true) : RunOk e as := by
  induction as generalizing e with
  | nil => trivial
  | cons a as ih =>
      unfold runOkB at h
      rw [Bool.and_eq_true] at h
      refine ⟨stepOkB_ok h.1, fun e' he => ih ?_⟩
      have h2 := h.2
      rw [he] at h2
      exact h2

/-- Five teeth, with the output armed at the end, a swap, and the expiry callback when the wheel stops. -/
example : ∃ e, @engRun binary32 (@demoEngine binary32) (demoTeeth [40000, 80000, 120000, 200000, 240000] ++
    [.swap 400, .timer 2000000, .work 2000000, .desync .overflow, .get, .getStep]) = .ok e := by
  let _ := binary32
  refine C59_no_fault demoEngine_boot ?_ _ (runOkB_ok (by decide +kernel))
  refine ⟨⟨90, 3 / 8, ⟨?_, ?_, by norm_num, by norm_num, by norm_num, by norm_num, ?_, fun _ => ?_, fun h => ?_⟩⟩, ?_, ?_, ?_, ?_⟩
  · decide +kernel
  · decide +kernel
  · unfold TeethLimits; decide +kernel
  · have h : (demoEngine.cfg.decoder.numTriggers).toNat = 4 := by decide +kernel
    rw [h]; norm_num
  · rcases h with h | h <;> cases h
  · have ha : ∀ i, Within (demoStart.evs i).angle (-4096) 4096 := by decide +kernel
    unfold demoEngine
    generalize demoStart = s at ha ⊢
    exact { default_calcSafe with angles := ha }
  · show SensorsSafe demoConfig.sensors
    constructor <;> decide +kernel
  · exact ⟨⟨0, rfl, by norm_num, by norm_num⟩, by decide, by decide⟩
  · exact ⟨0, rfl, by norm_num, by norm_num⟩

end Verif
