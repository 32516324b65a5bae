/-
What one step of the firmware, other than a buffer swap, can do to one output.
-/
import Verif.Props.Engine

namespace Verif

variable [FloatFmt]

/-- The environment in which outputs are scheduled in state `e`. -/
structure EnvOf (e : Engine) (env : SchedEnv) : Prop where
  d : env.d = e.cfg.decoder
  earliest : env.earliest = e.dma.earliest
  advance : env.advance = e.vals.timingAdvance
  dwell : env.dwellUs = e.vals.dwellUs
  fueling : env.fuelingUs = e.vals.fuelingUs

/-- Output `ev` becomes `ev'` in one step from `e`. -/
inductive EvMove (e : Engine) (ev : OEvent) : OEvent → Prop
  | same : EvMove e ev ev
  | cancel : EvMove e ev (descheduleCrit ev)
  | spark {ev' : OEvent} (env : SchedEnv) : EnvOf e env → e.cfg.decoder.valid = true → ev.type = .ignition →
      scheduleIgnition env ev = .ok ev' → EvMove e ev ev'
  | fuel {r : OEvent × Option Time} (env : SchedEnv) : EnvOf e env → e.cfg.decoder.valid = true → ev.type = .fuel →
      scheduleFuel env ev = .ok r → EvMove e ev r.1

omit [FloatFmt] in
theorem invalidate_move [FloatFmt] {e : Engine} {evs : Fin maxEvents → OEvent} (h : invalidateEvents e.cfg.events = .ok evs) (i : Fin maxEvents) :
    EvMove e (e.cfg.events i) (evs i) := by
  have := invalidate_inv h i
  unfold invalidateOne at this
  split_ifs at this with h1 h2
  · rw [← Except.ok.inj this]; exact .same
  · rw [descheduleEvent_cases this]; exact .cancel
  · rw [← Except.ok.inj this]; exact .same

theorem overduty_vals {c : Config} {v v' : CalcValues} {b : Bool} (h : fuelOverduty c v = .ok (b, v')) :
    v'.timingAdvance = v.timingAdvance ∧ v'.dwellUs = v.dwellUs ∧ v'.fuelingUs = v.fuelingUs := by
  unfold fuelOverduty at h
  rw [bind_eq_ok] at h; obtain ⟨t, -, h⟩ := h
  split_ifs at h
  rw [bind_eq_ok] at h; obtain ⟨pw, -, h⟩ := h
  cases h
  exact ⟨rfl, rfl, rfl⟩

/-- The cut test leaves the commanded values alone. -/
theorem cut_vals {c : Config} {v v' : CalcValues} {b : Bool} (h : ignitionCut c v = .ok (b, v')) :
    v'.timingAdvance = v.timingAdvance ∧ v'.dwellUs = v.dwellUs ∧ v'.fuelingUs = v.fuelingUs := by
  unfold ignitionCut at h
  simp only at h
  split_ifs at h
  · cases h; exact ⟨rfl, rfl, rfl⟩
  · rw [bind_eq_ok] at h; obtain ⟨⟨o, v1⟩, h1, h⟩ := h
    have := overduty_vals h1
    simp only at h
    split_ifs at h
    · cases h; exact this
    · cases h; exact this

theorem schedule_move {e e' : Engine} {now : Time} {j : Fin maxEvents} (h : engSchedule e now j = .ok e') (i : Fin maxEvents) :
    EvMove e (e.cfg.events i) (e'.cfg.events i) := by
  unfold engSchedule at h
  split_ifs at h with hd
  · cases h; exact .same
  · rw [bind_eq_ok] at h; obtain ⟨⟨cut, v⟩, h1, h⟩ := h
    obtain ⟨hv1, hv2, hv3⟩ := cut_vals h1
    simp only at h
    rw [bind_eq_ok] at h; obtain ⟨⟨evs, cb⟩, h2, h⟩ := h
    simp only at h
    rw [bind_eq_ok] at h; obtain ⟨q, -, h⟩ := h
    cases h
    show EvMove e (e.cfg.events i) (evs i)
    have henv : EnvOf e (engEnv { e with vals := v } now cut) := ⟨rfl, rfl, hv1, hv2, hv3⟩
    generalize hg : engEnv { e with vals := v } now cut = env at h2 henv
    unfold scheduleEvent at h2
    cases ht : (e.cfg.events j).type with
    | disabled => exact absurd ht hd
    | ignition =>
        rw [ht] at h2
        simp only at h2
        split_ifs at h2 with hc
        · rw [bind_eq_ok] at h2; obtain ⟨evs1, h3, h2⟩ := h2
          cases h2
          exact invalidate_move h3 i
        · rw [bind_eq_ok] at h2; obtain ⟨ev, h3, h2⟩ := h2
          cases h2
          unfold setEv
          split_ifs with hij
          · subst hij
            refine .spark env henv ?_ ht h3
            rw [← henv.d]
            simp only [Bool.or_eq_true, Bool.not_eq_true', not_or, Bool.not_eq_false, Bool.not_eq_true] at hc
            exact hc.2
          · exact .same
    | fuel =>
        rw [ht] at h2
        simp only at h2
        split_ifs at h2 with hc
        · rw [bind_eq_ok] at h2; obtain ⟨evs1, h3, h2⟩ := h2
          cases h2
          exact invalidate_move h3 i
        · rw [bind_eq_ok] at h2; obtain ⟨⟨ev, cb1⟩, h3, h2⟩ := h2
          cases h2
          unfold setEv
          split_ifs with hij
          · subst hij
            refine .fuel env henv ?_ ht h3
            rw [← henv.d]
            simp only [Bool.or_eq_true, Bool.not_eq_true', not_or, Bool.not_eq_false, Bool.not_eq_true] at hc
            exact hc.2
          · exact .same

theorem decode_move {e e' : Engine} {k : Int} {t : Time} (h : engDecode e k t = .ok e') (i : Fin maxEvents) :
    EvMove e (e.cfg.events i) (e'.cfg.events i) := by
  unfold engDecode at h
  simp only [bind_eq_ok] at h
  obtain ⟨o, h1, q, h2, evs, h3, h⟩ := h
  cases h
  unfold cancelIf at h3
  split_ifs at h3 with hl
  · exact invalidate_move h3 i
  · cases h3; exact .same

omit [FloatFmt] in
/-- The move does not depend on the parts of the state that scheduling does not read. -/
theorem EvMove.of [FloatFmt] {e e1 : Engine} {ev ev' : OEvent} (h : EvMove e1 ev ev') (hd : e1.cfg.decoder = e.cfg.decoder)
    (he : e1.dma.earliest = e.dma.earliest) (hv : e1.vals = e.vals) : EvMove e ev ev' := by
  have conv : ∀ {env}, EnvOf e1 env → EnvOf e env := fun h => ⟨h.d.trans hd, h.earliest.trans he, h.advance.trans (by rw [hv]),
    h.dwell.trans (by rw [hv]), h.fueling.trans (by rw [hv])⟩
  cases h with
  | same => exact .same
  | cancel => exact .cancel
  | spark env h1 h2 h3 h4 => exact .spark env (conv h1) (by rw [← hd]; exact h2) h3 h4
  | fuel env h1 h2 h3 h4 => exact .fuel env (conv h1) (by rw [← hd]; exact h2) h3 h4

theorem callback_move {e e' : Engine} {now : Time} {c : CbId} (h : engCallback e now c = .ok e') (i : Fin maxEvents) :
    EvMove e (e.cfg.events i) (e'.cfg.events i) := by
  cases c with
  | expire =>
      unfold engCallback at h
      rw [bind_eq_ok] at h; obtain ⟨evs, h1, h⟩ := h
      cases h
      exact invalidate_move h1 i
  | event j => exact schedule_move h i
  | testTrigger => cases h; exact .same
  | replay => cases h; exact .same

theorem work_move {e e' : Engine} {now : Time} (h : engWork e now = .ok e') (i : Fin maxEvents) :
    EvMove e (e.cfg.events i) (e'.cfg.events i) := by
  unfold engWork at h
  split at h
  · cases h; exact .same
  · split at h
    · rw [bind_eq_ok] at h; obtain ⟨e1, h1, h⟩ := h
      rw [(engCalc_dma h).2.2.2.2.1]
      exact decode_move h1 i
    · rw [bind_eq_ok] at h; obtain ⟨l, h1, h⟩ := h
      cases h; exact .same
  · unfold engLoop at h
    split_ifs at h
    · rw [bind_eq_ok] at h; obtain ⟨e1, h1, h⟩ := h
      cases h
      exact schedule_move (e' := e1) h1 i
    · cases h; exact .same
  · rw [bind_eq_ok] at h; obtain ⟨q, h1, h⟩ := h
    cases h; exact .same

/-- Every step but a swap moves every output in one of these ways. -/
theorem step_move {e e' : Engine} {a : EngAct} (hns : ∀ now, a ≠ .swap now) (h : engStep e a = .ok e') (i : Fin maxEvents) :
    EvMove e (e.cfg.events i) (e'.cfg.events i) := by
  cases a with
  | trigger k t =>
      rcases whenIdle_ok h with rfl | ⟨-, h⟩
      · exact .same
      · unfold engTrigger at h
        rw [bind_eq_ok] at h; obtain ⟨l, h1, h⟩ := h
        cases h; exact .same
  | work now => exact work_move h i
  | timer now =>
      rcases whenIdle_ok h with rfl | ⟨-, h⟩
      · exact .same
      · unfold engTimer at h
        rw [bind_eq_ok] at h; obtain ⟨⟨c, q⟩, h1, h⟩ := h
        simp only at h
        rw [bind_eq_ok] at h; obtain ⟨e1, h2, h⟩ := h
        cases h
        exact (callback_move (e := { e with q := q }) (e' := e1) h2 i).of rfl rfl rfl
  | desync r =>
      rcases whenIdle_ok h with rfl | ⟨-, h⟩
      · exact .same
      · unfold engDesync at h
        rw [bind_eq_ok] at h; obtain ⟨evs, h1, h⟩ := h
        cases h
        exact invalidate_move h1 i
  | swap now => exact absurd rfl (hns now)
  | sensors s => cases h; exact .same
  | get =>
      unfold engStep engLog at h
      rw [bind_eq_ok] at h; obtain ⟨l, h1, h⟩ := h
      cases h; exact .same
  | getStep =>
      unfold engStep engLog at h
      rw [bind_eq_ok] at h; obtain ⟨l, h1, h⟩ := h
      cases h; exact .same
  | logging b =>
      unfold engStep engLog at h
      rw [bind_eq_ok] at h; obtain ⟨l, h1, h⟩ := h
      cases h; exact .same

omit [FloatFmt] in
theorem crit_static (t ns np : Time) (ev : OEvent) : (scheduleCrit t ev ns np).type = ev.type ∧
    (scheduleCrit t ev ns np).angle = ev.angle ∧ (scheduleCrit t ev ns np).pin = ev.pin ∧
    (scheduleCrit t ev ns np).inverted = ev.inverted := by
  unfold scheduleCrit
  split_ifs <;> exact ⟨rfl, rfl, rfl, rfl⟩

theorem reset_static {ev ev1 : OEvent} {d : Decoder} {stop : Time} (h : resetIfFired ev d stop = .ok (some ev1)) :
    ev1.type = ev.type ∧ ev1.angle = ev.angle ∧ ev1.pin = ev.pin ∧ ev1.inverted = ev.inverted := by
  rcases resetIfFired_cases h with ⟨h, -⟩ | ⟨h, -⟩ | ⟨ev', h, -, -, h1⟩
  · cases h; exact ⟨rfl, rfl, rfl, rfl⟩
  · cases h
  · cases h
    unfold resetFiredEvent at h1
    simp only [bind_eq_ok] at h1
    obtain ⟨_, -, _, -, h1⟩ := h1
    cases h1
    exact ⟨rfl, rfl, rfl, rfl⟩

/-- No step changes what an output is configured to be. -/
theorem EvMove.static {e : Engine} {ev ev' : OEvent} (h : EvMove e ev ev') :
    ev'.type = ev.type ∧ ev'.angle = ev.angle ∧ ev'.pin = ev.pin ∧ ev'.inverted = ev.inverted := by
  cases h with
  | same => exact ⟨rfl, rfl, rfl, rfl⟩
  | cancel => unfold descheduleCrit; split_ifs <;> exact ⟨rfl, rfl, rfl, rfl⟩
  | spark env h1 h2 h3 h4 =>
      rcases scheduleIgnition_cases h4 with rfl | ⟨stop, dwell, ev1, -, -, h5, rfl | ⟨-, -, rfl⟩⟩
      · exact ⟨rfl, rfl, rfl, rfl⟩
      · exact reset_static h5
      · obtain ⟨a, b, c, d⟩ := reset_static h5
        obtain ⟨a', b', c', d'⟩ := crit_static env.earliest (stop - dwell) stop (setPins ev1)
        exact ⟨a'.trans a, b'.trans b, c'.trans c, d'.trans d⟩
  | fuel env h1 h2 h3 h4 =>
      rcases scheduleFuel_cases h4 with h5 | ⟨stop, ev1, -, h5, h6 | ⟨-, h6⟩⟩
      · rw [h5]; exact ⟨rfl, rfl, rfl, rfl⟩
      · rw [h6]; exact reset_static h5
      · rw [h6]
        obtain ⟨a, b, c, d⟩ := reset_static h5
        obtain ⟨a', b', c', d'⟩ := crit_static env.earliest (stop - 4 * env.fuelingUs) stop (setPins ev1)
        exact ⟨a'.trans a, b'.trans b, c'.trans c, d'.trans d⟩

theorem schedule_bufs {e e' : Engine} {now : Time} {j : Fin maxEvents} (h : engSchedule e now j = .ok e') :
    e'.buf = e.buf ∧ e'.cur = e.cur := by
  unfold engSchedule at h
  split_ifs at h with hd
  · cases h; exact ⟨rfl, rfl⟩
  · rw [bind_eq_ok] at h; obtain ⟨⟨cut, v⟩, -, h⟩ := h
    simp only at h
    rw [bind_eq_ok] at h; obtain ⟨⟨evs, cb⟩, -, h⟩ := h
    simp only at h
    rw [bind_eq_ok] at h; obtain ⟨q, -, h⟩ := h
    cases h
    exact ⟨rfl, rfl⟩

theorem decode_bufs {e e' : Engine} {k : Int} {t : Time} (h : engDecode e k t = .ok e') : e'.buf = e.buf ∧ e'.cur = e.cur := by
  unfold engDecode at h
  simp only [bind_eq_ok] at h
  obtain ⟨o, h1, q, h2, evs, h3, h⟩ := h
  cases h
  exact ⟨rfl, rfl⟩

theorem callback_bufs {e e' : Engine} {now : Time} {c : CbId} (h : engCallback e now c = .ok e') : e'.buf = e.buf ∧ e'.cur = e.cur := by
  cases c with
  | expire =>
      unfold engCallback at h
      rw [bind_eq_ok] at h; obtain ⟨evs, h1, h⟩ := h
      cases h
      exact ⟨rfl, rfl⟩
  | event j => exact schedule_bufs h
  | testTrigger => cases h; exact ⟨rfl, rfl⟩
  | replay => cases h; exact ⟨rfl, rfl⟩

theorem work_bufs {e e' : Engine} {now : Time} (h : engWork e now = .ok e') : e'.buf = e.buf ∧ e'.cur = e.cur := by
  unfold engWork at h
  split at h
  · cases h; exact ⟨rfl, rfl⟩
  · split at h
    · rw [bind_eq_ok] at h; obtain ⟨e1, h1, h⟩ := h
      have := (engCalc_dma h).1
      have h2 := decode_bufs h1
      have hb : e'.dma.buf = e1.dma.buf ∧ e'.dma.cur = e1.dma.cur := by rw [this]; exact ⟨rfl, rfl⟩
      exact ⟨hb.1.trans h2.1, hb.2.trans h2.2⟩
    · rw [bind_eq_ok] at h; obtain ⟨l, h1, h⟩ := h
      cases h; exact ⟨rfl, rfl⟩
  · unfold engLoop at h
    split_ifs at h
    · rw [bind_eq_ok] at h; obtain ⟨e1, h1, h⟩ := h
      cases h
      exact schedule_bufs (e' := e1) h1
    · cases h; exact ⟨rfl, rfl⟩
  · rw [bind_eq_ok] at h; obtain ⟨q, h1, h⟩ := h
    cases h; exact ⟨rfl, rfl⟩

/-- Only a swap changes the buffers. -/
theorem step_bufs {e e' : Engine} {a : EngAct} (hns : ∀ now, a ≠ .swap now) (h : engStep e a = .ok e') :
    e'.buf = e.buf ∧ e'.cur = e.cur := by
  cases a with
  | trigger k t =>
      rcases whenIdle_ok h with rfl | ⟨-, h⟩
      · exact ⟨rfl, rfl⟩
      · unfold engTrigger at h
        rw [bind_eq_ok] at h; obtain ⟨l, h1, h⟩ := h
        cases h; exact ⟨rfl, rfl⟩
  | work now => exact work_bufs h
  | timer now =>
      rcases whenIdle_ok h with rfl | ⟨-, h⟩
      · exact ⟨rfl, rfl⟩
      · unfold engTimer at h
        rw [bind_eq_ok] at h; obtain ⟨⟨c, q⟩, h1, h⟩ := h
        simp only at h
        rw [bind_eq_ok] at h; obtain ⟨e1, h2, h⟩ := h
        cases h
        exact callback_bufs (e := { e with q := q }) (e' := e1) h2
  | desync r =>
      rcases whenIdle_ok h with rfl | ⟨-, h⟩
      · exact ⟨rfl, rfl⟩
      · unfold engDesync at h
        rw [bind_eq_ok] at h; obtain ⟨evs, h1, h⟩ := h
        cases h
        exact ⟨rfl, rfl⟩
  | swap now => exact absurd rfl (hns now)
  | sensors s => cases h; exact ⟨rfl, rfl⟩
  | get =>
      unfold engStep engLog at h
      rw [bind_eq_ok] at h; obtain ⟨l, h1, h⟩ := h
      cases h; exact ⟨rfl, rfl⟩
  | getStep =>
      unfold engStep engLog at h
      rw [bind_eq_ok] at h; obtain ⟨l, h1, h⟩ := h
      cases h; exact ⟨rfl, rfl⟩
  | logging b =>
      unfold engStep engLog at h
      rw [bind_eq_ok] at h; obtain ⟨l, h1, h⟩ := h
      cases h; exact ⟨rfl, rfl⟩

end Verif
