/-
Scheduling an output does not fault.
-/
import Verif.Proofs.CalcSafe
import Verif.Proofs.DecSafe
import Verif.Proofs.Sched
import Verif.Proofs.Engine

namespace Verif

/-- An armed start has a stop. -/
def Paired (ev : OEvent) : Prop := ev.stop.state = .unscheduled → ev.start.state ≠ .scheduled

/-- An event after a step: same type and angle, still paired. -/
structure EvNext (ev ev' : OEvent) : Prop where
  type : ev'.type = ev.type
  angle : ev'.angle = ev.angle
  paired : Paired ev'

theorem EvNext.refl {ev : OEvent} (h : Paired ev) : EvNext ev ev := ⟨rfl, rfl, h⟩

theorem EvNext.trans {a b c : OEvent} (h : EvNext a b) (h' : EvNext b c) : EvNext a c :=
  ⟨h'.type.trans h.type, h'.angle.trans h.angle, h'.paired⟩

/-! ### Cancelling -/

theorem descheduleEvent_safe {ev : OEvent} (hp : Paired ev) (hs : ev.start.state ≠ .unscheduled) :
    ∃ ev', descheduleEvent ev = .ok ev' ∧ EvNext ev ev' := by
  unfold descheduleEvent entryDisableA
  rw [decide_eq_true hs, cassert_true, except_bind_ok, except_pure, except_bind_ok]
  unfold entryDisable
  by_cases h : ev.start.state = .scheduled
  · have h1 : ev.stop.state ≠ .unscheduled := fun h' => hp h' h
    rw [if_neg (by simp only [h, ne_eq, not_true_eq_false, not_false_eq_true])]
    simp only [if_true]
    rw [decide_eq_true h1, cassert_true, except_bind_ok, except_pure, except_bind_ok]
    exact ⟨_, rfl, rfl, rfl, fun _ h' => by cases h'⟩
  · rw [if_pos h]
    simp only [Bool.false_eq_true, if_false]
    exact ⟨_, rfl, EvNext.refl hp⟩

theorem invalidateOne_safe {ev : OEvent} (hp : Paired ev) : ∃ ev', invalidateOne ev = .ok ev' ∧ EvNext ev ev' := by
  unfold invalidateOne
  split_ifs with h1 h2
  · exact ⟨_, rfl, EvNext.refl hp⟩
  · exact descheduleEvent_safe hp h1
  · exact ⟨_, rfl, EvNext.refl hp⟩

theorem invalidateEvents_safe {n : Nat} {evs : Fin n → OEvent} (hp : ∀ i, Paired (evs i)) :
    ∃ evs', invalidateEvents evs = .ok evs' ∧ ∀ i, EvNext (evs i) (evs' i) := by
  choose f h1 h2 using fun i => invalidateOne_safe (hp i)
  exact ⟨f, invalidate_ok h1, h2⟩

/-! ### Buffer swap -/

theorem swap_paired {n : Nat} (s : Dma n) (now : Time) (i : Fin n) (hp : Paired (s.evs i)) :
    EvNext (s.evs i) ((bufferSwap s now).evs i) := by
  rw [(bufferSwap_spec s now).2.2.2.1 i]
  refine ⟨rfl, rfl, fun h1 h2 => ?_⟩
  have hs := swapEdge (roundToBuffer now + 128) (s.buf s.cur).first (s.evs i).start
  have ht := swapEdge (roundToBuffer now + 128) (s.buf s.cur).first (s.evs i).stop
  exact hp (ht.unscheduled.mp h1) (hs.scheduled.mp h2).1

/-! ### Arming -/

theorem stop_later {last earliest t w : Time} (hp : Prompt last earliest) (ht : t.toNat ≤ 2 ^ 30) (hw : w.toNat ≤ 2 ^ 30 + 2 ^ 20)
    (hs : timeBefore (last + t - w) earliest = false) : timeBefore (last + t) earliest = false := by
  rw [timeBefore_false_iff] at hs ⊢
  unfold Prompt at hp
  bv_omega

theorem scheduleSafely_next {earliest : Time} {ev : OEvent} {start stop : Time} (hp : Paired ev)
    (hl : timeBefore start earliest = false → timeBefore stop earliest = false) : EvNext ev (scheduleSafely earliest ev start stop) := by
  have key : ∀ ev : OEvent, Paired ev → EvNext ev (scheduleCrit earliest ev start stop) := by
    intro ev hp
    unfold scheduleCrit
    by_cases hu : eventIsUnscheduled ev = true
    · rw [if_pos hu]
      unfold eventIsUnscheduled at hu
      simp only [Bool.and_eq_true, decide_eq_true_eq] at hu
      by_cases hb : timeBefore start earliest = true
      · have : (entryEnable earliest ev.start start).2 = false := by
          unfold entryEnable
          rw [if_neg (by rw [hu.1]; simp), if_pos hb]
        rw [this]
        simp only [Bool.false_eq_true, if_false]
        exact EvNext.refl hp
      · have hb' : timeBefore start earliest = false := by simpa using hb
        have h2 : entryEnable earliest ev.stop stop = ({ ev.stop with time := stop, state := .scheduled }, true) := by
          unfold entryEnable
          rw [if_neg (by rw [hu.2]; simp), if_neg (by rw [hl hb']; simp)]
        have h1 : entryEnable earliest ev.start start = ({ ev.start with time := start, state := .scheduled }, true) := by
          unfold entryEnable
          rw [if_neg (by rw [hu.1]; simp), if_neg hb]
        rw [h1, h2]
        simp only [if_true]
        exact ⟨rfl, rfl, fun h => by cases h⟩
    · rw [if_neg hu]
      refine ⟨rfl, rfl, ?_⟩
      intro h1 h2
      simp only at h1 h2
      -- the stop is not scheduled by this, and was not
      have h3 : ev.stop.state = .unscheduled := by
        have key : ∀ t, (entryEnable earliest ev.stop t).1.state = .unscheduled → ev.stop.state = .unscheduled := by
          intro t h
          unfold entryEnable at h
          split_ifs at h
          · exact h
          · exact h
        exact key _ h1
      have h4 : ev.start.state ≠ .unscheduled := by
        intro h5
        apply hu
        unfold eventIsUnscheduled
        rw [h5, h3]; rfl
      have h5 := hp h3
      unfold entryEnable at h2
      split_ifs at h2 with h6
      · exact h5 h2
      · exact h5 h2
      · cases hst : ev.start.state <;> simp_all
  have hs : Paired (setPins ev) := hp
  have := key (setPins ev) hs
  exact ⟨this.type, this.angle, this.paired⟩

section
variable [FloatFmt]
open Fl FloatFmt

theorem ignitionCut_safe {c : Config} (hc : CalcSafe c) (hr : 1 ≤ c.decoder.rpm.toNat) {v : CalcValues} (hv : ValsSafe v) :
    ∃ cut v', ignitionCut c v = .ok (cut, v') ∧ ValsSafe v' := by
  unfold ignitionCut
  have h1 : ValsSafe (rpmCut c v).2 := ⟨hv.advance, hv.dwell, hv.fueling⟩
  generalize rpmCut c v = r at h1 ⊢
  obtain ⟨b, v1⟩ := r
  simp only at h1 ⊢
  cases b
  · simp only [Bool.false_eq_true, if_false]
    unfold fuelOverduty
    obtain ⟨t, ht, -⟩ := time_total (q := 720) hr (by norm_num) (by norm_num)
    have hj : c.fueling.injections ≠ 0 := by
      intro h
      have := hc.injections
      rw [h] at this
      exact absurd this (by decide)
    obtain ⟨pw, hp, -⟩ := timeFromUs_total (us := v1.fuelingUs) (le_trans h1.fueling (by norm_num))
    rw [ht, except_bind_ok, if_neg hj, hp]
    simp only [except_bind_ok, except_pure]
    split_ifs
    · exact ⟨_, _, rfl, h1.advance, h1.dwell, h1.fueling⟩
    · exact ⟨_, _, rfl, h1.advance, h1.dwell, h1.fueling⟩
  · simp only [if_true]
    exact ⟨_, _, rfl, h1⟩

/-- What `schedule_event` needs. -/
structure EnvSafe (env : SchedEnv) : Prop where
  alive : env.d.valid = true → Alive env.d
  angle : AngleOk env.d.lastTriggerAngle
  offset : Within env.d.offset (-4096) 4096
  advance : Within env.advance (-128) 128
  dwell : env.dwellUs.toNat ≤ 2 ^ 28
  fueling : env.fuelingUs.toNat ≤ 2 ^ 28 + 2 ^ 18
  minFire : env.minFireUs.toNat ≤ 2 ^ 28
  prompt : Prompt env.d.lastTriggerTime env.earliest

theorem clamp_time {x : Fl} {a b : ℚ} (hx : Within x a b) (ha : -16384 ≤ a) (hb : b ≤ 16384) {r : BitVec 32} (hr : 1 ≤ r.toNat) :
    ∃ y t, clampAngle x (fin 720) = .ok y ∧ timeFromRpmDiff r y = .ok t ∧ t.toNat ≤ 2 ^ 30 := by
  obtain ⟨q, rfl, h1, h2⟩ := hx
  obtain ⟨y, hy⟩ := C03_terminates q 720 (by rw [abs_le]; constructor <;> linarith) (by norm_num) rp(720, 0)
  obtain ⟨h3, h4⟩ := C03_range (fin q) (by intro h; cases h) 720 (by norm_num) _ hy
  have h5 : (0 : ℚ) ≤ y := by simpa [Fl.le] using h3
  have h6 : y < 720 := by simpa [Fl.lt] using h4
  obtain ⟨t, ht, ht1⟩ := time_total (q := y) hr h5 (by linarith)
  exact ⟨_, t, hy, ht, ht1⟩

theorem reset_safe {env : SchedEnv} {ev : OEvent} (hp : Paired ev) (hr : 1 ≤ env.d.rpm.toNat) (stop : Time) :
    resetIfFired ev env.d stop = .ok none ∨ ∃ ev', resetIfFired ev env.d stop = .ok (some ev') ∧ EvNext ev ev' := by
  unfold resetIfFired
  by_cases hf : eventHasFired ev = true
  · rw [if_pos hf]
    unfold eventHasFired at hf
    simp only [Bool.and_eq_true, decide_eq_true_eq] at hf
    unfold tooSoon
    obtain ⟨t, ht, -⟩ := time_total (q := 90) hr (by norm_num) (by norm_num)
    rw [ht, except_bind_ok, except_pure, except_bind_ok]
    split_ifs
    · exact .inl rfl
    · right
      unfold resetFiredEvent
      rw [decide_eq_true hf.1, decide_eq_true hf.2, cassert_true, except_bind_ok, except_bind_ok]
      exact ⟨_, rfl, rfl, rfl, fun _ h => by cases h⟩
  · rw [if_neg hf]
    exact .inr ⟨_, rfl, EvNext.refl hp⟩

theorem tooFar_safe {env : SchedEnv} (hr : 1 ≤ env.d.rpm.toNat) (ev : OEvent) (stop : Time) : ∃ b, tooFar ev env.d stop = .ok b := by
  unfold tooFar
  split_ifs
  · obtain ⟨t, ht, -⟩ := time_total (q := 180) hr (by norm_num) (by norm_num)
    rw [ht, except_bind_ok]
    exact ⟨_, rfl⟩
  · exact ⟨_, rfl⟩

theorem tooLittle_safe {env : SchedEnv} (hm : env.minFireUs.toNat ≤ 2 ^ 28) (ev : OEvent) (start : Time) :
    ∃ b, tooLittle ev env.minFireUs start = .ok b := by
  unfold tooLittle
  obtain ⟨t, ht, -⟩ := timeFromUs_total' hm
  rw [ht, except_bind_ok]
  exact ⟨_, rfl⟩

theorem scheduleIgnition_safe {env : SchedEnv} (he : EnvSafe env) {ev : OEvent} (hp : Paired ev)
    (ha : Within ev.angle (-4096) 4096) : ∃ ev', scheduleIgnition env ev = .ok ev' ∧ EvNext ev ev' := by
  unfold scheduleIgnition
  by_cases h : env.d.rpm = 0 ∨ env.d.valid = false
  · rw [if_pos h]; exact ⟨_, rfl, EvNext.refl hp⟩
  rw [if_neg h]
  push Not at h
  have hv : env.d.valid = true := by simpa using h.2
  obtain ⟨hr, htr⟩ := he.alive hv
  obtain ⟨y, t, hy, ht, ht1⟩ := clamp_time (r := env.d.toothRpm) (a := -16384) (b := 16384)
    (((ha.sub he.advance (A := -8192) (B := 8192) rp(-8192, 0) rp(8192, 0)).sub
      (show Within env.d.lastTriggerAngle 0 720 by obtain ⟨q, h1, h2, h3⟩ := he.angle; exact ⟨q, h1, h2, h3.le⟩)
      (A := -10240) (B := 8192) rp(-10240, 0) rp(8192, 0)).add he.offset (A := -16384) (B := 16384) rp(-16384, 0) rp(16384, 0))
    (le_refl _) (le_refl _) htr
  have hstop : ignitionStop env ev = .ok (env.d.lastTriggerTime + t) := by
    unfold ignitionStop
    rw [hy, except_bind_ok, ht, except_bind_ok]; rfl
  obtain ⟨dw, hdw, hdw1⟩ := timeFromUs_total' he.dwell
  rw [hstop, except_bind_ok, hdw, except_bind_ok]
  have hl : timeBefore (env.d.lastTriggerTime + t - dw) env.earliest = false →
      timeBefore (env.d.lastTriggerTime + t) env.earliest = false := stop_later he.prompt ht1 (by omega)
  rcases reset_safe hp hr (env.d.lastTriggerTime + t) with hn | ⟨ev1, hn, hnx⟩
  · rw [hn, except_bind_ok]
    exact ⟨_, rfl, EvNext.refl hp⟩
  · rw [hn, except_bind_ok]
    show ∃ ev', ignitionArm env ev1 _ _ = .ok ev' ∧ _
    unfold ignitionArm
    obtain ⟨b, hb⟩ := tooFar_safe hr ev1 (env.d.lastTriggerTime + t)
    rw [hb, except_bind_ok]
    split_ifs
    · exact ⟨_, rfl, hnx⟩
    · obtain ⟨b2, hb2⟩ := tooLittle_safe he.minFire ev1 (env.d.lastTriggerTime + t - dw)
      rw [hb2, except_bind_ok]
      split_ifs
      · exact ⟨_, rfl, hnx⟩
      · exact ⟨_, rfl, hnx.trans (scheduleSafely_next hnx.paired hl)⟩

theorem scheduleFuel_safe {env : SchedEnv} (he : EnvSafe env) {ev : OEvent} (hp : Paired ev)
    (ha : Within ev.angle (-4096) 4096) : ∃ ev' cb, scheduleFuel env ev = .ok (ev', cb) ∧ EvNext ev ev' ∧
      (cb ≠ none → env.d.valid = true) := by
  unfold scheduleFuel
  by_cases h : env.d.rpm = 0 ∨ env.d.valid = false
  · rw [if_pos h]; exact ⟨_, _, rfl, EvNext.refl hp, fun h => absurd rfl h⟩
  rw [if_neg h]
  push Not at h
  have hv : env.d.valid = true := by simpa using h.2
  obtain ⟨hr, htr⟩ := he.alive hv
  obtain ⟨y, t, hy, ht, ht1⟩ := clamp_time (r := env.d.toothRpm) (a := -16384) (b := 16384)
    ((ha.sub
      (show Within env.d.lastTriggerAngle 0 720 by obtain ⟨q, h1, h2, h3⟩ := he.angle; exact ⟨q, h1, h2, h3.le⟩)
      (A := -10240) (B := 8192) rp(-10240, 0) rp(8192, 0)).add he.offset (A := -16384) (B := 16384) rp(-16384, 0) rp(16384, 0))
    (le_refl _) (le_refl _) htr
  have hstop : fuelStop env ev = .ok (env.d.lastTriggerTime + t) := by
    unfold fuelStop
    rw [hy, except_bind_ok, ht, except_bind_ok]; rfl
  rw [hstop, except_bind_ok]
  have hw : (4 * env.fuelingUs).toNat ≤ 2 ^ 30 + 2 ^ 20 := by
    have := he.fueling
    rw [BitVec.toNat_mul]
    show 4 * _ % _ ≤ _
    rw [Nat.mod_eq_of_lt (by omega)]
    omega
  have hl : timeBefore (env.d.lastTriggerTime + t - 4 * env.fuelingUs) env.earliest = false →
      timeBefore (env.d.lastTriggerTime + t) env.earliest = false := stop_later he.prompt ht1 hw
  rcases reset_safe hp hr (env.d.lastTriggerTime + t) with hn | ⟨ev1, hn, hnx⟩
  · rw [hn, except_bind_ok]
    exact ⟨_, _, rfl, EvNext.refl hp, fun _ => hv⟩
  · rw [hn, except_bind_ok]
    show ∃ ev' cb, fuelArm env ev1 _ _ = .ok (ev', cb) ∧ _
    unfold fuelArm
    obtain ⟨b, hb⟩ := tooFar_safe hr ev1 (env.d.lastTriggerTime + t)
    rw [hb, except_bind_ok]
    split_ifs
    · exact ⟨_, _, rfl, hnx, fun _ => hv⟩
    · exact ⟨_, _, rfl, hnx.trans (scheduleSafely_next hnx.paired hl), fun _ => hv⟩

omit [FloatFmt] in
theorem setEv_next {n : Nat} {evs : Fin n → OEvent} {i : Fin n} {ev : OEvent} (hp : ∀ i, Paired (evs i)) (h : EvNext (evs i) ev)
    (j : Fin n) : EvNext (evs j) (setEv evs i ev j) := by
  unfold setEv
  split_ifs with hj
  · subst hj; exact h
  · exact EvNext.refl (hp j)

theorem scheduleEvent_safe {n : Nat} {env : SchedEnv} (he : EnvSafe env) {evs : Fin n → OEvent} (hp : ∀ i, Paired (evs i))
    (ha : ∀ i, Within (evs i).angle (-4096) 4096) (i : Fin n) :
    ∃ evs' cb, scheduleEvent env evs i = .ok (evs', cb) ∧ (∀ j, EvNext (evs j) (evs' j)) ∧ (cb ≠ none → env.d.valid = true) := by
  obtain ⟨evs0, h0, h0n⟩ := invalidateEvents_safe hp
  unfold scheduleEvent
  cases ht : (evs i).type with
  | disabled => exact ⟨_, _, rfl, fun j => EvNext.refl (hp j), fun h => absurd rfl h⟩
  | ignition =>
      simp only
      split_ifs
      · rw [h0, except_bind_ok]
        exact ⟨_, _, rfl, h0n, fun h => absurd rfl h⟩
      · obtain ⟨ev', h1, h2⟩ := scheduleIgnition_safe he (hp i) (ha i)
        rw [h1, except_bind_ok]
        exact ⟨_, _, rfl, setEv_next hp h2, fun h => absurd rfl h⟩
  | fuel =>
      simp only
      split_ifs
      · rw [h0, except_bind_ok]
        exact ⟨_, _, rfl, h0n, fun h => absurd rfl h⟩
      · obtain ⟨ev', cb, h1, h2, h3⟩ := scheduleFuel_safe he (hp i) (ha i)
        rw [h1, except_bind_ok]
        exact ⟨_, _, rfl, setEv_next hp h2, h3⟩

end

end Verif
