/-
C94: injections close to the length of the cycle.
-/
import Verif.Spec.Duty
import Verif.Proofs.Util
import Verif.Proofs.Sched
import Verif.Model.Default

namespace Verif

section
variable [FloatFmt]

/-- Neither edge of the pulse is waiting to be put out. -/
def NotArmed (ev : OEvent) : Prop := ev.start.state ≠ .scheduled ∧ ev.stop.state ≠ .scheduled

/-- The pulse is over or there is none, or both its edges are past being changed. -/
def PulseDone (ev : OEvent) : Prop :=
  eventIsUnscheduled ev = true ∨
    ((ev.start.state = .submitted ∨ ev.start.state = .fired) ∧ (ev.stop.state = .submitted ∨ ev.stop.state = .fired))

omit [FloatFmt] in
theorem PulseDone.notArmed {ev : OEvent} (h : PulseDone ev) : NotArmed ev := by
  unfold PulseDone eventIsUnscheduled at h
  unfold NotArmed
  rcases h with h | ⟨h1, h2⟩
  · simp only [Bool.and_eq_true, decide_eq_true_eq] at h
    rw [h.1, h.2]; decide
  · rcases h1 with h1 | h1 <;> rcases h2 with h2 | h2 <;> rw [h1, h2] <;> decide

/-- The start of the pulse that would be asked for lies before what can still be scheduled. -/
def StartPast (env : SchedEnv) (ev : OEvent) : Prop :=
  ∀ stop, fuelStop env ev = .ok stop → timeBefore (stop - 4 * env.fuelingUs) env.earliest = true

omit [FloatFmt] in
theorem safely_done {earliest ns np : Time} {ev : OEvent} (h : PulseDone ev) (hb : timeBefore ns earliest = true) :
    scheduleSafely earliest ev ns np = setPins ev := by
  unfold scheduleSafely scheduleCrit
  have e1 : (setPins ev).start.state = ev.start.state := rfl
  have e2 : (setPins ev).stop.state = ev.stop.state := rfl
  rcases h with h | ⟨h1, h2⟩
  · have h' : eventIsUnscheduled (setPins ev) = true := h
    have : (entryEnable earliest (setPins ev).start ns).2 = false := by
      unfold entryEnable
      rw [if_pos hb]
      split <;> rfl
    rw [if_pos h', this]
    rfl
  · have h' : ¬ eventIsUnscheduled (setPins ev) = true := by
      unfold eventIsUnscheduled
      rw [e1]
      rcases h1 with h1 | h1 <;> rw [h1] <;> simp
    have s1 : entryEnable earliest (setPins ev).start ns = ((setPins ev).start, false) := by
      unfold entryEnable; rw [if_pos (by rw [e1]; exact h1)]
    have s2 : ∀ t, entryEnable earliest (setPins ev).stop t = ((setPins ev).stop, false) := by
      intro t; unfold entryEnable; rw [if_pos (by rw [e2]; exact h2)]
    rw [if_neg h', s1, s2]

theorem fuel_done {env : SchedEnv} {ev ev' : OEvent} {cb : Option Time} (h : PulseDone ev) (hs : StartPast env ev)
    (hr : scheduleFuel env ev = .ok (ev', cb)) : PulseDone ev' ∧ cb = none ∧ ev'.angle = ev.angle := by
  unfold scheduleFuel at hr
  split at hr
  · cases hr; exact ⟨h, rfl, rfl⟩
  · obtain ⟨stop, h1, hr⟩ := bind_eq_ok.mp hr
    obtain ⟨r, h2, hr⟩ := bind_eq_ok.mp hr
    have hb := hs stop h1
    cases r with
    | none => cases hr; exact ⟨h, rfl, rfl⟩
    | some ev1 =>
      have hd : PulseDone ev1 ∧ ev1.angle = ev.angle := by
        unfold resetIfFired at h2
        split at h2
        · obtain ⟨b, h3, h2⟩ := bind_eq_ok.mp h2
          split at h2
          · cases h2
          · unfold resetFiredEvent at h2
            obtain ⟨ev2, h4, h2⟩ := bind_eq_ok.mp h2
            obtain ⟨-, -, h4⟩ := bind_eq_ok.mp h4
            obtain ⟨-, -, h4⟩ := bind_eq_ok.mp h4
            cases h4
            cases h2
            exact ⟨Or.inl rfl, rfl⟩
        · cases h2; exact ⟨h, rfl⟩
      unfold fuelGo fuelArm at hr
      obtain ⟨far, h3, hr⟩ := bind_eq_ok.mp hr
      split at hr
      · cases hr; exact ⟨hd.1, rfl, hd.2⟩
      · rw [safely_done hd.1 hb] at hr
        cases hr
        refine ⟨hd.1, ?_, hd.2⟩
        unfold fuelCallback
        rw [if_neg fun h => hd.1.notArmed.2 h.1]

/-- What is missing from C94, in general: as long as every call finds the start of the pulse already past, no
injection is armed, whatever else happens between the calls. -/
theorem C94_skipped (envs : List SchedEnv) (ev ev' : OEvent) (h : PulseDone ev)
    (hs : ∀ env ∈ envs, ∀ e : OEvent, e.angle = ev.angle → StartPast env e)
    (hr : armAll envs ev = .ok ev') : NotArmed ev' := by
  have key : PulseDone ev' := by
    induction envs generalizing ev with
    | nil => cases hr; exact h
    | cons env envs ih =>
      unfold armAll at hr
      obtain ⟨⟨ev1, cb⟩, h1, hr⟩ := bind_eq_ok.mp hr
      obtain ⟨h2, -, h3⟩ := fuel_done h (hs env List.mem_cons_self ev rfl) h1
      exact ih ev1 h2 (fun env he e ha => hs env (List.mem_cons_of_mem _ he) e (ha.trans h3)) hr
  exact key.notArmed

/-- The callback an injector has asked for runs when the predicted end of its pulse has come.  Unless a tooth
has been decoded that moves the predicted end to a later time, it arms nothing: the next pulse would have to
begin before the end of the last one. -/
theorem C94_callback (env : SchedEnv) (ev ev' : OEvent) (cb : Option Time) (stop : Time) (h : PulseDone ev)
    (hstop : fuelStop env ev = .ok stop) (past : (env.now - stop).toNat < 2 ^ 30)
    (width : env.fuelingUs.toNat < 2 ^ 27) (ahead : 0 < (env.earliest - env.now).toNat ∧ (env.earliest - env.now).toNat < 2 ^ 28)
    (hr : scheduleFuel env ev = .ok (ev', cb)) : NotArmed ev' ∧ cb = none := by
  have hp : StartPast env ev := by
    intro s hs
    rw [hstop] at hs
    cases hs
    have e : stop - 4 * env.fuelingUs - env.earliest =
        -((env.now - stop) + (env.earliest - env.now) + 4 * env.fuelingUs) := by bv_omega
    unfold timeBefore
    rw [e]
    generalize env.now - stop = a at past
    generalize env.earliest - env.now = b at ahead
    generalize env.fuelingUs = w at width
    have h4 : (4 * w).toNat = 4 * w.toNat := by
      rw [BitVec.toNat_mul]
      show (4 * w.toNat) % 2 ^ 32 = _
      omega
    have hx : (a + b + 4 * w).toNat = a.toNat + b.toNat + 4 * w.toNat := by
      rw [BitVec.toNat_add, BitVec.toNat_add, h4]; omega
    generalize a + b + 4 * w = x at hx
    rw [decide_eq_true_eq, BitVec.toInt_eq_toNat_cond]
    have : (-x).toNat = 2 ^ 32 - x.toNat := by
      rw [BitVec.toNat_neg, Nat.mod_eq_of_lt (by omega)]
    split <;> omega
  obtain ⟨h1, h2, -⟩ := fuel_done h hp hr
  exact ⟨h1.notArmed, h2⟩

/-- What is true of C94: a call that finds the start of the pulse still ahead, a quarter of a cycle or more after
the last pulse, arms it. -/
theorem C94_armed_partial (env : SchedEnv) (ev ev' : OEvent) (cb : Option Time) (stop lim : Time)
    (h : eventHasFired ev = true) (hd : env.d.rpm ≠ 0 ∧ env.d.valid = true) (hstop : fuelStop env ev = .ok stop)
    (hlim : timeFromRpmDiff env.d.rpm (Fl.fin 90) = .ok lim) (since : lim.toNat ≤ (stop - ev.stop.time).toNat)
    (ahead : timeBefore (stop - 4 * env.fuelingUs) env.earliest = false) (order : timeBefore stop env.earliest = false)
    (hr : scheduleFuel env ev = .ok (ev', cb)) :
    ev'.start.state = .scheduled ∧ ev'.stop.state = .scheduled ∧ ev'.stop.time = stop ∧
      ev'.start.time = stop - 4 * env.fuelingUs := by
  unfold scheduleFuel at hr
  rw [if_neg (by rintro (h | h); exacts [hd.1 h, by rw [hd.2] at h; cases h])] at hr
  rw [hstop] at hr
  have hf := h
  unfold eventHasFired at hf
  simp only [Bool.and_eq_true, decide_eq_true_eq] at hf
  have hreset : resetIfFired ev env.d stop = .ok (some
      { ev with start := { ev.start with state := .unscheduled }, stop := { ev.stop with state := .unscheduled } }) := by
    unfold resetIfFired tooSoon resetFiredEvent
    rw [if_pos h, hlim]
    have : ¬ (timeDiff stop ev.stop.time).toNat < lim.toNat := by unfold timeDiff; omega
    simp [bind, Except.bind, pure, Except.pure, this, cassert, hf.1, hf.2]
  simp only [bind, Except.bind] at hr
  rw [hreset] at hr
  generalize stop - 4 * env.fuelingUs = start at hr ahead ⊢
  unfold fuelGo fuelArm tooFar at hr
  simp [scheduleSafely, scheduleCrit, setPins, eventIsUnscheduled, entryEnable, ahead, order, bind, Except.bind,
    pure, Except.pure] at hr
  obtain ⟨rfl, -⟩ := hr
  exact ⟨rfl, rfl, rfl, rfl⟩

end

/-- C94 in full: at a steady speed, an injection that leaves time in the cycle for its edges to be scheduled is
armed again before the next one is due. -/
def C94_full : Prop :=
  ∀ (s : Steady) (ev : OEvent) (late : ℕ) (A : ℚ), s.Ok → 0 ≤ A → A < 720 →
    eventHasFired ev = true → ev.type = .fuel → ev.angle = .fin A →
    A * (s.N * s.P : ℕ) = 720 * (late : ℕ) → late < s.P → ev.stop.time = s.t0 + BitVec.ofNat 32 late →
    4 * s.env.fuelingUs.toNat + 3 * s.lead < s.N * s.P →
    ∃ n ev', @armAll binary32 ((s.calls late).take n) ev = .ok ev' ∧ ev'.start.state = .scheduled

/-- 5000 revolutions a minute, 24 teeth in a cycle of 24 ms, injections of 23.5 ms. -/
def wideCycle : Steady where
  env := { d := { @dfltDecoder binary32 with valid := true, rpm := 5000, toothRpm := 5000 }, earliest := 0, now := 0,
           advance := .fin 0, dwellUs := 0, fuelingUs := 23500, minFireUs := 0, ignitionCut := false, fuelCut := false }
  N := 24
  P := 4000
  t0 := 1000000
  lead := 128

/-- An injector whose pulse has just ended, three quarters of a degree after tooth 0. -/
def wideEvent : OEvent :=
  { type := .fuel, angle := .fin (3 / 4), pin := 0, inverted := false,
    start := { time := 1000100 - 94000, pin := 0, val := true, state := .fired },
    stop := { time := 1000100, pin := 0, val := false, state := .fired } }

theorem wide_past : ∀ env ∈ wideCycle.calls 100, ∃ stop, @fuelStop binary32 env wideEvent = .ok stop ∧
    timeBefore (stop - 4 * env.fuelingUs) env.earliest = true := by
  let _ := binary32
  have h : (wideCycle.calls 100).all (fun env => match fuelStop env wideEvent with
    | .ok stop => timeBefore (stop - 4 * env.fuelingUs) env.earliest
    | .error _ => false) = true := by decide +kernel
  intro env he
  have := List.all_eq_true.mp h env he
  cases h1 : fuelStop env wideEvent with
  | error e => rw [h1] at this; cases this
  | ok stop => rw [h1] at this; exact ⟨stop, rfl, this⟩

/-- Injections of 23.5 ms in a cycle of 24 ms: the injector's own callback and the calls at all the teeth of the next
cycle arm nothing, and the cycle goes by without fuel. -/
theorem C94_full_false : ¬ C94_full := by
  let _ := binary32
  intro h
  obtain ⟨n, ev', hr, hs⟩ := h wideCycle wideEvent 100 (3 / 4)
    ⟨by decide, rfl, rfl, by decide, rfl⟩ (by norm_num) (by norm_num) rfl rfl rfl
    (by show (3 / 4 : ℚ) * ((24 * 4000 : ℕ) : ℚ) = 720 * ((100 : ℕ) : ℚ); norm_num) (by decide) rfl (by decide)
  refine (C94_skipped _ wideEvent ev' (Or.inr ⟨Or.inr rfl, Or.inr rfl⟩) ?_ hr).1 hs
  intro env he e ha stop hstop
  obtain ⟨s, h1, h2⟩ := wide_past env (List.mem_of_mem_take he)
  have : fuelStop env e = fuelStop env wideEvent := by unfold fuelStop; rw [ha]
  rw [this, h1] at hstop
  cases hstop
  exact h2

/-- The hypotheses of `C94_callback` are met by the callback of that injector, and it succeeds. -/
example : ∃ ev' stop, @scheduleFuel binary32 (wideCycle.at 0 100) wideEvent = .ok (ev', none) ∧
    @fuelStop binary32 (wideCycle.at 0 100) wideEvent = .ok stop ∧ stop = (wideCycle.at 0 100).now := by
  let _ := binary32
  have h1 : fuelStop (wideCycle.at 0 100) wideEvent = .ok 1000100 := by decide +kernel
  have h2 : ∃ ev', scheduleFuel (wideCycle.at 0 100) wideEvent = .ok (ev', none) := by
    cases h : scheduleFuel (wideCycle.at 0 100) wideEvent with
    | error e =>
      exfalso
      have : (match scheduleFuel (wideCycle.at 0 100) wideEvent with | .ok _ => true | .error _ => false) = true := by
        decide +kernel
      rw [h] at this
      cases this
    | ok r =>
      have := (C94_callback _ _ r.1 r.2 _ (Or.inr ⟨Or.inr rfl, Or.inr rfl⟩) h1 (by decide) (by decide) (by decide) h).2
      exact ⟨r.1, by rw [← this]⟩
  obtain ⟨ev', h2⟩ := h2
  exact ⟨ev', _, h2, h1, rfl⟩

/-- With injections of 20 ms the first tooth after the pulse arms the next one (`C94_armed_partial`). -/
example : (match @scheduleFuel binary32 ({ wideCycle with env := { wideCycle.env with fuelingUs := 20000 } }.at 1 0)
      wideEvent with
    | .ok (ev, _) => decide (ev.start.state = .scheduled ∧ ev.stop.time = 1096100)
    | .error _ => false) = true := by decide +kernel

end Verif
