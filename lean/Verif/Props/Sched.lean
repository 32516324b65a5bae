/-
C11-C18: output events.
-/
import Verif.Proofs.Sched

namespace Verif

/-! ### C11 -/

/-- A step never changes the time of an edge that has been handed to the platform, and never
withdraws it: a submitted edge stays submitted or becomes fired; a fired edge stays fired unless both
edges of the event have fired. -/
structure Kept (ev ev' : OEvent) (en en' : Entry) : Prop where
  time : en.state = .submitted ∨ en.state = .fired → en'.time = en.time
  submitted : en.state = .submitted → en'.state = .submitted ∨ en'.state = .fired
  fired : en.state = .fired → en'.state = .fired ∨
    (ev.start.state = .fired ∧ ev.stop.state = .fired ∧ en'.state = .unscheduled)

theorem Kept.refl (ev ev' : OEvent) {en en' : Entry} (ht : en'.time = en.time) (hs : en'.state = en.state) :
    Kept ev ev' en en' :=
  ⟨fun _ => ht, fun h => .inl (hs.trans h), fun h => .inl (hs.trans h)⟩

theorem kept_enable (ev ev' : OEvent) (e : Time) (en : Entry) (t : Time) :
    Kept ev ev' en (entryEnable e en t).1 := by
  rcases entryEnable_cases e en t with ⟨h, _⟩ | ⟨h, h1, h2, _⟩
  · rw [h]; exact Kept.refl _ _ rfl rfl
  · exact ⟨fun h => absurd h (by simp [h1, h2]), fun h => absurd h h1, fun h => absurd h h2⟩

theorem kept_swap (ev ev' : OEvent) {next : Time} {a b : Entry} (h : EdgeSwap next a b) : Kept ev ev' a b := by
  cases h with
  | submit h w => exact ⟨by simp [h], by simp [h], by simp [h]⟩
  | later h w => exact Kept.refl _ _ rfl rfl
  | idle h => exact Kept.refl _ _ rfl rfl
  | fire h => exact ⟨by simp, by simp, by simp⟩

/-- C11.  In every interleaving, for all requested times: no step alters an edge that was handed to the
platform. -/
theorem C11_submitted_kept {s t : EvSt} (e : EvStep anyTimes s t) :
    Kept s.ev t.ev s.ev.start t.ev.start ∧ Kept s.ev t.ev s.ev.stop t.ev.stop := by
  cases e with
  | repin p q v w => exact ⟨Kept.refl _ _ rfl rfl, Kept.refl _ _ rfl rfl⟩
  | arm e ns np he h =>
    simp only [scheduleCrit]
    split_ifs
    · exact ⟨kept_enable _ _ _ _ _, kept_enable _ _ _ _ _⟩
    · exact ⟨Kept.refl _ _ rfl rfl, Kept.refl _ _ rfl rfl⟩
    · exact ⟨kept_enable _ _ _ _ _, kept_enable _ _ _ _ _⟩
  | cancel =>
    simp only [descheduleCrit, entryDisable]
    by_cases h1 : s.ev.start.state = .scheduled <;> by_cases h2 : s.ev.stop.state = .scheduled <;>
      simp only [h1, h2, ne_eq, not_true_eq_false, not_false_eq_true, if_true, if_false,
        Bool.false_eq_true]
    · exact ⟨⟨by simp [h1], by simp [h1], by simp [h1]⟩, ⟨by simp [h2], by simp [h2], by simp [h2]⟩⟩
    · exact ⟨⟨by simp [h1], by simp [h1], by simp [h1]⟩, Kept.refl _ _ rfl rfl⟩
    · exact ⟨Kept.refl _ _ rfl rfl, Kept.refl _ _ rfl rfl⟩
    · exact ⟨Kept.refl _ _ rfl rfl, Kept.refl _ _ rfl rfl⟩
  | reset ev h e =>
    obtain ⟨h1, h2, rfl⟩ := reset_ok e
    exact ⟨⟨fun _ => rfl, by simp [h1], by simp [h1, h2]⟩, ⟨fun _ => rfl, by simp [h2], by simp [h1, h2]⟩⟩
  | swap a b ha hb => exact ⟨kept_swap _ _ ha, kept_swap _ _ hb⟩
  | config ty ang pin inv => exact ⟨Kept.refl _ _ rfl rfl, Kept.refl _ _ rfl rfl⟩

/-- A path of steps. -/
inductive EvPath (ok : EvSt → Time → Time → Time → Prop) : EvSt → EvSt → Prop
  | refl (s : EvSt) : EvPath ok s s
  | tail {s t u : EvSt} (h : EvPath ok s t) (e : EvStep ok t u) : EvPath ok s u

/-- C11 over whole histories: as long as an event is not reset, a start edge that was handed over keeps
its time for ever, and is submitted or fired. -/
theorem C11_history {s t : EvSt} (h : EvPath anyTimes s t)
    (hs : s.ev.start.state = .submitted ∨ s.ev.start.state = .fired) :
    (t.ev.start.time = s.ev.start.time ∧ (t.ev.start.state = .submitted ∨ t.ev.start.state = .fired)) ∨
    ∃ u, EvPath anyTimes s u ∧ u.ev.start.time = s.ev.start.time ∧
      u.ev.start.state = .fired ∧ u.ev.stop.state = .fired := by
  induction h with
  | refl => exact .inl ⟨rfl, hs⟩
  | tail h e ih =>
    rename_i t u
    rcases ih with ⟨ht, hst⟩ | hu
    · have K := (C11_submitted_kept e).1
      rcases hst with hst | hst
      · left
        exact ⟨(K.time (.inl hst)).trans ht, K.submitted hst⟩
      · rcases K.fired hst with h' | ⟨h1, h2, h3⟩
        · left
          exact ⟨(K.time (.inr hst)).trans ht, .inr h'⟩
        · right
          exact ⟨t, h, ht, h1, h2⟩
    · exact .inr hu

/-! ### C12 -/

/-- The English claim: an event whose start edge is pending, submitted or fired also has its stop edge
pending, submitted or fired, and later than the start. -/
def PulseEnds (ev : OEvent) : Prop :=
  ev.start.state ≠ .unscheduled →
    ev.stop.state ≠ .unscheduled ∧ Later ev.start.time ev.stop.time

/-- C12 in full: for every history in which the control code asks for pulses. -/
def C12_full : Prop := ∀ s : EvSt, EvHist pulseTimes s → PulseEnds s.ev

/-- C12 for histories in which an ignition reschedule does not put the stop before a start that can no
longer be moved (always true of fuel events). -/
theorem C12_partial {s : EvSt} (h : EvHist orderedTimes s) : PulseEnds s.ev := by
  intro hs
  have I := pulse_hist h
  exact ⟨fun h => hs (I.both.mpr h), I.order hs⟩

/-- The stop is never handed over before the start. -/
theorem C12_stop_not_first_partial {s : EvSt} (h : EvHist orderedTimes s) :
    (s.ev.stop.state = .submitted ∨ s.ev.stop.state = .fired) →
    (s.ev.start.state = .submitted ∨ s.ev.start.state = .fired) := by
  intro hs
  have I := pulse_hist h
  rcases hst : s.ev.start.state with _ | _ | _ | _
  · have := I.both.mp hst; simp [this] at hs
  · have := I.startFirst hst; simp [this] at hs
  · simp
  · simp

/-- Histories in which the event is a fuel event throughout. -/
inductive FuelHist : EvSt → Prop
  | init (s : EvSt) (hf : s.ev.type = .fuel) (ha : s.ev.start.state = .unscheduled)
      (hb : s.ev.stop.state = .unscheduled) : FuelHist s
  | step {s t : EvSt} (h : FuelHist s) (e : EvStep pulseTimes s t) (hf : t.ev.type = .fuel) : FuelHist t

theorem fuel_type {s : EvSt} (h : FuelHist s) : s.ev.type = .fuel := by
  cases h <;> assumption

theorem fuel_ordered {s : EvSt} (h : FuelHist s) : EvHist orderedTimes s := by
  induction h with
  | init s hf ha hb => exact .init s ha hb
  | step h e hf ih =>
    have ft := fuel_type h
    refine .step ih ?_
    cases e with
    | repin p q v w => exact .repin _ p q v w
    | arm e ns np he h => exact .arm _ e ns np he ⟨h, fun hne => absurd ft hne⟩
    | cancel => exact .cancel _
    | reset ev h e => exact .reset _ ev h e
    | swap a b ha hb => exact .swap _ a b ha hb
    | config ty ang pin inv => exact .config _ ty ang pin inv

/-- C12 for fuel events: it holds in every history, with no condition on the reschedules. -/
theorem C12_fuel {s : EvSt} (h : FuelHist s) : PulseEnds s.ev := C12_partial (fuel_ordered h)

/-! The ignition counterexample is run on the real scheduling function, with binary32 arithmetic.
A cranking engine is at 200 rpm with 20 degrees to go, 3 ms dwell.  Ten degrees later it is at 400 rpm and
the advance has grown by 5 degrees: the new start is already past, so the start stays where it was, but the
new stop is accepted. -/

/-- Decoder of the example: only the fields read by the scheduler matter. -/
def crankDecoder (rpm tooth : BitVec 32) (t : Time) (ang : ℚ) : Decoder :=
  { valid := true, rpm := rpm, toothRpm := tooth, lastTriggerTime := t, lastTriggerAngle := Fl.fin ang,
    expiration := 0, type := .missingNosync, offset := Fl.fin 0, maxRpmChange := Fl.fin (1 / 2),
    curRpmChange := Fl.fin 0, minRpm := 80, requiredTriggersRpm := 8, numTriggers := 36,
    degreesPerTrigger := Fl.fin 10, rpmWindowSize := 8, t0Count := 0, t1Count := 0, loss := .noLoss,
    state := .sync, currentTriggersRpm := 36, triggersSinceLastSync := 5, times := fun _ => 0,
    camThis := false, camLast := false }

def crankEnv (d : Decoder) (earliest : Time) (adv : ℚ) (pwUs : BitVec 32) : SchedEnv :=
  { d := d, earliest := earliest, now := earliest, advance := Fl.fin adv, dwellUs := 3000,
    fuelingUs := pwUs, minFireUs := 500, ignitionCut := false, fuelCut := false }

def crankEvent (ty : EvType) : OEvent :=
  { type := ty, angle := Fl.fin 90, pin := 0, inverted := false, start := Entry.init, stop := Entry.init }

/-- First trigger: stop in 20 degrees. -/
def crankEnv1 : SchedEnv := crankEnv (crankDecoder 200 200 100000 60) 100096 10 3000

/-- Second trigger, 22222 ticks later. -/
def crankEnv2 : SchedEnv := crankEnv (crankDecoder 200 400 122222 70) 122368 15 3000

/-- The event after the first call. -/
def crankEvent1 : OEvent :=
  { crankEvent .ignition with start := { time := 154666, pin := 0, val := true, state := .scheduled },
                              stop := { time := 166666, pin := 0, val := false, state := .scheduled } }

/-- The event after the second call. -/
def crankEvent2 : OEvent :=
  { crankEvent .ignition with start := { time := 154666, pin := 0, val := true, state := .scheduled },
                              stop := { time := 130555, pin := 0, val := false, state := .scheduled } }

/-- The two calls leave the coil with a stop before its start. -/
theorem C12_ignition_witness :
    @scheduleIgnition binary32 crankEnv1 (crankEvent .ignition) = .ok crankEvent1 ∧
    @scheduleIgnition binary32 crankEnv2 crankEvent1 = .ok crankEvent2 ∧
    ¬ PulseEnds crankEvent2 := by
  let _ := binary32
  have s1 : @ignitionStop binary32 crankEnv1 (crankEvent .ignition) = .ok 166666 := by
    rw [ignitionStop_eq (by decide +kernel) (by decide +kernel)]; decide +kernel
  have s2 : @ignitionStop binary32 crankEnv2 crankEvent1 = .ok 130555 := by
    rw [ignitionStop_eq (by decide +kernel) (by decide +kernel)]; decide +kernel
  refine ⟨?_, ?_, ?_⟩
  · rw [scheduleIgnition_eq (stop := 166666) (dwell := 12000) (r := some (crankEvent .ignition))
      (by decide) rfl s1 (by decide +kernel) (by decide +kernel)]
    decide +kernel
  · rw [scheduleIgnition_eq (stop := 130555) (dwell := 12000) (r := some crankEvent1)
      (by decide) rfl s2 (by decide +kernel) (by decide +kernel)]
    decide +kernel
  · intro h
    have := (h (by decide)).2.2
    revert this
    decide

/-- C12 in full is false: the reschedule of the example, as a history. -/
theorem C12_full_false : ¬ C12_full := by
  intro h
  let s0 : EvSt := { next := 0, ev := crankEvent .ignition }
  have h0 : EvHist pulseTimes s0 := .init _ rfl rfl
  have h1 := EvHist.step h0 (.arm s0 0 54000 66000 (by decide) (by
    refine ⟨by decide, by decide, .inl (by decide)⟩))
  have h2 := EvHist.step h1 (.arm _ 0 (-4000) 8000 (by decide) (by
    refine ⟨by decide, by decide, .inr (by decide)⟩))
  have := (h _ h2 (by decide)).2.2
  revert this
  decide

/-- A zero dwell or zero fuel pulse gives a start and a stop at the same tick. -/
theorem C12_zero_width (e t : Time) (ev : OEvent) (hu : eventIsUnscheduled ev = true)
    (h : timeBefore t e = false) :
    (scheduleCrit e ev t t).start.time = t ∧ (scheduleCrit e ev t t).stop.time = t ∧
    (scheduleCrit e ev t t).start.state = .scheduled ∧ (scheduleCrit e ev t t).stop.state = .scheduled := by
  have hu' := hu
  simp only [eventIsUnscheduled, Bool.and_eq_true, decide_eq_true_eq] at hu'
  unfold scheduleCrit
  rw [if_pos hu]
  have k1 : entryEnable e ev.start t = ({ ev.start with time := t, state := .scheduled }, true) := by
    simp [entryEnable, hu', h]
  have k2 : entryEnable e ev.stop t = ({ ev.stop with time := t, state := .scheduled }, true) := by
    simp [entryEnable, hu', h]
  rw [k1, k2]
  simp

/-! Non-vacuity: a history with a reschedule of a committed pulse. -/
example : ∃ s, EvHist orderedTimes s ∧ s.ev.start.state = .submitted ∧ s.ev.stop.state = .scheduled ∧
    s.ev.stop.time = 900 := by
  let s0 : EvSt := { next := 0, ev := crankEvent .ignition }
  have h0 : EvHist orderedTimes s0 := .init _ rfl rfl
  have h1 := EvHist.step h0 (.arm s0 0 100 700 (by decide) (by
    refine ⟨⟨by decide, by decide, .inl (by decide)⟩, fun _ => ⟨by decide, by decide⟩⟩))
  have h2 := EvHist.step h1 (.swap _ _ _ (.submit _ (by decide) (by decide)) (.later _ (by decide) (by decide)))
  have h3 := EvHist.step h2 (.arm _ 128 300 900 (by decide) (by
    refine ⟨⟨by decide, by decide, .inl (by decide)⟩, fun _ => ⟨by decide, fun _ => by decide⟩⟩))
  exact ⟨_, h3, by decide, by decide, by decide⟩

/-! ### The scheduling functions are made of these steps -/

section
variable [FloatFmt]

omit [FloatFmt] in
theorem EvPath.single {ok : EvSt → Time → Time → Time → Prop} {s t : EvSt} (e : EvStep ok s t) :
    EvPath ok s t := .tail (.refl s) e

omit [FloatFmt] in
theorem scheduleSafely_path {next e : Time} (ev : OEvent) (ns np : Time)
    (he : (e - next).toNat ≤ windowTicks) :
    EvPath anyTimes { next := next, ev := ev } { next := next, ev := scheduleSafely e ev ns np } :=
  .tail (.single (.repin { next := next, ev := ev } (ev.pin.setWidth 8) (ev.pin.setWidth 8)
    (!ev.inverted) ev.inverted))
    (.arm { next := next, ev := setPins ev } e ns np he trivial)

omit [FloatFmt] in
theorem EvPath.trans {ok : EvSt → Time → Time → Time → Prop} {s t u : EvSt} (h : EvPath ok s t)
    (k : EvPath ok t u) : EvPath ok s u := by
  induction k with
  | refl => exact h
  | tail _ e ih => exact .tail ih e

theorem resetIfFired_cases {ev : OEvent} {d : Decoder} {stop : Time} {r : Option OEvent}
    (h : resetIfFired ev d stop = .ok r) :
    (r = some ev ∧ eventHasFired ev = false) ∨
    (r = none ∧ eventHasFired ev = true ∧ tooSoon ev d stop = .ok true) ∨
    (∃ ev', r = some ev' ∧ eventHasFired ev = true ∧ tooSoon ev d stop = .ok false ∧
      resetFiredEvent ev = .ok ev') := by
  unfold resetIfFired at h
  split_ifs at h with h1
  · rw [bind_eq_ok] at h
    obtain ⟨b, h2, h3⟩ := h
    cases b
    · simp only [Bool.false_eq_true, if_false] at h3
      rw [bind_eq_ok] at h3
      obtain ⟨ev', h4, h5⟩ := h3
      cases h5
      exact .inr (.inr ⟨ev', rfl, h1, h2, h4⟩)
    · simp only [if_true] at h3
      cases h3
      exact .inr (.inl ⟨rfl, h1, h2⟩)
  · cases h
    exact .inl ⟨rfl, by simpa using h1⟩

theorem ignitionArm_cases {env : SchedEnv} {ev ev' : OEvent} {ns np : Time}
    (h : ignitionArm env ev ns np = .ok ev') :
    ev' = ev ∨ (tooFar ev env.d np = .ok false ∧ tooLittle ev env.minFireUs ns = .ok false ∧
      ev' = scheduleSafely env.earliest ev ns np) := by
  unfold ignitionArm at h
  rw [bind_eq_ok] at h
  obtain ⟨b, h1, h2⟩ := h
  cases b
  · simp only [Bool.false_eq_true, if_false] at h2
    rw [bind_eq_ok] at h2
    obtain ⟨c, h3, h4⟩ := h2
    cases c
    · simp only [Bool.false_eq_true, if_false] at h4
      cases h4
      exact .inr ⟨h1, h3, rfl⟩
    · simp only [if_true] at h4; cases h4; exact .inl rfl
  · simp only [if_true] at h2; cases h2; exact .inl rfl

theorem fuelArm_cases {env : SchedEnv} {ev : OEvent} {r : OEvent × Option Time} {ns np : Time}
    (h : fuelArm env ev ns np = .ok r) :
    r = (ev, none) ∨ (tooFar ev env.d np = .ok false ∧
      r = (scheduleSafely env.earliest ev ns np,
        fuelCallback env.now (scheduleSafely env.earliest ev ns np))) := by
  unfold fuelArm at h
  rw [bind_eq_ok] at h
  obtain ⟨b, h1, h2⟩ := h
  cases b
  · simp only [Bool.false_eq_true, if_false] at h2
    cases h2; exact .inr ⟨h1, rfl⟩
  · simp only [if_true] at h2; cases h2; exact .inl rfl

/-- What `schedule_ignition_event` can do. -/
theorem scheduleIgnition_cases {env : SchedEnv} {ev ev' : OEvent} (h : scheduleIgnition env ev = .ok ev') :
    ev' = ev ∨ ∃ stop dwell ev1, ignitionStop env ev = .ok stop ∧ timeFromUs env.dwellUs = .ok dwell ∧
      resetIfFired ev env.d stop = .ok (some ev1) ∧ (ev' = ev1 ∨
      (tooFar ev1 env.d stop = .ok false ∧ tooLittle ev1 env.minFireUs (stop - dwell) = .ok false ∧
        ev' = scheduleSafely env.earliest ev1 (stop - dwell) stop)) := by
  unfold scheduleIgnition at h
  split_ifs at h with h0
  · cases h; exact .inl rfl
  · simp only [bind_eq_ok] at h
    obtain ⟨stop, h1, dwell, h2, r, h3, h4⟩ := h
    cases r with
    | none => cases h4; exact .inl rfl
    | some ev1 =>
      right
      exact ⟨stop, dwell, ev1, h1, h2, h3, ignitionArm_cases h4⟩

/-- What `schedule_fuel_event` can do. -/
theorem scheduleFuel_cases {env : SchedEnv} {ev : OEvent} {r : OEvent × Option Time}
    (h : scheduleFuel env ev = .ok r) :
    r = (ev, none) ∨ ∃ stop ev1, fuelStop env ev = .ok stop ∧
      resetIfFired ev env.d stop = .ok (some ev1) ∧ (r = (ev1, none) ∨
      (tooFar ev1 env.d stop = .ok false ∧
        r = (scheduleSafely env.earliest ev1 (stop - 4 * env.fuelingUs) stop,
          fuelCallback env.now (scheduleSafely env.earliest ev1 (stop - 4 * env.fuelingUs) stop)))) := by
  unfold scheduleFuel at h
  split_ifs at h with h0
  · cases h; exact .inl rfl
  · simp only [bind_eq_ok] at h
    obtain ⟨stop, h1, o, h3, h4⟩ := h
    cases o with
    | none => cases h4; exact .inl rfl
    | some ev1 =>
      right
      exact ⟨stop, ev1, h1, h3, fuelArm_cases h4⟩

theorem resetIfFired_path {next : Time} {ev ev1 : OEvent} {d : Decoder} {stop : Time}
    (h : resetIfFired ev d stop = .ok (some ev1)) :
    EvPath anyTimes { next := next, ev := ev } { next := next, ev := ev1 } := by
  rcases resetIfFired_cases h with ⟨h1, _⟩ | ⟨h1, _⟩ | ⟨ev', h1, h2, _, h3⟩
  · cases h1; exact .refl _
  · cases h1
  · cases h1; exact .single (.reset { next := next, ev := ev } _ h2 h3)

/-- A run of `schedule_ignition_event` is a path of the steps above. -/
theorem C11_ignition_is_path {env : SchedEnv} {ev ev' : OEvent} {next : Time}
    (he : (env.earliest - next).toNat ≤ windowTicks) (h : scheduleIgnition env ev = .ok ev') :
    EvPath anyTimes { next := next, ev := ev } { next := next, ev := ev' } := by
  rcases scheduleIgnition_cases h with rfl | ⟨stop, dwell, ev1, _, _, h1, rfl | ⟨_, _, rfl⟩⟩
  · exact .refl _
  · exact resetIfFired_path h1
  · exact (resetIfFired_path h1).trans (scheduleSafely_path _ _ _ he)

/-- A run of `schedule_fuel_event` is a path of the steps above. -/
theorem C11_fuel_is_path {env : SchedEnv} {ev : OEvent} {r : OEvent × Option Time} {next : Time}
    (he : (env.earliest - next).toNat ≤ windowTicks) (h : scheduleFuel env ev = .ok r) :
    EvPath anyTimes { next := next, ev := ev } { next := next, ev := r.1 } := by
  rcases scheduleFuel_cases h with rfl | ⟨stop, ev1, _, h1, rfl | ⟨_, rfl⟩⟩
  · exact .refl _
  · exact resetIfFired_path h1
  · exact (resetIfFired_path h1).trans (scheduleSafely_path _ _ _ he)

end

/-! ### C13 -/

/-- C13.  Rescheduling a fuel event whose start stays where it is: the stop edge is left alone, or the
pulse has exactly the new width, measured from the actual start. -/
theorem C13_width (e ns np : Time) (ev : OEvent) (hf : ev.type = .fuel)
    (hu : ev.start.state ≠ .unscheduled ∨ ev.stop.state ≠ .unscheduled)
    (hk : (scheduleCrit e ev ns np).start.time = ev.start.time) :
    (scheduleCrit e ev ns np).stop = ev.stop ∨
    (scheduleCrit e ev ns np).stop.time - (scheduleCrit e ev ns np).start.time = np - ns := by
  have hu' : ¬ eventIsUnscheduled ev = true := by
    simp only [eventIsUnscheduled, Bool.and_eq_true, decide_eq_true_eq]; tauto
  rw [hk]
  revert hk
  unfold scheduleCrit
  rw [if_neg hu']
  intro hk
  rcases entryEnable_cases e ev.start ns with ⟨h1, h2⟩ | ⟨h1, h2, h3, h4⟩
  · rw [h1]
    have a : adjustStop ev false ns np = np + (ev.start.time - ns) := by simp [adjustStop, hf]
    rw [a]
    rcases entryEnable_cases e ev.stop (np + (ev.start.time - ns)) with ⟨k1, _⟩ | ⟨k1, _⟩
    · rw [k1]; exact .inl rfl
    · rw [k1]; right; show np + (ev.start.time - ns) - ev.start.time = np - ns; bv_omega
  · rw [h1] at hk ⊢
    have a : adjustStop ev true ns np = np := by simp [adjustStop]
    rw [a]
    have hk' : ns = ev.start.time := hk
    rcases entryEnable_cases e ev.stop np with ⟨k1, _⟩ | ⟨k1, _⟩
    · rw [k1]; exact .inl rfl
    · rw [k1]; right; show np - ev.start.time = np - ns; rw [hk']

/-- C13 for the whole call: when `schedule_fuel_event` reschedules a pulse whose start edge is already
committed, the stop edge is left alone or ends the pulse the commanded time after its actual start. -/
theorem C13_commanded [FloatFmt] {env : SchedEnv} {ev : OEvent} {r : OEvent × Option Time}
    (h : scheduleFuel env ev = .ok r) (hf : ev.type = .fuel)
    (hs : ev.start.state = .submitted ∨ ev.start.state = .fired)
    (hp : ev.stop.state = .scheduled) :
    r.1.start.time = ev.start.time ∧ r.1.start.state = ev.start.state ∧
    (r.1.stop.time = ev.stop.time ∨ r.1.stop.time - r.1.start.time = 4 * env.fuelingUs) := by
  have nf : eventHasFired ev = false := by simp [eventHasFired, hp]
  rcases scheduleFuel_cases h with rfl | ⟨stop, ev1, _, h1, h2⟩
  · exact ⟨rfl, rfl, .inl rfl⟩
  · rcases resetIfFired_cases h1 with ⟨h3, _⟩ | ⟨h3, _⟩ | ⟨ev', h3, h4, _⟩
    · cases h3
      rcases h2 with rfl | ⟨_, rfl⟩
      · exact ⟨rfl, rfl, .inl rfl⟩
      · have st : (scheduleSafely env.earliest ev (stop - 4 * env.fuelingUs) stop).start =
            (setPins ev).start := by
          unfold scheduleSafely scheduleCrit
          have hu : ¬ eventIsUnscheduled (setPins ev) = true := by
            simp [eventIsUnscheduled, setPins, hp]
          rw [if_neg hu]
          rcases entryEnable_cases env.earliest (setPins ev).start (stop - 4 * env.fuelingUs) with ⟨k, _⟩ | ⟨k, k1, k2, _⟩
          · rw [k]
          · exfalso
            rcases hs with hs | hs
            · exact k1 hs
            · exact k2 hs
        refine ⟨by rw [st]; rfl, by rw [st]; rfl, ?_⟩
        have := C13_width env.earliest (stop - 4 * env.fuelingUs) stop (setPins ev) hf
          (.inr (by show ev.stop.state ≠ _; simp [hp]))
          (by have := congrArg Entry.time st; exact this)
        rcases this with k | k
        · left; show (scheduleCrit _ _ _ _).stop.time = _; rw [k]; rfl
        · right
          show (scheduleCrit _ _ _ _).stop.time - (scheduleCrit _ _ _ _).start.time = _
          rw [k]; bv_omega
    · cases h3
    · rw [nf] at h4; cases h4

/-! Non-vacuity: the start (tick 100) was submitted; a new 600-tick pulse moves the stop to 700. -/
example :
    let ev : OEvent := { crankEvent .fuel with
      start := { time := 100, pin := 0, val := true, state := .submitted },
      stop := { time := 600, pin := 0, val := false, state := .scheduled } }
    (scheduleCrit 128 ev 50 650).start.time = ev.start.time ∧
    (scheduleCrit 128 ev 50 650).stop.time = 700 := by decide

/-! ### C14 -/

/-- C14, first half: an event whose start edge can no longer be withdrawn is left exactly as it was. -/
theorem C14_committed_untouched (ev : OEvent) (h : ev.start.state ≠ .scheduled) : descheduleCrit ev = ev := by
  simp [descheduleCrit, entryDisable, h]

/-- C14, second half, in full: in every history of pulses, descheduling an event whose start is
changeable removes both edges. -/
def C14_full : Prop := ∀ s : EvSt, EvHist pulseTimes s → s.ev.start.state = .scheduled →
  (descheduleCrit s.ev).start.state = .unscheduled ∧ (descheduleCrit s.ev).stop.state = .unscheduled

/-- C14, second half, for the histories of `C12_partial`; the assertions of the code hold too. -/
theorem C14_partial {s : EvSt} (h : EvHist orderedTimes s) (hs : s.ev.start.state = .scheduled) :
    (descheduleCrit s.ev).start.state = .unscheduled ∧
    (descheduleCrit s.ev).stop.state = .unscheduled ∧
    descheduleEvent s.ev = .ok (descheduleCrit s.ev) := by
  have hp := (pulse_hist h).startFirst hs
  simp [descheduleCrit, descheduleEvent, entryDisable, entryDisableA, hs, hp]

/-- No assertion fails when an event that is not unscheduled is descheduled, in those histories. -/
theorem C14_no_assert_partial {s : EvSt} (h : EvHist orderedTimes s) (hs : s.ev.start.state ≠ .unscheduled) :
    descheduleEvent s.ev = .ok (descheduleCrit s.ev) := by
  by_cases h1 : s.ev.start.state = .scheduled
  · exact (C14_partial h h1).2.2
  · simp [descheduleCrit, descheduleEvent, entryDisable, entryDisableA, hs, h1]

/-- C14 in full is false: after the reschedule of C12's example the stop is handed over first, and a
cancel then removes the start only. -/
theorem C14_full_false : ¬ C14_full := by
  intro h
  let s0 : EvSt := { next := 0, ev := crankEvent .ignition }
  have h0 : EvHist pulseTimes s0 := .init _ rfl rfl
  have h1 := EvHist.step h0 (.arm s0 0 54000 66000 (by decide) (by
    refine ⟨by decide, by decide, .inl (by decide)⟩))
  have h2 := EvHist.step h1 (.arm _ 0 (-4000) 100 (by decide) (by
    refine ⟨by decide, by decide, .inr (by decide)⟩))
  have h3 := EvHist.step h2 (.swap _ _ _ (.later _ (by decide) (by decide)) (.submit _ (by decide) (by decide)))
  have := (h _ h3 (by decide)).2
  revert this
  decide

/-! ### C15 -/

section
variable [FloatFmt]

/-- The event is armed by the change from `ev` to `ev'`: its start edge becomes pending. -/
def Armed (ev ev' : OEvent) : Prop := ev.start.state ≠ .scheduled ∧ ev'.start.state = .scheduled

omit [FloatFmt] in
theorem scheduleCrit_stop_time (e ns np : Time) (ev : OEvent) (hu : ev.start.state = .unscheduled)
    (hp : ev.stop.state = .unscheduled) :
    (scheduleCrit e ev ns np).stop.state = .scheduled → (scheduleCrit e ev ns np).stop.time = np := by
  unfold scheduleCrit
  rw [if_pos (by simp [eventIsUnscheduled, hu, hp])]
  split_ifs
  · rcases entryEnable_cases e ev.stop np with ⟨k, _⟩ | ⟨k, _⟩ <;> rw [k]
    · simp [hp]
    · simp
  · simp [hp]

/-- C15, 90 degrees (ignition): a call that finds the event fired either leaves both edges fired, or
computed an end at least 90 degrees after the previous one; the armed end is that one. -/
theorem C15_ignition_90 {env : SchedEnv} {ev ev' : OEvent} (h : scheduleIgnition env ev = .ok ev')
    (hf : eventHasFired ev = true) (ha : ev'.stop.state = .scheduled) :
    ∃ lim, timeFromRpmDiff env.d.rpm (Fl.fin 90) = .ok lim ∧
      lim.toNat ≤ (ev'.stop.time - ev.stop.time).toNat := by
  have hf' := hf
  simp only [eventHasFired, Bool.and_eq_true, decide_eq_true_eq] at hf'
  rcases scheduleIgnition_cases h with rfl | ⟨stop, dwell, ev1, _, _, h1, h2⟩
  · simp [hf'] at ha
  · rcases resetIfFired_cases h1 with ⟨h3, h4⟩ | ⟨h3, _⟩ | ⟨ev2, h3, _, h5, h6⟩
    · rw [hf] at h4; cases h4
    · cases h3
    · cases h3
      obtain ⟨_, _, rfl⟩ := reset_ok h6
      have st : ev'.stop.time = stop := by
        rcases h2 with rfl | ⟨_, _, rfl⟩
        · simp at ha
        · exact scheduleCrit_stop_time _ _ _ _ rfl rfl ha
      unfold tooSoon at h5
      rw [bind_eq_ok] at h5
      obtain ⟨lim, h7, h8⟩ := h5
      refine ⟨lim, h7, ?_⟩
      simp only [except_pure, Except.ok.injEq, timeDiff] at h8
      replace h8 := Nat.le_of_not_lt (of_decide_eq_false h8)
      rw [st]; exact h8

/-- C15, 90 degrees (fuel). -/
theorem C15_fuel_90 {env : SchedEnv} {ev : OEvent} {r : OEvent × Option Time}
    (h : scheduleFuel env ev = .ok r) (hf : eventHasFired ev = true) (ha : r.1.stop.state = .scheduled) :
    ∃ lim, timeFromRpmDiff env.d.rpm (Fl.fin 90) = .ok lim ∧
      lim.toNat ≤ (r.1.stop.time - ev.stop.time).toNat := by
  have hf' := hf
  simp only [eventHasFired, Bool.and_eq_true, decide_eq_true_eq] at hf'
  rcases scheduleFuel_cases h with rfl | ⟨stop, ev1, _, h1, h2⟩
  · simp [hf'] at ha
  · rcases resetIfFired_cases h1 with ⟨h3, h4⟩ | ⟨h3, _⟩ | ⟨ev2, h3, _, h5, h6⟩
    · rw [hf] at h4; cases h4
    · cases h3
    · cases h3
      obtain ⟨_, _, rfl⟩ := reset_ok h6
      have st : r.1.stop.time = stop := by
        rcases h2 with rfl | ⟨_, rfl⟩
        · simp at ha
        · exact scheduleCrit_stop_time _ _ _ _ rfl rfl ha
      unfold tooSoon at h5
      rw [bind_eq_ok] at h5
      obtain ⟨lim, h7, h8⟩ := h5
      refine ⟨lim, h7, ?_⟩
      simp only [except_pure, Except.ok.injEq, timeDiff] at h8
      replace h8 := Nat.le_of_not_lt (of_decide_eq_false h8)
      rw [st]; exact h8

/-- C15, minimum fire time: when `schedule_ignition_event` arms an event, its start is at least the
configured minimum time after the previous end. -/
theorem C15_min_fire {env : SchedEnv} {ev ev' : OEvent} (h : scheduleIgnition env ev = .ok ev')
    (ha : Armed ev ev') :
    ∃ lim, timeFromUs env.minFireUs = .ok lim ∧
      lim.toNat ≤ (ev'.start.time - ev.stop.time).toNat := by
  obtain ⟨ha0, ha1⟩ := ha
  rcases scheduleIgnition_cases h with rfl | ⟨stop, dwell, ev1, _, _, h1, h2⟩
  · exact absurd ha1 ha0
  · have same : ev1.stop.time = ev.stop.time ∧ ev1.start.state ≠ .scheduled := by
      rcases resetIfFired_cases h1 with ⟨h3, _⟩ | ⟨h3, _⟩ | ⟨ev2, h3, _, h5, h6⟩
      · cases h3; exact ⟨rfl, ha0⟩
      · cases h3
      · cases h3; obtain ⟨_, _, rfl⟩ := reset_ok h6; exact ⟨rfl, by simp⟩
    rcases h2 with rfl | ⟨_, h4, rfl⟩
    · exact absurd ha1 same.2
    · have st : (scheduleSafely env.earliest ev1 (stop - dwell) stop).start.time = stop - dwell := by
        revert ha1
        unfold scheduleSafely scheduleCrit
        have hs : (setPins ev1).start.state ≠ .scheduled := same.2
        split_ifs with k1 k2
        · rcases entryEnable_cases env.earliest (setPins ev1).start (stop - dwell) with ⟨k, _⟩ | ⟨k, _⟩ <;>
            rw [k]
          · intro hh; exact absurd hh hs
          · simp
        · intro hh; exact absurd hh hs
        · rcases entryEnable_cases env.earliest (setPins ev1).start (stop - dwell) with ⟨k, _⟩ | ⟨k, _⟩ <;>
            rw [k]
          · intro hh; exact absurd hh hs
          · simp
      unfold tooLittle at h4
      rw [bind_eq_ok] at h4
      obtain ⟨lim, h7, h8⟩ := h4
      refine ⟨lim, h7, ?_⟩
      simp only [except_pure, Except.ok.injEq, timeDiff] at h8
      replace h8 := Nat.le_of_not_lt (of_decide_eq_false h8)
      rw [st, ← same.1]; exact h8

omit [FloatFmt] in
theorem scheduleCrit_stop_cases (e ns np : Time) (ev : OEvent) :
    (scheduleCrit e ev ns np).stop.time = ev.stop.time ∨ (scheduleCrit e ev ns np).stop.time = np ∨
    (ev.type = .fuel ∧ (scheduleCrit e ev ns np).stop.time = np + (ev.start.time - ns)) := by
  unfold scheduleCrit adjustStop
  split_ifs with h1 h2 h3
  · rcases entryEnable_cases e ev.stop np with ⟨k, _⟩ | ⟨k, _⟩ <;> rw [k] <;> simp
  · simp
  · simp only [Bool.and_eq_true, decide_eq_true_eq] at h3
    rcases entryEnable_cases e ev.stop (np + (ev.start.time - ns)) with ⟨k, _⟩ | ⟨k, _⟩ <;> rw [k] <;> simp [h3]
  · rcases entryEnable_cases e ev.stop np with ⟨k, _⟩ | ⟨k, _⟩ <;> rw [k] <;> simp

/-- C15, 180 degrees (ignition): one call never pushes an armed end out by more than 180 degrees. -/
theorem C15_ignition_180 {env : SchedEnv} {ev ev' : OEvent} (h : scheduleIgnition env ev = .ok ev')
    (hi : ev.type ≠ .fuel) (hs : ev.stop.state = .scheduled) :
    ev'.stop.time = ev.stop.time ∨ timeBefore ev.stop.time ev'.stop.time = false ∨
    ∃ lim, timeFromRpmDiff env.d.rpm (Fl.fin 180) = .ok lim ∧
      (ev'.stop.time - ev.stop.time).toNat ≤ lim.toNat := by
  rcases scheduleIgnition_cases h with rfl | ⟨stop, dwell, ev1, _, _, h1, h2⟩
  · exact .inl rfl
  · rcases resetIfFired_cases h1 with ⟨h3, _⟩ | ⟨h3, _⟩ | ⟨ev2, h3, h4, _⟩
    · cases h3
      rcases h2 with rfl | ⟨h5, _, rfl⟩
      · exact .inl rfl
      · rcases scheduleCrit_stop_cases env.earliest (stop - dwell) stop (setPins ev) with k | k | ⟨k, _⟩
        · exact .inl k
        · right
          by_cases hb : timeBefore ev.stop.time stop = true
          · right
            unfold tooFar at h5
            rw [if_pos ⟨hs, hb⟩, bind_eq_ok] at h5
            obtain ⟨lim, h7, h8⟩ := h5
            refine ⟨lim, h7, ?_⟩
            simp only [except_pure, Except.ok.injEq, timeDiff] at h8
            replace h8 := Nat.le_of_not_lt (of_decide_eq_false h8)
            show ((scheduleCrit _ _ _ _).stop.time - _).toNat ≤ _
            rw [k]; exact h8
          · left
            show timeBefore _ (scheduleCrit _ _ _ _).stop.time = _
            rw [k]; simpa using hb
        · exact absurd k hi
    · cases h3
    · simp [eventHasFired, hs] at h4

/-- C15, 180 degrees (fuel), in full: the same claim for fuel events. -/
def C15_fuel_180_full : Prop := ∀ (env : SchedEnv) (ev : OEvent) (r : OEvent × Option Time),
  scheduleFuel env ev = .ok r → ev.type = .fuel → ev.stop.state = .scheduled →
    r.1.stop.time = ev.stop.time ∨ timeBefore ev.stop.time r.1.stop.time = false ∨
    ∃ lim, timeFromRpmDiff env.d.rpm (Fl.fin 180) = .ok lim ∧
      (r.1.stop.time - ev.stop.time).toNat ≤ lim.toNat

/-- C15, 180 degrees (fuel): holds when the pulse is moved as a whole, or is not made longer. -/
theorem C15_fuel_180_partial {env : SchedEnv} {ev : OEvent} {r : OEvent × Option Time}
    (h : scheduleFuel env ev = .ok r) (hs : ev.stop.state = .scheduled) :
    r.1.stop.time = ev.stop.time ∨ timeBefore ev.stop.time r.1.stop.time = false ∨
    (∃ lim, timeFromRpmDiff env.d.rpm (Fl.fin 180) = .ok lim ∧
      (r.1.stop.time - ev.stop.time).toNat ≤ lim.toNat) ∨
    r.1.stop.time = ev.start.time + 4 * env.fuelingUs := by
  rcases scheduleFuel_cases h with rfl | ⟨stop, ev1, _, h1, h2⟩
  · exact .inl rfl
  · rcases resetIfFired_cases h1 with ⟨h3, _⟩ | ⟨h3, _⟩ | ⟨ev2, h3, h4, _⟩
    · cases h3
      rcases h2 with rfl | ⟨h5, rfl⟩
      · exact .inl rfl
      · rcases scheduleCrit_stop_cases env.earliest (stop - 4 * env.fuelingUs) stop (setPins ev) with
          k | k | ⟨_, k⟩
        · exact .inl k
        · right
          by_cases hb : timeBefore ev.stop.time stop = true
          · right; left
            unfold tooFar at h5
            rw [if_pos ⟨hs, hb⟩, bind_eq_ok] at h5
            obtain ⟨lim, h7, h8⟩ := h5
            refine ⟨lim, h7, ?_⟩
            simp only [except_pure, Except.ok.injEq, timeDiff] at h8
            replace h8 := Nat.le_of_not_lt (of_decide_eq_false h8)
            show ((scheduleCrit _ _ _ _).stop.time - _).toNat ≤ _
            rw [k]; exact h8
          · left
            show timeBefore _ (scheduleCrit _ _ _ _).stop.time = _
            rw [k]; simpa using hb
        · right; right; right
          show (scheduleCrit _ _ _ _).stop.time = _
          rw [k]
          show stop + (ev.start.time - (stop - 4 * env.fuelingUs)) = _
          bv_omega
    · cases h3
    · simp [eventHasFired, hs] at h4

/-- Calls of `schedule_ignition_event` that leave the event without an armed end. -/
inductive IdleCalls : OEvent → OEvent → Prop
  | refl (ev : OEvent) : IdleCalls ev ev
  | call {a b c : OEvent} (h : IdleCalls a b) (env : SchedEnv) (e : scheduleIgnition env b = .ok c)
      (hn : c.stop.state ≠ .scheduled) : IdleCalls a c

/-- C15, 90 degrees, over sequences of calls: once an event has fired, the next time it is armed its
end is at least 90 degrees after the end that fired. -/
def C15_full : Prop := ∀ (ev ev1 ev2 : OEvent) (env : SchedEnv), eventHasFired ev = true →
  IdleCalls ev ev1 → scheduleIgnition env ev1 = .ok ev2 → ev2.stop.state = .scheduled →
    ∃ lim, timeFromRpmDiff env.d.rpm (Fl.fin 90) = .ok lim ∧
      lim.toNat ≤ (ev2.stop.time - ev.stop.time).toNat

end

/-! Counterexample to `C15_full`.  The coil fired at tick 120000.  A cam pulse then re-evaluates the event with
one degree more advance: the computed end is just before the one that fired, the unsigned difference is huge, so the
event is reset, but it is too late to arm it.  The engine slows down, and at the next tooth nothing remembers the
firing: the coil is armed again 46000 ticks after it fired, where 90 degrees is 60000 ticks. -/

def firedEvent : OEvent :=
  { crankEvent .ignition with start := { time := 108000, pin := 0, val := true, state := .fired },
                              stop := { time := 120000, pin := 0, val := false, state := .fired } }

def resetEvent : OEvent :=
  { crankEvent .ignition with start := { time := 108000, pin := 0, val := true, state := .unscheduled },
                              stop := { time := 120000, pin := 0, val := false, state := .unscheduled } }

def refiredEvent : OEvent :=
  { crankEvent .ignition with start := { time := 154004, pin := 0, val := true, state := .scheduled },
                              stop := { time := 166004, pin := 0, val := false, state := .scheduled } }

def camEnv : SchedEnv := crankEnv (crankDecoder 1000 1000 100000 60) 121088 1 3000

def lateEnv : SchedEnv := crankEnv (crankDecoder 1000 303 122000 70) 122112 0 3000

theorem C15_full_false : ¬ @C15_full binary32 := by
  let _ := binary32
  intro h
  have s1 : @ignitionStop binary32 camEnv firedEvent = .ok 119333 := by
    rw [ignitionStop_eq (by decide +kernel) (by decide +kernel)]; decide +kernel
  have s2 : @ignitionStop binary32 lateEnv resetEvent = .ok 166004 := by
    rw [ignitionStop_eq (by decide +kernel) (by decide +kernel)]; decide +kernel
  have c1 : @scheduleIgnition binary32 camEnv firedEvent = .ok resetEvent := by
    rw [scheduleIgnition_eq (stop := 119333) (dwell := 12000) (r := some resetEvent)
      (by decide) rfl s1 (by decide +kernel) (by decide +kernel)]
    decide +kernel
  have c2 : @scheduleIgnition binary32 lateEnv resetEvent = .ok refiredEvent := by
    rw [scheduleIgnition_eq (stop := 166004) (dwell := 12000) (r := some resetEvent)
      (by decide) rfl s2 (by decide +kernel) (by decide +kernel)]
    decide +kernel
  obtain ⟨lim, h1, h2⟩ := h firedEvent resetEvent refiredEvent lateEnv (by decide)
    (.call (.refl _) camEnv c1 (by decide)) c2 (by decide)
  have : @timeFromRpmDiff binary32 lateEnv.d.rpm (Fl.fin 90) = .ok 60000 := by decide +kernel
  rw [this] at h1
  cases h1
  revert h2
  decide

/-- A fuel event at 6000 rpm whose start is committed and whose commanded width grows from 2 ms to 12 ms. -/
def longEnv : SchedEnv := crankEnv (crankDecoder 6000 6000 100000 60) 100224 0 12000

def longEvent : OEvent :=
  { crankEvent .fuel with start := { time := 100100, pin := 0, val := true, state := .submitted },
                          stop := { time := 108100, pin := 0, val := false, state := .scheduled } }

theorem C15_fuel_180_full_false : ¬ @C15_fuel_180_full binary32 := by
  let _ := binary32
  intro h
  have s1 : @fuelStop binary32 longEnv longEvent = .ok 103333 := by
    rw [fuelStop_eq (by decide +kernel) (by decide +kernel)]; decide +kernel
  obtain ⟨r, c1, hst⟩ : ∃ r, @scheduleFuel binary32 longEnv longEvent = .ok r ∧ r.1.stop.time = 148100 := by
    refine ⟨({ longEvent with stop := { longEvent.stop with time := 148100 } }, some 148100), ?_, rfl⟩
    rw [scheduleFuel_eq (stop := 103333) (r := some longEvent) (by decide) rfl s1 (by decide +kernel)]
    decide +kernel
  rcases h longEnv longEvent r c1 rfl rfl with k | k | ⟨lim, k1, k2⟩
  · rw [hst] at k; revert k; decide
  · rw [hst] at k; revert k; decide
  · have : @timeFromRpmDiff binary32 longEnv.d.rpm (Fl.fin 180) = .ok 20000 := by decide +kernel
    rw [this] at k1; cases k1
    rw [hst] at k2; revert k2; decide

/-! Non-vacuity of C15: `C12_ignition_witness` gives calls that arm and move; a fired event re-armed 720 degrees
later: -/
example : ∃ ev', @scheduleIgnition binary32 (crankEnv (crankDecoder 1000 1000 500000 60) 500224 0 3000) firedEvent
      = .ok ev' ∧ ev'.stop.state = .scheduled ∧ Armed firedEvent ev' := by
  let _ := binary32
  have s1 : @ignitionStop binary32 (crankEnv (crankDecoder 1000 1000 500000 60) 500224 0 3000) firedEvent
      = .ok 520000 := by
    rw [ignitionStop_eq (by decide +kernel) (by decide +kernel)]; decide +kernel
  refine ⟨{ crankEvent .ignition with start := { time := 508000, pin := 0, val := true, state := .scheduled },
                                      stop := { time := 520000, pin := 0, val := false, state := .scheduled } },
    ?_, rfl, ⟨by decide, rfl⟩⟩
  rw [scheduleIgnition_eq (stop := 520000) (dwell := 12000) (r := some resetEvent)
      (by decide) rfl s1 (by decide +kernel) (by decide +kernel)]
  decide +kernel

/-! ### C16 -/

/-- An edge that becomes armed, or whose time changes. -/
def Moved (a b : Entry) : Prop := (b.state = .scheduled ∧ a.state ≠ .scheduled) ∨ b.time ≠ a.time

theorem moved_enable {e : Time} {en : Entry} {t : Time} (h : Moved en (entryEnable e en t).1) :
    timeBefore (entryEnable e en t).1.time e = false := by
  rcases entryEnable_cases e en t with ⟨k, _⟩ | ⟨k, _, _, k2⟩
  · rw [k] at h; simp [Moved] at h
  · rw [k]; exact k2

theorem not_moved_self (en : Entry) : ¬ Moved en en := by
  rintro (⟨h1, h2⟩ | h)
  · exact h2 h1
  · exact h rfl

/-- C16 for the arming operation: whatever is asked for, an edge that becomes armed or changes its time is
not before the earliest schedulable time. -/
theorem C16_arm (e ns np : Time) (ev : OEvent) :
    (Moved ev.start (scheduleSafely e ev ns np).start →
      timeBefore (scheduleSafely e ev ns np).start.time e = false) ∧
    (Moved ev.stop (scheduleSafely e ev ns np).stop →
      timeBefore (scheduleSafely e ev ns np).stop.time e = false) := by
  have key : ∀ v : OEvent, (Moved v.start (scheduleCrit e v ns np).start →
      timeBefore (scheduleCrit e v ns np).start.time e = false) ∧
      (Moved v.stop (scheduleCrit e v ns np).stop →
      timeBefore (scheduleCrit e v ns np).stop.time e = false) := by
    intro v
    unfold scheduleCrit
    split_ifs
    · exact ⟨moved_enable, moved_enable⟩
    · exact ⟨fun h => absurd h (not_moved_self _), fun h => absurd h (not_moved_self _)⟩
    · exact ⟨moved_enable, moved_enable⟩
  have := key (setPins ev)
  exact this

/-- C16 in every history: the only step that arms an edge or changes its time is arming, and then the time is
not before the earliest schedulable time. -/
theorem C16_step {s t : EvSt} (e : EvStep anyTimes s t) :
    (Moved s.ev.start t.ev.start → ∃ earliest, (earliest - s.next).toNat ≤ windowTicks ∧
      timeBefore t.ev.start.time earliest = false) ∧
    (Moved s.ev.stop t.ev.stop → ∃ earliest, (earliest - s.next).toNat ≤ windowTicks ∧
      timeBefore t.ev.stop.time earliest = false) := by
  have self : ∀ (P : Prop) (a b : Entry), b.time = a.time → (b.state = .scheduled → a.state = .scheduled) →
      Moved a b → P := by
    intro P a b h1 h2 h
    rcases h with ⟨h3, h4⟩ | h3
    · exact absurd (h2 h3) h4
    · exact absurd h1 h3
  cases e with
  | repin p q v w => exact ⟨self _ _ _ rfl id, self _ _ _ rfl id⟩
  | arm e ns np he h =>
    simp only [scheduleCrit]
    split_ifs
    · exact ⟨fun h => ⟨e, he, moved_enable h⟩, fun h => ⟨e, he, moved_enable h⟩⟩
    · exact ⟨self _ _ _ rfl id, self _ _ _ rfl id⟩
    · exact ⟨fun h => ⟨e, he, moved_enable h⟩, fun h => ⟨e, he, moved_enable h⟩⟩
  | cancel =>
    simp only [descheduleCrit, entryDisable]
    by_cases h1 : s.ev.start.state = .scheduled <;> by_cases h2 : s.ev.stop.state = .scheduled <;>
      simp only [h1, h2, ne_eq, not_true_eq_false, not_false_eq_true, if_true, if_false,
        Bool.false_eq_true]
    · exact ⟨self _ _ _ rfl (by simp), self _ _ _ rfl (by simp)⟩
    · exact ⟨self _ _ _ rfl (by simp), self _ _ _ rfl (by simp)⟩
    · exact ⟨self _ _ _ rfl id, self _ _ _ rfl id⟩
    · exact ⟨self _ _ _ rfl id, self _ _ _ rfl id⟩
  | reset ev h e =>
    obtain ⟨h1, h2, rfl⟩ := reset_ok e
    exact ⟨self _ _ _ rfl (by simp), self _ _ _ rfl (by simp)⟩
  | swap a b ha hb =>
    exact ⟨self _ _ _ (edgeSwap_time ha) (fun h => ((edgeSwap_sched ha).mp h).1),
      self _ _ _ (edgeSwap_time hb) (fun h => ((edgeSwap_sched hb).mp h).1)⟩
  | config ty ang pin inv => exact ⟨self _ _ _ rfl id, self _ _ _ rfl id⟩

example : Moved crankEvent1.stop (scheduleSafely 122368 crankEvent1 118555 130555).stop := by
  right; decide

/-! ### C17 -/

/-- Can the start edge still be cancelled? -/
def Cancellable (ev : OEvent) : Prop := ev.start.state = .scheduled

/-- A fuel or ignition output. -/
def Enabled (ev : OEvent) : Prop := ev.type = .fuel ∨ ev.type = .ignition

theorem descheduleEvent_cases {ev ev' : OEvent} (h : descheduleEvent ev = .ok ev') : ev' = descheduleCrit ev := by
  unfold descheduleEvent entryDisableA at h
  unfold descheduleCrit
  by_cases h0 : ev.start.state = .unscheduled
  · simp [h0] at h
  · by_cases h1 : ev.start.state = .scheduled
    · by_cases h2 : ev.stop.state = .unscheduled
      · simp [entryDisable, h1, h2] at h
      · simp [entryDisable, h1, h2] at h ⊢
        exact h.symm
    · simp [entryDisable, h0, h1] at h ⊢
      exact h.symm

theorem descheduleCrit_start (ev : OEvent) : (descheduleCrit ev).start.state ≠ .scheduled := by
  unfold descheduleCrit entryDisable
  by_cases h1 : ev.start.state = .scheduled <;> simp [h1]

/-- C17 for `invalidate_scheduled_events` (which is what losing sync and expiry run): no enabled output keeps a
start edge that could still be cancelled, and every event whose start is already committed is untouched. -/
theorem C17_invalidate {n : Nat} {evs evs' : Fin n → OEvent} (h : invalidateEvents evs = .ok evs') (i : Fin n) :
    (Enabled (evs' i) → ¬ Cancellable (evs' i)) ∧
    (¬ Cancellable (evs i) → evs' i = evs i) ∧ (evs' i).type = (evs i).type := by
  have := invalidate_inv h i
  unfold invalidateOne at this
  split_ifs at this with h1 h2
  · rw [← Except.ok.inj this]
    exact ⟨fun _ hc => by simp [Cancellable, h1] at hc, fun _ => rfl, rfl⟩
  · have e := descheduleEvent_cases this
    rw [e]
    refine ⟨fun _ => descheduleCrit_start _, fun hc => C14_committed_untouched _ hc, ?_⟩
    unfold descheduleCrit; split_ifs <;> rfl
  · rw [← Except.ok.inj this]
    refine ⟨fun he => ?_, fun _ => rfl, rfl⟩
    rcases he with he | he <;> simp [he] at h2

/-- It does not fail when, in every event, the stop is pending, submitted or fired whenever the start is
pending (C12). -/
theorem C17_invalidate_total {n : Nat} (evs : Fin n → OEvent)
    (h : ∀ i, (evs i).start.state = .scheduled → (evs i).stop.state ≠ .unscheduled) :
    ∃ evs', invalidateEvents evs = .ok evs' := by
  have : ∀ i, ∃ v, invalidateOne (evs i) = .ok v := by
    intro i
    unfold invalidateOne
    split_ifs with h1 h2
    · exact ⟨_, rfl⟩
    · unfold descheduleEvent entryDisableA
      by_cases hs : (evs i).start.state = .scheduled
      · simp [entryDisable, hs, h i hs]
      · simp [entryDisable, hs, h1]
    · exact ⟨_, rfl⟩
  choose f hf using this
  exact ⟨f, invalidate_ok hf⟩

/-- C17 for `schedule_event`: evaluating any fuel or ignition output while the decoder is not valid, or while
its cut is active, cancels every enabled output that can be cancelled and leaves the committed ones alone. -/
theorem C17_schedule_event [FloatFmt] {n : Nat} {env : SchedEnv} {evs : Fin n → OEvent} {i : Fin n}
    {r : (Fin n → OEvent) × Option Time} (h : scheduleEvent env evs i = .ok r) (he : Enabled (evs i))
    (hc : env.d.valid = false ∨ ((evs i).type = .ignition ∧ env.ignitionCut = true) ∨
      ((evs i).type = .fuel ∧ env.fuelCut = true)) :
    r.2 = none ∧ ∀ j, (Enabled (r.1 j) → ¬ Cancellable (r.1 j)) ∧ (¬ Cancellable (evs j) → r.1 j = evs j) := by
  have key : (do let evs ← invalidateEvents evs; pure (evs, none)) = Except.ok r := by
    unfold scheduleEvent at h
    rcases ht : (evs i).type with _ | _ | _
    · rcases he with he | he <;> rw [ht] at he <;> cases he
    · rw [ht] at h
      simp only at h
      rw [if_pos (by rcases hc with hc | hc | hc <;> simp_all)] at h
      exact h
    · rw [ht] at h
      simp only at h
      rw [if_pos (by rcases hc with hc | hc | hc <;> simp_all)] at h
      exact h
  rw [bind_eq_ok] at key
  obtain ⟨evs', h1, h2⟩ := key
  cases h2
  exact ⟨rfl, fun j => ⟨(C17_invalidate h1 j).1, (C17_invalidate h1 j).2.1⟩⟩

/-! Non-vacuity: an armed pulse is cancelled, a committed one is kept. -/
example : ∃ evs', invalidateEvents (n := 2) (fun i => if i = 0 then crankEvent1 else longEvent) = .ok evs' ∧
    (evs' 0).start.state = .unscheduled ∧ evs' 1 = longEvent := by
  obtain ⟨evs', h⟩ := C17_invalidate_total (n := 2) (fun i => if i = 0 then crankEvent1 else longEvent) (by decide)
  refine ⟨evs', h, ?_, ?_⟩
  · have := invalidate_inv h 0
    have e : invalidateOne crankEvent1 = .ok (descheduleCrit crankEvent1) := by decide
    rw [if_pos rfl, e] at this
    rw [← Except.ok.inj this]
    decide
  · exact (C17_invalidate h 1).2.1 (by simp [Cancellable, longEvent])

/-! ### C18 -/

/-- C18 in full: cancelling (on loss of sync, a cut or an emergency shutdown) leaves no start edge of a disabled
output armed. -/
def C18_full : Prop := ∀ (n : Nat) (evs evs' : Fin n → OEvent) (i : Fin n),
  invalidateEvents evs = .ok evs' → (evs i).type = .disabled → ¬ Cancellable (evs' i)

/-- It is false: an output that is disabled while armed stays armed, whatever is cancelled. -/
theorem C18_full_false : ¬ C18_full := by
  intro h
  let ev : OEvent := { crankEvent1 with type := .disabled }
  have e : invalidateEvents (n := 1) (fun _ => ev) = .ok (fun _ => ev) :=
    invalidate_ok (fun i => by decide)
  exact h 1 _ _ 0 e rfl rfl

/-- C18 for an output disabled while its start is not armed: nothing arms it afterwards. -/
theorem C18_partial [FloatFmt] {n : Nat} {env : SchedEnv} {evs : Fin n → OEvent} {i j : Fin n}
    {r : (Fin n → OEvent) × Option Time} (h : scheduleEvent env evs i = .ok r)
    (hd : (evs j).type = .disabled) (hn : ¬ Cancellable (evs j)) :
    r.1 j = evs j := by
  unfold scheduleEvent at h
  have inv : ∀ evs', invalidateEvents evs = .ok evs' → evs' j = evs j :=
    fun evs' h1 => (C17_invalidate h1 j).2.1 hn
  by_cases hij : i = j
  · subst hij
    rw [hd] at h
    cases h; rfl
  · have hji : j ≠ i := fun h => hij h.symm
    rcases ht : (evs i).type with _ | _ | _ <;> rw [ht] at h <;> simp only at h
    · cases h; rfl
    · split_ifs at h
      · rw [bind_eq_ok] at h; obtain ⟨evs', h1, h2⟩ := h; cases h2; exact inv _ h1
      · rw [bind_eq_ok] at h; obtain ⟨⟨ev, cb⟩, h1, h2⟩ := h; cases h2; simp [setEv, hji]
    · split_ifs at h
      · rw [bind_eq_ok] at h; obtain ⟨evs', h1, h2⟩ := h; cases h2; exact inv _ h1
      · rw [bind_eq_ok] at h; obtain ⟨ev, h1, h2⟩ := h; cases h2; simp [setEv, hji]

end Verif
