/-
The invariant of one injector output: what its two edges are, in real ticks.
-/
import Verif.Props.Spark

namespace Verif

/-- A pulse of the injector `ev`, from tick `s` on, of `fu` microseconds.  `E` is the tick at which the two buffers are over;
`Fu` says which widths have been commanded, `S` what is known of the start, and `P` what is known of a start that has been
handed over to the hardware. -/
structure Inj (Fu : BitVec 32 → Prop) (S P : ℤ → Prop) (E : ℤ) (ev : OEvent) (s : ℤ) (fu : BitVec 32) : Prop where
  t0 : ev.start.time = stamp s
  t1 : ev.stop.time = stamp (s + 4 * fu.toNat)
  width : Fu fu
  good : S s
  lo : E - 256 ≤ s + 4 * fu.toNat
  hi : s < E + 2 ^ 30
  started : ev.start.state ≠ .unscheduled
  live : Live ev.stop.state
  armed : ev.start.state = .scheduled → E ≤ s ∧ ev.stop.state = .scheduled
  handed : ev.start.state = .submitted → E - 256 ≤ s ∧ s < E
  past : ev.start.state = .fired → s < E
  stopArmed : ev.stop.state = .scheduled → E ≤ s + 4 * fu.toNat
  stopHanded : ev.stop.state = .submitted → s + 4 * fu.toNat < E
  played : ev.start.state = .submitted ∨ ev.start.state = .fired → P s

/-- At rest, played to the end, or in a pulse. -/
def FuelOk (Fu : BitVec 32 → Prop) (S P : ℤ → Prop) (E : ℤ) (ev : OEvent) : Prop :=
  eventIsUnscheduled ev = true ∨ eventHasFired ev = true ∨ ∃ s fu, Inj Fu S P E ev s fu

theorem before_stamp {x E : ℤ} (h1 : E - 2 ^ 31 < x) (h2 : x < E + 2 ^ 31) : timeBefore (stamp x) (stamp E) = decide (x < E) := by
  rw [Bool.eq_iff_iff, C01_time_before _ _ (by rw [abs_lt]; constructor <;> omega)]
  simp

theorem enable_ok {x E : ℤ} {en : Entry} (h1 : E ≤ x) (h2 : x < E + 2 ^ 31) (hs : en.state = .unscheduled ∨ en.state = .scheduled) :
    entryEnable (stamp E) en (stamp x) = ({ en with time := stamp x, state := .scheduled }, true) := by
  unfold entryEnable
  rw [if_neg (by rcases hs with h | h <;> rw [h] <;> rintro (h | h) <;> cases h), before_stamp (by omega) h2,
    if_neg (by simp; omega)]

theorem enable_late {x E : ℤ} {en : Entry} (h1 : E - 2 ^ 31 < x) (h2 : x < E) : entryEnable (stamp E) en (stamp x) = (en, false) := by
  unfold entryEnable
  split_ifs with h3 h4
  · rfl
  · rfl
  · rw [before_stamp h1 (by omega)] at h4
    exact absurd (decide_eq_true h2) h4

theorem enable_over {E : Time} {x : Time} {en : Entry} (hs : en.state = .submitted ∨ en.state = .fired) :
    entryEnable E en x = (en, false) := by
  unfold entryEnable
  rw [if_pos hs]

variable {Fu : BitVec 32 → Prop} {S P : ℤ → Prop}

/-- Arming an injector at the ticks `t - 4 * fu` and `t`. -/
theorem fuelOk_crit {E t : ℤ} {ev : OEvent} {fu : BitVec 32} (h : FuelOk Fu S P E ev) (hnf : eventHasFired ev = false)
    (hty : ev.type = .fuel) (small : ∀ f, Fu f → f.toNat < 2 ^ 28) (hfu : Fu fu) (hs : S (t - 4 * fu.toNat))
    (h1 : E - 2 ^ 30 < t) (h2 : t < E + 2 ^ 30) :
    FuelOk Fu S P E (scheduleCrit (stamp E) ev (stamp (t - 4 * fu.toNat)) (stamp t)) := by
  have hf := small fu hfu
  rcases h with h | h | ⟨s, f0, h⟩
  · -- at rest
    have hu := h
    simp only [eventIsUnscheduled, Bool.and_eq_true, decide_eq_true_eq] at hu
    unfold scheduleCrit
    rw [if_pos h]
    by_cases hE : E ≤ t - 4 * fu.toNat
    · rw [enable_ok hE (by omega) (.inl hu.1), enable_ok (by omega) (by omega) (.inl hu.2), if_pos rfl]
      right; right
      exact ⟨t - 4 * fu.toNat, fu, rfl, by simp, hfu, hs, by omega, by omega, (fun h => nomatch h), .inl rfl,
        fun _ => ⟨hE, rfl⟩, (fun h => nomatch h), (fun h => nomatch h), fun _ => by omega, (fun h => nomatch h),
        fun h => by rcases h with h | h <;> cases h⟩
    · rw [enable_late (by omega) (by omega)]
      exact .inl h
  · rw [hnf] at h; cases h
  · have hf0 := small f0 h.width
    have hlo := h.lo
    have hhi := h.hi
    unfold scheduleCrit
    rw [if_neg (by
      intro hu
      simp only [eventIsUnscheduled, Bool.and_eq_true, decide_eq_true_eq] at hu
      exact h.started hu.1)]
    have hadj : adjustStop ev false (stamp (t - 4 * fu.toNat)) (stamp t) = stamp (s + 4 * fu.toNat) := by
      unfold adjustStop
      rw [if_pos (by simp [hty]), h.t0, stamp_sub, stamp_add]
      congr 1
      omega
    have hadj' : adjustStop ev true (stamp (t - 4 * fu.toNat)) (stamp t) = stamp t := by
      unfold adjustStop
      rw [if_neg (by simp)]
    right; right
    -- the start stays: only the end can move
    have stay : entryEnable (stamp E) ev.start (stamp (t - 4 * fu.toNat)) = (ev.start, false) →
        ∃ s' fu', Inj Fu S P E { ev with
          start := (entryEnable (stamp E) ev.start (stamp (t - 4 * fu.toNat))).1,
          stop := (entryEnable (stamp E) ev.stop (adjustStop ev
            (entryEnable (stamp E) ev.start (stamp (t - 4 * fu.toNat))).2 (stamp (t - 4 * fu.toNat)) (stamp t))).1 } s' fu' := by
      intro he
      rw [he]
      simp only [hadj]
      rcases h.live with hl | hl
      · by_cases hE : E ≤ s + 4 * fu.toNat
        · rw [enable_ok hE (by omega) (.inr hl)]
          refine ⟨s, fu, h.t0, rfl, hfu, h.good, by omega, hhi, h.started, .inl rfl, fun ha => ⟨(h.armed ha).1, rfl⟩,
            h.handed, h.past, fun _ => hE, (fun h => nomatch h), h.played⟩
        · rw [enable_late (by omega) (by omega)]
          exact ⟨s, f0, h⟩
      · rw [enable_over (.inl hl)]
        exact ⟨s, f0, h⟩
    rcases hst : ev.start.state with _ | _ | _ | _
    · exact absurd hst h.started
    · obtain ⟨hs1, hs2⟩ := h.armed hst
      by_cases hE : E ≤ t - 4 * fu.toNat
      · rw [enable_ok hE (by omega) (.inr hst)]
        simp only [hadj']
        rw [enable_ok (by omega) (by omega) (.inr hs2)]
        exact ⟨t - 4 * fu.toNat, fu, rfl, by simp, hfu, hs, by omega, by omega, (fun h => nomatch h), .inl rfl,
          fun _ => ⟨hE, rfl⟩, (fun h => nomatch h), (fun h => nomatch h), fun _ => by omega, (fun h => nomatch h),
          fun h => by rcases h with h | h <;> cases h⟩
      · exact stay (enable_late (by omega) (by omega))
    · exact stay (enable_over (.inl hst))
    · exact stay (enable_over (.inr hst))

/-- Cancelling. -/
theorem fuelOk_cancel {E : ℤ} {ev : OEvent} (h : FuelOk Fu S P E ev) : FuelOk Fu S P E (descheduleCrit ev) := by
  unfold descheduleCrit
  split_ifs with h1
  · left
    unfold entryDisable at h1 ⊢
    split_ifs at h1 ⊢ with h2 h3
    · rw [not_not] at h2
      rcases h with h | h | ⟨s, f0, h⟩
      · simp only [eventIsUnscheduled, Bool.and_eq_true, decide_eq_true_eq] at h
        rw [h.1] at h2; cases h2
      · simp only [eventHasFired, Bool.and_eq_true, decide_eq_true_eq] at h
        rw [h.1] at h2; cases h2
      · exact absurd (h.armed h2).2 h3
    · rfl
  · exact h

/-- A buffer swap. -/
theorem fuelOk_swap {E : ℤ} {ev ev' : OEvent} {P' : ℤ → Prop} (h : FuelOk Fu S P E ev) (small : ∀ f, Fu f → f.toNat < 2 ^ 28)
    (h0 : SwapEdge (stamp E) (stamp (E - 256)) ev.start ev'.start) (h1 : SwapEdge (stamp E) (stamp (E - 256)) ev.stop ev'.stop)
    (hP : ∀ s, P s → P' s) (hP' : ∀ s, ev'.start.state = .submitted → E ≤ s → s < E + 128 → ev'.start.time = stamp s → P' s) :
    FuelOk Fu S P' (E + 128) ev' := by
  rcases h with h | h | ⟨s, fu, h⟩
  · left
    simp only [eventIsUnscheduled, Bool.and_eq_true, decide_eq_true_eq] at h ⊢
    exact ⟨h0.unscheduled.mpr h.1, h1.unscheduled.mpr h.2⟩
  · right; left
    simp only [eventHasFired, Bool.and_eq_true, decide_eq_true_eq] at h ⊢
    exact ⟨h0.fired.mpr (.inl h.1), h1.fired.mpr (.inl h.2)⟩
  · have hf := small fu h.width
    have hlo := h.lo
    have hhi := h.hi
    have e0 : ∀ a, ((ev.start.time - stamp a).toNat : ℤ) = (s - a) % 2 ^ 32 := fun a => by
      rw [h.t0, stamp_sub, stamp_toNat_mod]
    have e1 : ∀ a, ((ev.stop.time - stamp a).toNat : ℤ) = (s + 4 * fu.toNat - a) % 2 ^ 32 := fun a => by
      rw [h.t1, stamp_sub, stamp_toNat_mod]
    have a0 := e0 E
    have b0 := e0 (E - 256)
    have a1 := e1 E
    have b1 := e1 (E - 256)
    by_cases hfired : ev'.stop.state = .fired
    · -- the end has been played, and so has the start
      right; left
      simp only [eventHasFired, Bool.and_eq_true, decide_eq_true_eq]
      refine ⟨?_, hfired⟩
      rcases h1.fired.mp hfired with h2 | ⟨h2, h3⟩
      · rcases h.live with h4 | h4 <;> rw [h4] at h2 <;> cases h2
      · have := h.stopHanded h2
        rcases hst : ev.start.state with _ | _ | _ | _
        · exact absurd hst h.started
        · have := (h.armed hst).2
          rw [h2] at this; cases this
        · obtain ⟨h5, h6⟩ := h.handed hst
          exact h0.fired.mpr (.inr ⟨hst, by omega⟩)
        · exact h0.fired.mpr (.inl hst)
    · right; right
      refine ⟨s, fu, h0.time.trans h.t0, h1.time.trans h.t1, h.width, h.good, ?_, by omega, fun hu => h.started (h0.unscheduled.mp hu),
        ?_, fun ha => ?_, fun ha => ?_, fun ha => ?_, fun ha => ?_, fun ha => ?_, fun ha => ?_⟩
      · by_contra hc
        refine hfired (h1.fired.mpr (.inr ?_))
        rcases h.live with h4 | h4
        · have := h.stopArmed h4
          omega
        · exact ⟨h4, by omega⟩
      · rcases hst : ev'.stop.state with _ | _ | _ | _
        · have := h1.unscheduled.mp hst
          rcases h.live with h4 | h4 <;> rw [h4] at this <;> cases this
        · exact .inl rfl
        · exact .inr rfl
        · exact absurd hst hfired
      · obtain ⟨h2, h3⟩ := h0.scheduled.mp ha
        obtain ⟨h4, h5⟩ := h.armed h2
        refine ⟨by omega, h1.scheduled.mpr ⟨h5, by omega⟩⟩
      · rcases h0.submitted.mp ha with ⟨h2, h3⟩ | ⟨h2, h3⟩
        · have := (h.armed h2).1
          omega
        · have := h.handed h2
          omega
      · rcases h0.fired.mp ha with h2 | ⟨h2, -⟩
        · have := h.past h2; omega
        · have := h.handed h2; omega
      · obtain ⟨h2, h3⟩ := h1.scheduled.mp ha
        have := h.stopArmed h2
        omega
      · rcases h1.submitted.mp ha with ⟨h2, h3⟩ | ⟨h2, h3⟩
        · have := h.stopArmed h2
          omega
        · have := h.stopHanded h2
          omega
      · by_cases hsub : ev.start.state = .submitted ∨ ev.start.state = .fired
        · exact hP s (h.played hsub)
        · rcases ha with ha | ha
          · rcases h0.submitted.mp ha with ⟨h2, h3⟩ | ⟨h2, h3⟩
            · have := (h.armed h2).1
              exact hP' s ha this (by omega) (h0.time.trans h.t0)
            · exact absurd (.inl h2) hsub
          · rcases h0.fired.mp ha with h2 | ⟨h2, -⟩
            · exact absurd (.inr h2) hsub
            · exact absurd (.inl h2) hsub

end Verif
