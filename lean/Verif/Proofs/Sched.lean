import Verif.Spec.Output
import Verif.Proofs.Util

namespace Verif

theorem timeBefore_iff (a b : Time) : timeBefore a b = true ↔ 2 ^ 31 ≤ (a - b).toNat := by
  unfold timeBefore
  rw [decide_eq_true_iff, BitVec.toInt_neg_iff]
  omega

theorem timeBefore_false_iff (a b : Time) : timeBefore a b = false ↔ (a - b).toNat < 2 ^ 31 := by
  rw [← Bool.not_eq_true, timeBefore_iff]; omega

/-- What `sched_entry_enable` does, by cases. -/
theorem entryEnable_cases (e : Time) (en : Entry) (t : Time) :
    (entryEnable e en t = (en, false) ∧ (en.state = .submitted ∨ en.state = .fired ∨ timeBefore t e = true)) ∨
    (entryEnable e en t = ({ en with time := t, state := .scheduled }, true) ∧
      en.state ≠ .submitted ∧ en.state ≠ .fired ∧ timeBefore t e = false) := by
  unfold entryEnable
  split_ifs with h1 h2
  · left; exact ⟨rfl, by tauto⟩
  · left; exact ⟨rfl, by tauto⟩
  · right; refine ⟨rfl, by tauto, by tauto, by simpa using h2⟩

/-- Both edges and the order of an event in a good state. -/
structure PulseInv (s : EvSt) : Prop where
  both : s.ev.start.state = .unscheduled ↔ s.ev.stop.state = .unscheduled
  order : s.ev.start.state ≠ .unscheduled → Later s.ev.start.time s.ev.stop.time
  startFirst : s.ev.start.state = .scheduled → s.ev.stop.state = .scheduled
  startNear : s.ev.start.state = .scheduled → (s.ev.start.time - s.next).toNat < 2 ^ 29
  stopNear : s.ev.stop.state = .scheduled → (s.ev.stop.time - s.next).toNat < 2 ^ 31 + 256

theorem edgeSwap_time {next : Time} {a b : Entry} (h : EdgeSwap next a b) : b.time = a.time := by
  cases h <;> rfl

theorem edgeSwap_unsched {next : Time} {a b : Entry} (h : EdgeSwap next a b) :
    b.state = .unscheduled ↔ a.state = .unscheduled := by
  cases h <;> simp_all

theorem edgeSwap_sched {next : Time} {a b : Entry} (h : EdgeSwap next a b) :
    b.state = .scheduled ↔ a.state = .scheduled ∧ windowTicks ≤ (a.time - next).toNat := by
  cases h <;> simp_all

theorem pulse_swap {s : EvSt} (I : PulseInv s) {a b : Entry} (ha : EdgeSwap s.next s.ev.start a)
    (hb : EdgeSwap s.next s.ev.stop b) :
    PulseInv { next := s.next + 128, ev := { s.ev with start := a, stop := b } } := by
  have ta := edgeSwap_time ha
  have tb := edgeSwap_time hb
  have ua := edgeSwap_unsched ha
  have ub := edgeSwap_unsched hb
  have sa := edgeSwap_sched ha
  have sb := edgeSwap_sched hb
  refine ⟨?_, ?_, ?_, ?_, ?_⟩ <;> simp only [ta, tb, ua, ub, sa, sb]
  · exact I.both
  · exact fun h => I.order (fun h' => h (ua.mpr h'))
  · rintro ⟨h1, h2⟩
    refine ⟨I.startFirst h1, ?_⟩
    have h3 := I.order (by simp [h1])
    have h4 := I.startNear h1
    unfold Later at h3
    unfold windowTicks at *
    bv_omega
  · rintro ⟨h1, h2⟩
    have h4 := I.startNear h1
    unfold windowTicks at *
    bv_omega
  · rintro ⟨h1, h2⟩
    have h4 := I.stopNear h1
    unfold windowTicks at *
    bv_omega

theorem pulse_arm {s : EvSt} (I : PulseInv s) {e ns np : Time} (he : (e - s.next).toNat ≤ windowTicks)
    (h : orderedTimes s e ns np) : PulseInv { s with ev := scheduleCrit e s.ev ns np } := by
  obtain ⟨⟨w0, w1, near⟩, ign⟩ := h
  obtain ⟨both, order, sf, sn, pn⟩ := I
  unfold windowTicks at he
  unfold scheduleCrit
  by_cases hu : eventIsUnscheduled s.ev = true
  · rw [if_pos hu]
    simp only [eventIsUnscheduled, Bool.and_eq_true, decide_eq_true_eq] at hu
    rcases entryEnable_cases e s.ev.start ns with ⟨h1, h2⟩ | ⟨h1, h2, h3, h4⟩
    · rw [h1]; exact ⟨both, order, sf, sn, pn⟩
    · rw [h1]
      rw [timeBefore_false_iff] at h4
      rcases entryEnable_cases e s.ev.stop np with ⟨k1, k2⟩ | ⟨k1, k2, k3, k4⟩
      · exfalso
        rcases k2 with k2 | k2 | k2
        · simp [hu.2] at k2
        · simp [hu.2] at k2
        · rw [timeBefore_iff] at k2
          bv_omega
      · rw [timeBefore_false_iff] at k4
        rw [k1]
        refine ⟨by simp, ?_, by simp, ?_, ?_⟩ <;> simp only [forall_const, ne_eq, reduceCtorEq, not_false_eq_true, if_true]
        · unfold Later; bv_omega
        · bv_omega
        · bv_omega
  · rw [if_neg hu]
    simp only [eventIsUnscheduled, Bool.and_eq_true, decide_eq_true_eq] at hu
    have hs : s.ev.start.state ≠ .unscheduled := fun h => hu ⟨h, both.mp h⟩
    have hp : s.ev.stop.state ≠ .unscheduled := fun h => hu ⟨both.mpr h, h⟩
    have ord := order hs
    rcases entryEnable_cases e s.ev.start ns with ⟨h1, h2⟩ | ⟨h1, h2, h3, h4⟩
    · -- the start could not be moved
      rw [h1]
      have adj : ∀ np', adjustStop s.ev false ns np = np' →
          timeBefore np' e = false → s.ev.stop.state = .scheduled → Later s.ev.start.time np' := by
        intro np' hnp hb hst
        rw [timeBefore_false_iff] at hb
        unfold adjustStop at hnp
        by_cases ft : s.ev.type = .fuel
        · simp only [ft, Bool.not_false, decide_true, Bool.and_self, if_true] at hnp
          subst hnp
          unfold Later
          bv_omega
        · simp only [ft, decide_false, Bool.and_false, Bool.false_eq_true, if_false] at hnp
          subst hnp
          obtain ⟨i1, i2⟩ := ign ft
          by_cases hsc : s.ev.start.state = .scheduled
          · apply i1 hsc
            rcases h2 with h2 | h2 | h2
            · simp [hsc] at h2
            · simp [hsc] at h2
            · exact h2
          · have := i2 (by cases hh : s.ev.start.state <;> simp_all)
            unfold Later
            bv_omega
      rcases entryEnable_cases e s.ev.stop (adjustStop s.ev false ns np) with ⟨k1, k2⟩ | ⟨k1, k2, k3, k4⟩
      · rw [k1]; exact ⟨both, order, sf, sn, pn⟩
      · rw [k1]
        have hst : s.ev.stop.state = .scheduled := by cases hh : s.ev.stop.state <;> simp_all
        have := adj _ rfl k4 hst
        refine ⟨by simp [hs], fun _ => this, by simp, sn, ?_⟩
        rw [timeBefore_false_iff] at k4
        simp only [forall_const]
        bv_omega
    · -- the start was moved
      rw [h1]
      rw [timeBefore_false_iff] at h4
      have hsc : s.ev.start.state = .scheduled := by cases hh : s.ev.start.state <;> simp_all
      have hst := sf hsc
      have adj : adjustStop s.ev true ns np = np := by simp [adjustStop]
      rw [adj]
      rcases entryEnable_cases e s.ev.stop np with ⟨k1, k2⟩ | ⟨k1, k2, k3, k4⟩
      · exfalso
        rcases k2 with k2 | k2 | k2
        · simp [hst] at k2
        · simp [hst] at k2
        · rw [timeBefore_iff] at k2
          bv_omega
      · rw [timeBefore_false_iff] at k4
        rw [k1]
        refine ⟨by simp, ?_, by simp, ?_, ?_⟩ <;> simp only [forall_const, ne_eq, reduceCtorEq, not_false_eq_true, if_true]
        · unfold Later; bv_omega
        · bv_omega
        · bv_omega

theorem pulse_cancel {s : EvSt} (I : PulseInv s) : PulseInv { s with ev := descheduleCrit s.ev } := by
  obtain ⟨both, order, sf, sn, pn⟩ := I
  unfold descheduleCrit entryDisable
  by_cases h : s.ev.start.state = .scheduled
  · have h2 := sf h
    simp only [h, h2, ne_eq, not_true_eq_false, if_false, if_true]
    exact ⟨by simp, by simp, by simp, by simp, by simp⟩
  · simp only [ne_eq, h, not_false_eq_true, if_true, Bool.false_eq_true, if_false]
    exact ⟨both, order, sf, sn, pn⟩

theorem reset_ok {ev ev' : OEvent} (e : resetFiredEvent ev = .ok ev') :
    ev.start.state = .fired ∧ ev.stop.state = .fired ∧
    ev' = { ev with start := { ev.start with state := .unscheduled },
                    stop := { ev.stop with state := .unscheduled } } := by
  unfold resetFiredEvent cassert at e
  by_cases h1 : ev.start.state = .fired <;> by_cases h2 : ev.stop.state = .fired <;>
    simp [h1, h2] at e
  exact ⟨h1, h2, e.symm⟩

theorem pulse_step {s t : EvSt} (I : PulseInv s) (e : EvStep orderedTimes s t) : PulseInv t := by
  cases e with
  | repin p q v w => obtain ⟨a, b, c, d, e⟩ := I; exact ⟨a, b, c, d, e⟩
  | arm e ns np he h => exact pulse_arm I he h
  | cancel => exact pulse_cancel I
  | reset ev h e =>
    obtain ⟨h1, h2, rfl⟩ := reset_ok e
    exact ⟨by simp, by simp, by simp, by simp, by simp⟩
  | swap a b ha hb => exact pulse_swap I ha hb
  | config ty ang pin inv => obtain ⟨a, b, c, d, e⟩ := I; exact ⟨a, b, c, d, e⟩

theorem pulse_hist {s : EvSt} (h : EvHist orderedTimes s) : PulseInv s := by
  induction h with
  | init s ha hb => exact ⟨by simp [ha, hb], by simp [ha], by simp [ha], by simp [ha], by simp [hb]⟩
  | step h e ih => exact pulse_step ih e

/-! ### Loops over the event array -/

/-- A loop that replaces each element by `g` of it, when no turn faults. -/
theorem invalidate_list {n : Nat} (l : List (Fin n)) (hl : l.Nodup) (evs f : Fin n → OEvent)
    (h : ∀ i ∈ l, invalidateOne (evs i) = .ok (f i)) :
    l.foldlM invalidateAt evs = .ok (fun j => if j ∈ l then f j else evs j) := by
  induction l generalizing evs with
  | nil => simp
  | cons a l ih =>
    rw [List.nodup_cons] at hl
    rw [List.foldlM_cons]
    unfold invalidateAt
    rw [h a (by simp), except_bind_ok, except_pure, except_bind_ok]
    change List.foldlM invalidateAt (setEv evs a (f a)) l = _
    rw [ih hl.2]
    · congr 1; funext j
      by_cases hj : j ∈ l
      · simp [hj]
      · by_cases ha : j = a
        · subst ha; simp [hj, setEv]
        · simp [hj, ha, setEv]
    · intro i hi
      have : i ≠ a := by rintro rfl; exact hl.1 hi
      simp only [setEv, this, if_false]
      exact h i (List.mem_cons_of_mem _ hi)

theorem invalidate_ok {n : Nat} {evs f : Fin n → OEvent} (h : ∀ i, invalidateOne (evs i) = .ok (f i)) :
    invalidateEvents evs = .ok f := by
  unfold invalidateEvents
  rw [invalidate_list _ (List.nodup_finRange n) evs f (fun i _ => h i)]
  simp

theorem invalidate_list_inv {n : Nat} (l : List (Fin n)) (hl : l.Nodup) (evs evs' : Fin n → OEvent)
    (h : l.foldlM invalidateAt evs = .ok evs') : ∀ i ∈ l, ∃ v, invalidateOne (evs i) = .ok v := by
  induction l generalizing evs with
  | nil => simp
  | cons a l ih =>
    rw [List.nodup_cons] at hl
    rw [List.foldlM_cons] at h
    rw [bind_eq_ok] at h
    obtain ⟨w, h1, h2⟩ := h
    unfold invalidateAt at h1
    rw [bind_eq_ok] at h1
    obtain ⟨v, h3, h4⟩ := h1
    cases h4
    intro i hi
    rcases List.mem_cons.mp hi with rfl | hi'
    · exact ⟨v, h3⟩
    · have hne : i ≠ a := by rintro rfl; exact hl.1 hi'
      have := ih hl.2 _ h2 i hi'
      simpa [setEv, hne] using this

theorem invalidate_inv {n : Nat} {evs evs' : Fin n → OEvent} (h : invalidateEvents evs = .ok evs') (i : Fin n) :
    invalidateOne (evs i) = .ok (evs' i) := by
  have := invalidate_list_inv _ (List.nodup_finRange n) _ _ h
  choose f hf using fun i => this i (List.mem_finRange i)
  have e := invalidate_ok (evs := evs) (f := f) hf
  rw [h] at e
  cases e
  exact hf i

/-! ### Running the scheduling functions on concrete values -/

section
variable [FloatFmt]

theorem ignitionStop_eq {env : SchedEnv} {ev : OEvent}
    (h0 : Fl.lt (ev.angle - env.advance - env.d.lastTriggerAngle + env.d.offset) (Fl.fin 0) = false)
    (h1 : Fl.le (Fl.fin 720) (ev.angle - env.advance - env.d.lastTriggerAngle + env.d.offset) = false) :
    ignitionStop env ev = (do
      let t ← timeFromRpmDiff env.d.toothRpm (ev.angle - env.advance - env.d.lastTriggerAngle + env.d.offset)
      return env.d.lastTriggerTime + t) := by
  unfold ignitionStop
  rw [clampAngle_id h0 h1]; rfl

theorem scheduleIgnition_eq {env : SchedEnv} {ev : OEvent} {stop dwell : Time} {r : Option OEvent}
    (hr : env.d.rpm ≠ 0) (hv : env.d.valid = true) (hs : ignitionStop env ev = .ok stop)
    (hd : timeFromUs env.dwellUs = .ok dwell) (hf : resetIfFired ev env.d stop = .ok r) :
    scheduleIgnition env ev = ignitionGo env ev (stop - dwell) stop r := by
  unfold scheduleIgnition
  rw [if_neg (by simp only [hr, hv, Bool.true_eq_false, or_self, not_false_eq_true]), hs, hd, except_bind_ok, except_bind_ok, hf, except_bind_ok]

theorem fuelStop_eq {env : SchedEnv} {ev : OEvent}
    (h0 : Fl.lt (ev.angle - env.d.lastTriggerAngle + env.d.offset) (Fl.fin 0) = false)
    (h1 : Fl.le (Fl.fin 720) (ev.angle - env.d.lastTriggerAngle + env.d.offset) = false) :
    fuelStop env ev = (do
      let t ← timeFromRpmDiff env.d.toothRpm (ev.angle - env.d.lastTriggerAngle + env.d.offset)
      return env.d.lastTriggerTime + t) := by
  unfold fuelStop
  rw [clampAngle_id h0 h1]; rfl

theorem scheduleFuel_eq {env : SchedEnv} {ev : OEvent} {stop : Time} {r : Option OEvent}
    (hr : env.d.rpm ≠ 0) (hv : env.d.valid = true) (hs : fuelStop env ev = .ok stop)
    (hf : resetIfFired ev env.d stop = .ok r) :
    scheduleFuel env ev = fuelGo env ev (stop - 4 * env.fuelingUs) stop r := by
  unfold scheduleFuel
  rw [if_neg (by simp only [hr, hv, Bool.true_eq_false, or_self, not_false_eq_true]), hs, except_bind_ok, hf, except_bind_ok]

end

end Verif
