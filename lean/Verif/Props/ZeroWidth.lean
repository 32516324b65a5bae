/-
C80: a pulse of zero width leaves the output inactive.
-/
import Verif.Props.Port
import Verif.Props.Cuts
import Verif.Props.Decoder

namespace Verif

/-- Pulses of zero width: the start and the stop asked for are the same tick. -/
def zeroTimes : EvSt → Time → Time → Time → Prop := fun _ _ ns np => np = ns

/-- The system goes on from one state to another; the steps are those of `PortReach`. -/
inductive PortLater {n : Nat} (ok : EvSt → Time → Time → Time → Prop) (i : Fin n) (p : Fin 16) (s0 : PortSys n) : PortSys n → Prop
  | refl : PortLater ok i p s0 s0
  | ctl {s : PortSys n} (h : PortLater ok i p s0 s) (d : Dma n) (e : DmaStep s.dma d) (hb : d.buf = s.dma.buf ∧ d.cur = s.dma.cur)
      (hi : d.evs i = s.dma.evs i ∨ EvStep ok (s.dma.view i) (d.view i))
      (hp : (d.evs i).pin = (s.dma.evs i).pin ∧ (d.evs i).inverted = (s.dma.evs i).inverted)
      (ho : ∀ j, j ≠ i → (d.evs j).pinNo ≠ p) : PortLater ok i p s0 { s with dma := d }
  | swap {s : PortSys n} (h : PortLater ok i p s0 s) (now : Time) (hn : (now - (s.dma.buf (!s.dma.cur)).first).toNat < 128) :
      PortLater ok i p s0 (s.swap now)

/-- C80 in full: while only pulses of zero width are asked for, the pin is never active. -/
def C80_full : Prop :=
  ∀ (n : Nat) (i : Fin n) (p : Fin 16) (s : PortSys n) (t : Time), PortReach zeroTimes i p s →
    (t - (s.dma.buf s.dma.cur).first).toNat < 128 → s.at t p = (s.dma.evs i).inverted

/-- Both edges are in the same state, for the same tick. -/
def Twin (ev : OEvent) : Prop := ev.start.state = ev.stop.state ∧ (ev.start.state ≠ .unscheduled → ev.start.time = ev.stop.time)

theorem twin_crit {ev : OEvent} (h : Twin ev) (e t : Time) : Twin (scheduleCrit e ev t t) := by
  obtain ⟨h1, h2⟩ := h
  unfold scheduleCrit
  split_ifs with hu hm
  · unfold entryEnable at hm ⊢
    simp only [eventIsUnscheduled, Bool.and_eq_true, decide_eq_true_eq] at hu
    simp only [hu.1, hu.2, reduceCtorEq, or_self, if_false] at hm ⊢
    by_cases hb : timeBefore t e = true
    · simp [hb] at hm
    · simp only [hb]
      exact ⟨rfl, fun _ => rfl⟩
  · exact ⟨h1, h2⟩
  · have hne : ev.start.state ≠ .unscheduled := by
      intro h3
      apply hu
      simp only [eventIsUnscheduled, Bool.and_eq_true, decide_eq_true_eq]
      exact ⟨h3, h1 ▸ h3⟩
    have h3 := h2 hne
    unfold entryEnable adjustStop
    rw [← h1]
    by_cases hs : ev.start.state = .submitted ∨ ev.start.state = .fired
    · rw [if_pos hs, if_pos hs]
      exact ⟨h1, h2⟩
    · rw [if_neg hs]
      have hsch : ev.start.state = .scheduled := by
        cases hst : ev.start.state
        · exact absurd hst hne
        · rfl
        · exact absurd (.inl hst) hs
        · exact absurd (.inr hst) hs
      by_cases hb : timeBefore t e = true
      · rw [if_pos hb]
        simp only [if_neg hs]
        have hk : ∀ x : Time, x = ev.start.time ∨ timeBefore x e = true →
            Twin { ev with start := ev.start, stop := (if timeBefore x e = true then (ev.stop, false)
              else ({ ev.stop with time := x, state := .scheduled }, true)).1 } := by
          intro x hx
          split_ifs with hxe
          · exact ⟨h1, h2⟩
          · rcases hx with rfl | hx
            · exact ⟨hsch, fun _ => rfl⟩
            · exact absurd hx hxe
        apply hk
        by_cases hf : ev.type = .fuel
        · left
          simp only [hf]
          show t + (ev.start.time - t) = _
          bv_omega
        · right
          simp only [hf]
          exact hb
      · rw [if_neg hb]
        simp only [Bool.not_true, Bool.false_and, Bool.false_eq_true, if_false, if_neg hs, if_neg hb]
        exact ⟨rfl, fun _ => rfl⟩

theorem twin_step {x y : EvSt} (e : EvStep zeroTimes x y) (hn : y.next = x.next) (h : Twin x.ev) : Twin y.ev := by
  cases e with
  | repin p q v w => exact h
  | arm a ns np he hz =>
      cases hz
      exact twin_crit h a ns
  | cancel =>
      obtain ⟨h1, h2⟩ := h
      unfold descheduleCrit entryDisable
      by_cases hs : x.ev.start.state = .scheduled
      · have hs' : x.ev.stop.state = .scheduled := h1 ▸ hs
        simp only [hs, hs', not_true_eq_false, ne_eq, if_false]
        exact ⟨rfl, fun hne => absurd rfl hne⟩
      · simp only [hs, ne_eq, not_false_eq_true, if_true]
        exact ⟨h1, h2⟩
  | reset ev hf e =>
      obtain ⟨-, -, rfl⟩ := reset_ok e
      exact ⟨rfl, fun hne => absurd rfl hne⟩
  | swap a b ha hb =>
      exfalso
      change x.next + 128 = x.next at hn
      bv_omega
  | config ty ang pin inv => exact h

theorem twin_swap {n : Nat} {s : Dma n} (now : Time) {i : Fin n} (h : Twin (s.evs i)) : Twin ((bufferSwap s now).evs i) := by
  rw [(bufferSwap_spec s now).2.2.2.1 i]
  generalize s.evs i = ev at h
  obtain ⟨h1, h2⟩ := h
  unfold mapEdges
  have key : ∀ (f g : Time) (a b : Entry), a.state = b.state → (a.state ≠ .unscheduled → a.time = b.time) →
      (populated f (retired g a)).state = (populated f (retired g b)).state ∧ ((populated f (retired g a)).state ≠ .unscheduled →
        (populated f (retired g a)).time = (populated f (retired g b)).time) := by
    intro f g a b k1 k2
    obtain ⟨ta, pa, va, sa⟩ := a
    obtain ⟨tb, pb, vb, sb⟩ := b
    simp only at k1 k2
    subst k1
    unfold populated retired
    by_cases hu : sa = .unscheduled
    · subst hu
      simp
    · obtain rfl := k2 hu
      by_cases c1 : sa = .submitted ∧ (ta - g).toNat < numSlots
      · simp only [if_pos c1, reduceCtorEq, false_and, if_false]
        exact ⟨trivial, fun _ => trivial⟩
      · by_cases c2 : sa = .scheduled ∧ (ta - f).toNat < numSlots
        · simp only [if_neg c1, if_pos c2]
          exact ⟨trivial, fun _ => trivial⟩
        · simp only [if_neg c1, if_neg c2]
          exact ⟨trivial, fun _ => trivial⟩
  exact key _ _ _ _ h1 h2

theorem port_twin {n : Nat} {i : Fin n} {p : Fin 16} {s : PortSys n} (h : PortReach zeroTimes i p s) : Twin (s.dma.evs i) := by
  induction h with
  | start s h => exact ⟨(started_idle h i false).trans (started_idle h i true).symm, fun hne => absurd (started_idle h i false) hne⟩
  | @ctl s h d e hb hi hp ho ih =>
      rcases hi with hi | hi
      · show Twin (d.evs i)
        rw [hi]; exact ih
      · exact twin_step hi (by unfold Dma.view Dma.earliest; rw [hb.1, hb.2]) ih
  | swap h now hn ih => exact twin_swap now ih

/-- The pin after `m` slots: setting wins over clearing, so that a pulse of zero width leaves the pin high. -/
theorem zero_level {n : Nat} {i : Fin n} {p : Fin 16} {s : PortSys n} (h : PortReach zeroTimes i p s) (m : Nat) (hm : m ≤ numSlots) :
    portAfter (s.dma.buf s.dma.cur) s.level m p = (s.level p || decide ((s.dma.evs i).start.state = .submitted ∧
      ((s.dma.evs i).start.time - (s.dma.buf s.dma.cur).first).toNat < m)) := by
  obtain ⟨t1, t2⟩ := port_twin h
  induction m with
  | zero => simp [portAfter]
  | succ m ih =>
      have ih := ih (by omega)
      unfold portAfter
      rw [dif_pos (by omega : m < numSlots)]
      unfold playSlot
      have hon := own_bits h ⟨m, by omega⟩ true
      have hoff := own_bits h ⟨m, by omega⟩ false
      unfold bitOf at hon hoff
      rw [if_pos rfl] at hon
      rw [if_neg (by decide)] at hoff
      rw [ih]
      by_cases hs : (s.dma.evs i).start.state = .submitted
      · rw [← t1, ← t2 (by rw [hs]; decide)] at hon hoff
        by_cases ha : ((s.dma.evs i).start.time - (s.dma.buf s.dma.cur).first).toNat = m
        · have hx : ((s.dma.buf s.dma.cur).slots ⟨m, by omega⟩).on.getLsbD p = true := by
            rw [hon]
            cases (s.dma.evs i).inverted
            · exact .inl ⟨hs, ha, rfl⟩
            · exact .inr ⟨hs, ha, rfl⟩
          rw [if_pos hx, decide_eq_true ⟨hs, by omega⟩, Bool.or_true]
        · rw [if_neg (fun hx => ?_), if_neg (fun hx => ?_)]
          · congr 1
            apply decide_eq_decide.mpr
            constructor <;> rintro ⟨a, b⟩ <;> exact ⟨a, by omega⟩
          · rcases hoff.mp hx with ⟨-, h, -⟩ | ⟨-, h, -⟩ <;> exact ha h
          · rcases hon.mp hx with ⟨-, h, -⟩ | ⟨-, h, -⟩ <;> exact ha h
      · rw [← t1] at hon hoff
        rw [if_neg (fun hx => ?_), if_neg (fun hx => ?_)]
        · simp [hs]
        · rcases hoff.mp hx with ⟨h, -⟩ | ⟨h, -⟩ <;> exact hs h
        · rcases hon.mp hx with ⟨h, -⟩ | ⟨h, -⟩ <;> exact hs h

theorem zero_base {n : Nat} {i : Fin n} {p : Fin 16} {s : PortSys n} (h : PortReach zeroTimes i p s) :
    ((s.dma.evs i).inverted = true → s.level p = true) ∧ ((s.dma.evs i).start.state = .fired → s.level p = true) := by
  induction h with
  | start s h hp ho hl =>
      exact ⟨fun hi => hl.trans hi, fun hf => by
        rw [show (s.dma.evs i).start.state = .unscheduled from started_idle h i false] at hf; cases hf⟩
  | @ctl s h d e hb hi hp ho ih =>
      refine ⟨fun hv => ih.1 (hp.2 ▸ hv), fun hf => ?_⟩
      change (d.evs i).start.state = .fired at hf
      rcases hi with hi | hi
      · exact ih.2 (hi ▸ hf)
      · rcases ev_fired hi (by unfold Dma.view Dma.earliest; rw [hb.1, hb.2]) with ⟨f1, -⟩ | ⟨-, -, f3, -⟩
        · exact ih.2 (f1.mp hf)
        · change (d.evs i).start.state = _ at f3
          rw [f3] at hf; cases hf
  | @swap s h now hn ih =>
      have inv : ((bufferSwap s.dma now).evs i).inverted = (s.dma.evs i).inverted := by
        rw [(bufferSwap_spec s.dma now).2.2.2.1]; rfl
      have hl : (s.swap now).level p = _ := zero_level h numSlots le_rfl
      rw [hl]
      refine ⟨fun hv => ?_, fun hf => ?_⟩
      · rw [ih.1 (inv ▸ hv), Bool.true_or]
      · rcases (C19_fired (port_dma h) now i false).mp hf with hf | ⟨hs, hw⟩
        · rw [ih.2 hf, Bool.true_or]
        · rw [decide_eq_true ⟨hs, hw⟩, Bool.or_true]

/-- **C80 for active-low outputs**: while only pulses of zero width are asked for, the pin rests at its inactive level. -/
theorem C80_inverted_partial {n : Nat} {i : Fin n} {p : Fin 16} {s : PortSys n} (h : PortReach zeroTimes i p s)
    (hi : (s.dma.evs i).inverted = true) (t : Time) (ht : (t - (s.dma.buf s.dma.cur).first).toNat < 128) :
    s.at t p = (s.dma.evs i).inverted := by
  unfold PortSys.at
  rw [zero_level h _ (by unfold numSlots; omega), (zero_base h).1 hi, hi, Bool.true_or]

/-- **C80 is violated by every active-high output**: from the tick of the first pulse of zero width the pin is high. -/
theorem C80_on {n : Nat} {i : Fin n} {p : Fin 16} {s : PortSys n} (h : PortReach zeroTimes i p s) (t : Time)
    (ht : (t - (s.dma.buf s.dma.cur).first).toNat < 128) (hs : (s.dma.evs i).start.playedBy (s.dma.buf s.dma.cur).first t) :
    s.at t p = true := by
  unfold PortSys.at
  rw [zero_level h _ (by unfold numSlots; omega)]
  rcases hs with hs | ⟨h1, h2⟩
  · rw [(zero_base h).2 hs, Bool.true_or]
  · rw [decide_eq_true ⟨h1, by omega⟩, Bool.or_true]

theorem later_reach {n : Nat} {ok : EvSt → Time → Time → Time → Prop} {i : Fin n} {p : Fin 16} {s s' : PortSys n}
    (h : PortReach ok i p s) (hl : PortLater ok i p s s') : PortReach ok i p s' := by
  induction hl with
  | refl => exact h
  | ctl _ d e hb hi hp ho ih => exact .ctl ih d e hb hi hp ho
  | swap _ now hn ih => exact .swap ih now hn

theorem zero_latch {n : Nat} {i : Fin n} {p : Fin 16} {s s' : PortSys n} (h : PortReach zeroTimes i p s) (hf : s.level p = true)
    (hl : PortLater zeroTimes i p s s') : s'.level p = true := by
  induction hl with
  | refl => exact hf
  | ctl _ d e hb hi hp ho ih => exact ih
  | @swap x hx now hn ih =>
      have hlv : (x.swap now).level p = _ := zero_level (later_reach h hx) numSlots le_rfl
      rw [hlv, ih, Bool.true_or]

/-- And it stays high for as long as the width is zero, also after the stop is reported fired. -/
theorem C80_stays_on {n : Nat} {i : Fin n} {p : Fin 16} {s s' : PortSys n} (h : PortReach zeroTimes i p s)
    (hf : (s.dma.evs i).start.state = .fired) (hl : PortLater zeroTimes i p s s') (t : Time)
    (ht : (t - (s'.dma.buf s'.dma.cur).first).toNat < 128) : s'.at t p = true := by
  have key := zero_latch h ((zero_base h).2 hf) hl
  unfold PortSys.at
  rw [zero_level (later_reach h hl) _ (by unfold numSlots; omega), key, Bool.true_or]

section
variable [FloatFmt]

/-- The control code asks for such pulses whenever the dwell is zero. -/
theorem C80_dwell {env : SchedEnv} {ev ev' : OEvent} (hd : env.dwellUs = 0) (h : Twin ev) (hs : scheduleIgnition env ev = .ok ev') :
    Twin ev' := by
  unfold scheduleIgnition at hs
  split_ifs at hs with hv
  · cases hs; exact h
  · simp only [bind_eq_ok] at hs
    obtain ⟨stop, -, dw, h2, r, h3, hs⟩ := hs
    rw [hd, timeFromUs_eq _ (by decide)] at h2
    obtain rfl : (0 : BitVec 32) = dw := by cases h2; decide
    rw [show stop - 0 = stop from BitVec.sub_zero stop] at hs
    have key : ∀ ev1, r = some ev1 → Twin ev1 := by
      intro ev1 hr
      rcases resetIfFired_cases h3 with ⟨h4, -⟩ | ⟨h4, -⟩ | ⟨ev2, h4, -, -, h5⟩
      · rw [h4] at hr; cases hr; exact h
      · rw [h4] at hr; cases hr
      · rw [h4] at hr; cases hr
        obtain ⟨-, -, rfl⟩ := reset_ok h5
        exact ⟨rfl, fun hne => absurd rfl hne⟩
    cases r with
    | none => cases hs; exact h
    | some ev1 =>
        have h1 := key _ rfl
        unfold ignitionGo ignitionArm at hs
        simp only [bind_eq_ok] at hs
        obtain ⟨far, -, hs⟩ := hs
        split_ifs at hs
        · cases hs; exact h1
        · simp only [bind_eq_ok] at hs
          obtain ⟨little, -, hs⟩ := hs
          split_ifs at hs
          · cases hs; exact h1
          · cases hs; exact twin_crit (ev := setPins ev1) h1 _ _

/-- And whenever the fuel pulse is zero. -/
theorem C80_fuel {env : SchedEnv} {ev : OEvent} {r : OEvent × Option Time} (hd : env.fuelingUs = 0) (h : Twin ev)
    (hs : scheduleFuel env ev = .ok r) : Twin r.1 := by
  unfold scheduleFuel at hs
  split_ifs at hs with hv
  · cases hs; exact h
  · simp only [bind_eq_ok] at hs
    obtain ⟨stop, -, o, h3, hs⟩ := hs
    rw [hd, show (4 * 0 : BitVec 32) = 0 from by decide, show stop - 0 = stop from BitVec.sub_zero stop] at hs
    have key : ∀ ev1, o = some ev1 → Twin ev1 := by
      intro ev1 hr
      rcases resetIfFired_cases h3 with ⟨h4, -⟩ | ⟨h4, -⟩ | ⟨ev2, h4, -, -, h5⟩
      · rw [h4] at hr; cases hr; exact h
      · rw [h4] at hr; cases hr
      · rw [h4] at hr; cases hr
        obtain ⟨-, -, rfl⟩ := reset_ok h5
        exact ⟨rfl, fun hne => absurd rfl hne⟩
    cases o with
    | none => cases hs; exact h
    | some ev1 =>
        have h1 := key _ rfl
        unfold fuelGo fuelArm at hs
        simp only [bind_eq_ok] at hs
        obtain ⟨far, -, hs⟩ := hs
        split_ifs at hs
        · cases hs; exact h1
        · cases hs; exact twin_crit (ev := setPins ev1) h1 _ _

end

/-- A coil, told to charge for no time at tick 600. -/
def zeroCoil : PortSys 1 := (((pin0 .ignition).ask 600 600).swap 400).swap 520

theorem zeroCoil_reach : PortReach zeroTimes 0 1 zeroCoil :=
  .swap (.swap (port_arm (pin0_reach _ .ignition (by decide)) 600 600 rfl) 400 (by decide +kernel)) 520 (by decide +kernel)

/-- C80 is false: the coil is switched on at tick 600. -/
theorem C80_full_false : ¬ C80_full := by
  intro h
  have := h 1 0 1 zeroCoil 600 zeroCoil_reach (by decide +kernel)
  revert this
  decide +kernel

/-- The coil after the pulse: both edges are reported fired, and `C80_stays_on` applies. -/
example : eventHasFired ((zeroCoil.swap 650).dma.evs 0) = true ∧
    ∀ s', PortLater zeroTimes 0 1 (zeroCoil.swap 650) s' → ∀ t, (t - (s'.dma.buf s'.dma.cur).first).toNat < 128 → s'.at t 1 = true :=
  ⟨by decide +kernel, fun _ hl t ht => C80_stays_on (i := 0) (.swap zeroCoil_reach 650 (by decide +kernel)) (by decide +kernel) hl t ht⟩

/-- An active-low coil, told the same. -/
example : ∃ s : PortSys 1, PortReach zeroTimes 0 1 s ∧ (s.dma.evs 0).inverted = true ∧ (s.dma.evs 0).start.state = .submitted ∧
    s.at 600 1 = true := by
  have hb := (C73_boot zeroTimes (fun _ : Fin 1 => { pinEv .ignition with inverted := true }) 0 1 200 300
    (by intro j w; cases w <;> rfl) (by decide) rfl (fun j hj => absurd (Subsingleton.elim j 0) hj) (by decide) (by decide)).2
  have h1 := PortReach.swap (PortReach.swap (port_arm hb 600 600 rfl) 400 (by decide +kernel)) 520 (by decide +kernel)
  exact ⟨_, h1, by decide +kernel, by decide +kernel, by decide +kernel⟩

attribute [local instance] binary32 in
/-- While cranking with zero dwell both edges are armed for tick 166666; with a fuel pulse of zero, for the tick at 90 degrees. -/
example : (∃ ev, scheduleIgnition { crankEnv1 with dwellUs := 0 } (crankEvent .ignition) = .ok ev ∧ Twin ev ∧
      ev.start.state = .scheduled ∧ ev.start.time = 166666) ∧
    ∃ r, scheduleFuel { crankEnv1 with fuelingUs := 0 } (crankEvent .fuel) = .ok r ∧ Twin r.1 ∧ r.1.start.state = .scheduled := by
  constructor
  · obtain ⟨ev, h1, h2⟩ := okAnd_ok (x := scheduleIgnition { crankEnv1 with dwellUs := 0 } (crankEvent .ignition))
      (p := fun ev => decide (ev.start.state = .scheduled ∧ ev.start.time = 166666)) (by decide +kernel)
    exact ⟨ev, h1, C80_dwell rfl ⟨rfl, fun h => absurd rfl h⟩ h1, of_decide_eq_true h2⟩
  · obtain ⟨r, h1, h2⟩ := okAnd_ok (x := scheduleFuel { crankEnv1 with fuelingUs := 0 } (crankEvent .fuel))
      (p := fun r => decide (r.1.start.state = .scheduled)) (by decide +kernel)
    exact ⟨r, h1, C80_fuel rfl ⟨rfl, fun h => absurd rfl h⟩ h1, of_decide_eq_true h2⟩

end Verif
