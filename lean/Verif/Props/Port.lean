/-
C73: an output pin is active exactly from the tick of its start edge to the tick of its stop edge.
C74: switching one output does not disturb another.
-/
import Verif.Spec.Port

namespace Verif

/-! ### C73 -/

theorem port_dma {n : Nat} {ok : EvSt → Time → Time → Time → Prop} {i : Fin n} {p : Fin 16} {s : PortSys n}
    (h : PortReach ok i p s) : DmaReach s.dma := by
  induction h with
  | start s h => exact .start h
  | ctl h d e => exact .step ‹_› e
  | swap h now hn ih => exact .step ih (.swap _ now hn)

theorem started_idle {n : Nat} {s : Dma n} (h : Started s) (i : Fin n) (w : Bool) : ((s.evs i).edge w).state = .unscheduled := by
  obtain ⟨evs, now1, now2, hu, _, _, _, _, rfl⟩ := h
  have key : ∀ (s : Dma n) (now : Time), (∀ i w, ((s.evs i).edge w).state = .unscheduled) →
      ∀ i w, (((bufferSwap s now).evs i).edge w).state = .unscheduled := by
    intro s now hs i w
    rw [(bufferSwap_spec s now).2.2.2.1 i, mapEdges_edge]
    exact (swapEdge _ _ _).unscheduled.mpr (hs i w)
  exact key _ _ (key _ _ hu) i w

/-- A swap is a step of each output. -/
theorem swap_view {n : Nat} {ok : EvSt → Time → Time → Time → Prop} {s : Dma n} (h : DmaReach s) (now : Time)
    (hn : (now - (s.buf (!s.cur)).first).toNat < 128) (i : Fin n) : EvStep ok (s.view i) ((bufferSwap s now).view i) := by
  have I := dma_reach_inv h
  obtain ⟨c, b1, b2, ev, _⟩ := bufferSwap_spec s now
  have hr : roundToBuffer now = (s.buf s.cur).first + 128 := by
    have al := I.aligned
    rw [I.adjacent] at hn
    exact round_in_window _ _ (by bv_omega) hn
  rw [hr] at ev
  have ear : (bufferSwap s now).earliest = s.earliest + 128 := by
    unfold Dma.earliest
    rw [c, b1, I.adjacent]
    bv_omega
  have key : ∀ w, EdgeSwap s.earliest ((s.evs i).edge w)
      (populated ((s.buf s.cur).first + 128 + 128) (retired (s.buf s.cur).first ((s.evs i).edge w))) := by
    intro w
    have e0 : (s.buf s.cur).first + 128 + 128 = s.earliest := by unfold Dma.earliest; bv_omega
    rw [e0]
    unfold populated retired numSlots
    generalize (s.evs i).edge w = en
    by_cases h1 : en.state = .submitted ∧ (en.time - (s.buf s.cur).first).toNat < 128
    · rw [if_pos h1]
      simp only [reduceCtorEq, false_and, if_false]
      exact .fire en h1.1
    · rw [if_neg h1]
      by_cases h2 : en.state = .scheduled
      · by_cases h3 : (en.time - s.earliest).toNat < 128
        · rw [if_pos ⟨h2, h3⟩]; exact .submit en h2 h3
        · rw [if_neg (fun h => h3 h.2)]; exact .later en h2 (by unfold windowTicks; omega)
      · rw [if_neg (fun h => h2 h.1)]; exact .idle en h2
  have e : (bufferSwap s now).view i = { next := (s.view i).next + 128, ev := { (s.view i).ev with
      start := populated ((s.buf s.cur).first + 128 + 128) (retired (s.buf s.cur).first (s.evs i).start),
      stop := populated ((s.buf s.cur).first + 128 + 128) (retired (s.buf s.cur).first (s.evs i).stop) } } := by
    unfold Dma.view
    rw [ear, ev i]
    rfl
  rw [e]
  exact .swap _ _ _ (key false) (key true)

theorem port_hist {n : Nat} {ok : EvSt → Time → Time → Time → Prop} {i : Fin n} {p : Fin 16} {s : PortSys n}
    (h : PortReach ok i p s) : EvHist ok (s.dma.view i) := by
  induction h with
  | start s h => exact .init _ (started_idle h i false) (started_idle h i true)
  | @ctl s h d e hb hi hp ho ih =>
      rcases hi with hi | hi
      · have : d.view i = s.dma.view i := by
          unfold Dma.view Dma.earliest
          rw [hi, hb.1, hb.2]
        rw [this]; exact ih
      · exact .step ih hi
  | swap h now hn ih => exact .step ih (swap_view (port_dma h) now hn i)

theorem port_pins {n : Nat} {ok : EvSt → Time → Time → Time → Prop} {i : Fin n} {p : Fin 16} {s : PortSys n}
    (h : PortReach ok i p s) : (s.dma.evs i).pinNo = p ∧ ∀ j, j ≠ i → (s.dma.evs j).pinNo ≠ p := by
  induction h with
  | start s h hp ho => exact ⟨hp, ho⟩
  | ctl h d e hb hi hp ho ih => exact ⟨by unfold OEvent.pinNo; rw [hp.1]; exact ih.1, ho⟩
  | @swap s h now hn ih =>
      have ev := (bufferSwap_spec s.dma now).2.2.2.1
      constructor
      · show ((bufferSwap _ now).evs i).pinNo = p
        rw [ev]; exact ih.1
      · intro j hj
        show ((bufferSwap _ now).evs j).pinNo ≠ p
        rw [ev]; exact ih.2 j hj

/-- The bits for pin `p` in the buffer being played are those of the two edges of output `i`. -/
theorem own_bits {n : Nat} {ok : EvSt → Time → Time → Time → Prop} {i : Fin n} {p : Fin 16} {s : PortSys n}
    (h : PortReach ok i p s) (k : Fin numSlots) (v : Bool) :
    bitOf (s.dma.buf s.dma.cur).slots k p v = true ↔
      ((s.dma.evs i).start.state = .submitted ∧ ((s.dma.evs i).start.time - (s.dma.buf s.dma.cur).first).toNat = k ∧
        v = !(s.dma.evs i).inverted) ∨
      ((s.dma.evs i).stop.state = .submitted ∧ ((s.dma.evs i).stop.time - (s.dma.buf s.dma.cur).first).toNat = k ∧
        v = (s.dma.evs i).inverted) := by
  have I := dma_reach_inv (port_dma h)
  obtain ⟨hp, ho⟩ := port_pins h
  rw [I.bits]
  have pins : ∀ j w, ((s.dma.evs j).edge w).state = .submitted → ((s.dma.evs j).edge w).pin.toNat = (s.dma.evs j).pinNo ∧
      ((s.dma.evs j).edge w).val = (if w then (s.dma.evs j).inverted else !(s.dma.evs j).inverted) := by
    intro j w hs
    have := I.pins j w (.inr hs)
    rw [← this]
    cases w <;> exact ⟨rfl, rfl⟩
  constructor
  · rintro ⟨j, w, h1, h2, h3, h4⟩
    obtain ⟨q1, q2⟩ := pins j w h1
    rw [q1] at h3
    rcases eq_or_ne j i with rfl | hj
    · cases w
      · exact .inl ⟨h1, h2, by rw [← h4, q2]; rfl⟩
      · exact .inr ⟨h1, h2, by rw [← h4, q2]; rfl⟩
    · exact absurd h3 (ho j hj)
  · rintro (⟨h1, h2, h3⟩ | ⟨h1, h2, h3⟩)
    · obtain ⟨q1, q2⟩ := pins i false h1
      exact ⟨i, false, h1, h2, q1.trans hp, q2.trans h3.symm⟩
    · obtain ⟨q1, q2⟩ := pins i true h1
      exact ⟨i, true, h1, h2, q1.trans hp, q2.trans h3.symm⟩

/-- What is known of the two edges of output `i`. -/
structure PairOk (f : Time) (a b : Entry) : Prop where
  first : b.state = .submitted ∨ b.state = .fired → a.state = .submitted ∨ a.state = .fired
  order : a.state = .submitted → b.state = .submitted → (a.time - f).toNat < (b.time - f).toNat
  fired : b.state = .fired → a.state = .fired

theorem slot_core (inv x y : Bool) (sa sb : SState) (a b m : Nat)
    (q1 : sb = .submitted ∨ sb = .fired → sa = .submitted ∨ sa = .fired) (q2 : sa = .submitted → sb = .submitted → a < b)
    (q3 : sb = .fired → sa = .fired)
    (hon : x = true ↔ (sa = .submitted ∧ a = m ∧ true = !inv) ∨ (sb = .submitted ∧ b = m ∧ true = inv))
    (hoff : y = true ↔ (sa = .submitted ∧ a = m ∧ false = !inv) ∨ (sb = .submitted ∧ b = m ∧ false = inv)) :
    (if x = true then true else if y = true then false else
      (inv ^^ (decide (sa = .fired ∨ (sa = .submitted ∧ a < m)) && !decide (sb = .fired ∨ (sb = .submitted ∧ b < m))))) =
    (inv ^^ (decide (sa = .fired ∨ (sa = .submitted ∧ a < m + 1)) && !decide (sb = .fired ∨ (sb = .submitted ∧ b < m + 1)))) := by
  by_cases hA : sa = .submitted ∧ a = m
  · have hB : ¬ (sb = .submitted ∧ b = m) := fun h => by have := q2 hA.1 h.1; omega
    have hT : ¬ (sb = .fired ∨ (sb = .submitted ∧ b < m + 1)) := by
      rintro (h | ⟨h, h'⟩)
      · rw [q3 h] at hA; cases hA.1
      · have := q2 hA.1 h; omega
    have hP : sa = .fired ∨ (sa = .submitted ∧ a < m + 1) := .inr ⟨hA.1, by omega⟩
    rw [decide_eq_true hP, decide_eq_false hT]
    have hx : x = !inv := by
      cases inv
      · exact hon.mpr (.inl ⟨hA.1, hA.2, rfl⟩)
      · show x = false
        rw [← Bool.not_eq_true]
        intro h
        rcases hon.mp h with ⟨_, _, h⟩ | ⟨h, h', _⟩
        · cases h
        · exact hB ⟨h, h'⟩
    have hy : y = inv := by
      cases inv
      · rw [← Bool.not_eq_true]
        intro h
        rcases hoff.mp h with ⟨_, _, h⟩ | ⟨h, h', _⟩
        · cases h
        · exact hB ⟨h, h'⟩
      · exact hoff.mpr (.inl ⟨hA.1, hA.2, rfl⟩)
    subst hx hy
    cases y <;> rfl
  · have eP : (sa = .fired ∨ (sa = .submitted ∧ a < m + 1)) ↔ (sa = .fired ∨ (sa = .submitted ∧ a < m)) := by
      constructor
      · rintro (h | ⟨h, h'⟩)
        · exact .inl h
        · exact .inr ⟨h, by rcases Nat.lt_succ_iff_lt_or_eq.mp h' with h2 | h2; exacts [h2, absurd ⟨h, h2⟩ hA]⟩
      · rintro (h | ⟨h, h'⟩)
        · exact .inl h
        · exact .inr ⟨h, by omega⟩
    by_cases hB : sb = .submitted ∧ b = m
    · have hT : sb = .fired ∨ (sb = .submitted ∧ b < m + 1) := .inr ⟨hB.1, by omega⟩
      rw [decide_eq_true hT]
      have hx : x = inv := by
        cases inv
        · rw [← Bool.not_eq_true]
          intro h
          rcases hon.mp h with ⟨h, h', _⟩ | ⟨_, _, h⟩
          · exact hA ⟨h, h'⟩
          · cases h
        · exact hon.mpr (.inr ⟨hB.1, hB.2, rfl⟩)
      have hy : y = !inv := by
        cases inv
        · exact hoff.mpr (.inr ⟨hB.1, hB.2, rfl⟩)
        · show y = false
          rw [← Bool.not_eq_true]
          intro h
          rcases hoff.mp h with ⟨h, h', _⟩ | ⟨_, _, h⟩
          · exact hA ⟨h, h'⟩
          · cases h
      subst hx hy
      cases x <;> simp
    · have eT : (sb = .fired ∨ (sb = .submitted ∧ b < m + 1)) ↔ (sb = .fired ∨ (sb = .submitted ∧ b < m)) := by
        constructor
        · rintro (h | ⟨h, h'⟩)
          · exact .inl h
          · exact .inr ⟨h, by rcases Nat.lt_succ_iff_lt_or_eq.mp h' with h2 | h2; exacts [h2, absurd ⟨h, h2⟩ hB]⟩
        · rintro (h | ⟨h, h'⟩)
          · exact .inl h
          · exact .inr ⟨h, by omega⟩
      have hx : ¬ x = true := by
        rw [hon]
        rintro (⟨h, h', _⟩ | ⟨h, h', _⟩)
        exacts [hA ⟨h, h'⟩, hB ⟨h, h'⟩]
      have hy : ¬ y = true := by
        rw [hoff]
        rintro (⟨h, h', _⟩ | ⟨h, h', _⟩)
        exacts [hA ⟨h, h'⟩, hB ⟨h, h'⟩]
      rw [if_neg hx, if_neg hy, decide_eq_decide.mpr eP, decide_eq_decide.mpr eT]

/-- Level of the pin after `m` slots. -/
theorem level_after {n : Nat} {ok : EvSt → Time → Time → Time → Prop} {i : Fin n} {p : Fin 16} {s : PortSys n}
    (h : PortReach ok i p s) (hq : PairOk (s.dma.buf s.dma.cur).first (s.dma.evs i).start (s.dma.evs i).stop)
    (hl : s.level p = ((s.dma.evs i).inverted ^^ (decide ((s.dma.evs i).start.state = .fired) && !decide ((s.dma.evs i).stop.state = .fired))))
    (m : Nat) (hm : m ≤ numSlots) :
    portAfter (s.dma.buf s.dma.cur) s.level m p = ((s.dma.evs i).inverted ^^
      (decide ((s.dma.evs i).start.state = .fired ∨ ((s.dma.evs i).start.state = .submitted ∧
          ((s.dma.evs i).start.time - (s.dma.buf s.dma.cur).first).toNat < m)) &&
       !decide ((s.dma.evs i).stop.state = .fired ∨ ((s.dma.evs i).stop.state = .submitted ∧
          ((s.dma.evs i).stop.time - (s.dma.buf s.dma.cur).first).toNat < m)))) := by
  induction m with
  | zero => simp only [portAfter, Nat.not_lt_zero, and_false, or_false]; exact hl
  | succ m ih =>
      have ih := ih (by omega)
      unfold portAfter
      rw [dif_pos (by omega : m < numSlots)]
      unfold playSlot
      have hon := own_bits h ⟨m, by omega⟩ true
      have hoff := own_bits h ⟨m, by omega⟩ false
      unfold bitOf at hon hoff
      rw [if_pos rfl] at hon
      rw [if_neg (by decide)] at hoff
      rw [ih]
      obtain ⟨q1, q2, q3⟩ := hq
      generalize (s.dma.buf s.dma.cur).first = f at *
      generalize (s.dma.evs i).start.state = sa at *
      generalize (s.dma.evs i).stop.state = sb at *
      generalize ((s.dma.evs i).start.time - f).toNat = a at *
      generalize ((s.dma.evs i).stop.time - f).toNat = b at *
      generalize (s.dma.evs i).inverted = inv at *
      generalize ((s.dma.buf s.dma.cur).slots ⟨m, by omega⟩).on.getLsbD p = x at *
      generalize ((s.dma.buf s.dma.cur).slots ⟨m, by omega⟩).off.getLsbD p = y at *
      exact slot_core inv x y sa sb a b m q1 q2 q3 hon hoff

theorem ev_fired {ok : EvSt → Time → Time → Time → Prop} {x y : EvSt} (e : EvStep ok x y) (hn : y.next = x.next) :
    ((y.ev.start.state = .fired ↔ x.ev.start.state = .fired) ∧ (y.ev.stop.state = .fired ↔ x.ev.stop.state = .fired)) ∨
    (x.ev.start.state = .fired ∧ x.ev.stop.state = .fired ∧ y.ev.start.state = .unscheduled ∧ y.ev.stop.state = .unscheduled) := by
  have en : ∀ (a : Time) (en : Entry) (t : Time), (entryEnable a en t).1.state = .fired ↔ en.state = .fired := by
    intro a en t
    unfold entryEnable
    split_ifs with h1 h2
    · rfl
    · rfl
    · constructor
      · intro h; cases h
      · intro h; simp [h] at h1
  cases e with
  | repin p q v w => exact .inl ⟨Iff.rfl, Iff.rfl⟩
  | arm a ns np he h =>
      left
      simp only [scheduleCrit]
      split_ifs
      · exact ⟨en _ _ _, en _ _ _⟩
      · exact ⟨Iff.rfl, Iff.rfl⟩
      · exact ⟨en _ _ _, en _ _ _⟩
  | cancel =>
      left
      unfold descheduleCrit entryDisable
      by_cases h : x.ev.start.state = .scheduled
      · by_cases h2 : x.ev.stop.state = .scheduled <;> simp [h, h2]
      · simp [h]
  | reset ev h e =>
      obtain ⟨h1, h2, rfl⟩ := reset_ok e
      exact .inr ⟨h1, h2, rfl, rfl⟩
  | swap a b ha hb =>
      exfalso
      change x.next + 128 = x.next at hn
      bv_omega
  | config ty ang pin inv => exact .inl ⟨Iff.rfl, Iff.rfl⟩

theorem pair_order {n : Nat} {i : Fin n} {p : Fin 16} {s : PortSys n} (h : PortReach orderedTimes i p s)
    (h1 : (s.dma.evs i).start.state = .submitted) (h2 : (s.dma.evs i).stop.state = .submitted) :
    ((s.dma.evs i).start.time - (s.dma.buf s.dma.cur).first).toNat <
      ((s.dma.evs i).stop.time - (s.dma.buf s.dma.cur).first).toNat := by
  have I := dma_reach_inv (port_dma h)
  have a := I.submitted i false h1
  have b := I.submitted i true h2
  obtain ⟨o1, o2⟩ := (pulse_hist (port_hist h)).order (by show (s.dma.evs i).start.state ≠ _; rw [h1]; decide)
  change 0 < ((s.dma.evs i).stop.time - (s.dma.evs i).start.time).toNat at o1
  change ((s.dma.evs i).stop.time - (s.dma.evs i).start.time).toNat < _ at o2
  change ((s.dma.evs i).start.time - _).toNat < _ at a
  change ((s.dma.evs i).stop.time - _).toNat < _ at b
  generalize (s.dma.evs i).start.time = x at *
  generalize (s.dma.evs i).stop.time = y at *
  generalize (s.dma.buf s.dma.cur).first = f at *
  bv_omega

theorem pair_ok {n : Nat} {i : Fin n} {p : Fin 16} {s : PortSys n} (h : PortReach orderedTimes i p s) :
    PairOk (s.dma.buf s.dma.cur).first (s.dma.evs i).start (s.dma.evs i).stop := by
  refine ⟨C12_stop_not_first_partial (port_hist h), pair_order h, ?_⟩
  induction h with
  | start s h => intro hs; rw [show (s.dma.evs i).stop.state = .unscheduled from started_idle h i true] at hs; cases hs
  | @ctl s h d e hb hi hp ho ih =>
      rcases hi with hi | hi
      · show (d.evs i).stop.state = _ → (d.evs i).start.state = _
        rw [hi]; exact ih
      · rcases ev_fired hi (by unfold Dma.view Dma.earliest; rw [hb.1, hb.2]) with ⟨f1, f2⟩ | ⟨_, _, _, f2⟩
        · exact fun hs => f1.mpr (ih (f2.mp hs))
        · intro hs
          change (d.evs i).stop.state = _ at f2
          change (d.evs i).stop.state = _ at hs
          rw [f2] at hs; cases hs
  | @swap s h now hn ih =>
      intro hs
      rcases (C19_fired (port_dma h) now i true).mp hs with hs | ⟨hs, hw⟩
      · exact (C19_fired (port_dma h) now i false).mpr (.inl (ih hs))
      · refine (C19_fired (port_dma h) now i false).mpr ?_
        rcases C12_stop_not_first_partial (port_hist h) (.inl hs) with ha | ha
        · have := pair_order h ha hs
          exact .inr ⟨ha, lt_trans this hw⟩
        · exact .inl ha

theorem level_start {n : Nat} {i : Fin n} {p : Fin 16} {s : PortSys n} (h : PortReach orderedTimes i p s) :
    s.level p = ((s.dma.evs i).inverted ^^
      (decide ((s.dma.evs i).start.state = .fired) && !decide ((s.dma.evs i).stop.state = .fired))) := by
  induction h with
  | start s h hp ho hl =>
      rw [show (s.dma.evs i).start.state = .unscheduled from started_idle h i false, hl]
      simp
  | @ctl s h d e hb hi hp ho ih =>
      show s.level p = ((d.evs i).inverted ^^ (decide ((d.evs i).start.state = .fired) && !decide ((d.evs i).stop.state = .fired)))
      rw [ih, hp.2]
      rcases hi with hi | hi
      · rw [hi]
      · rcases ev_fired hi (by unfold Dma.view Dma.earliest; rw [hb.1, hb.2]) with ⟨f1, f2⟩ | ⟨f1, f2, f3, f4⟩
        · have g1 : (d.evs i).start.state = .fired ↔ (s.dma.evs i).start.state = .fired := f1
          have g2 : (d.evs i).stop.state = .fired ↔ (s.dma.evs i).stop.state = .fired := f2
          rw [decide_eq_decide.mpr g1, decide_eq_decide.mpr g2]
        · change (s.dma.evs i).start.state = _ at f1
          change (s.dma.evs i).stop.state = _ at f2
          change (d.evs i).start.state = _ at f3
          rw [f1, f2, f3]
          simp
  | @swap s h now hn ih =>
      have e1 : ((bufferSwap s.dma now).evs i).start.state = .fired ↔ _ := C19_fired (port_dma h) now i false
      have e2 : ((bufferSwap s.dma now).evs i).stop.state = .fired ↔ _ := C19_fired (port_dma h) now i true
      have inv : ((bufferSwap s.dma now).evs i).inverted = (s.dma.evs i).inverted := by
        rw [(bufferSwap_spec s.dma now).2.2.2.1]; rfl
      show portAfter (s.dma.buf s.dma.cur) s.level numSlots p = (((bufferSwap s.dma now).evs i).inverted ^^
        (decide (((bufferSwap s.dma now).evs i).start.state = .fired) && !decide (((bufferSwap s.dma now).evs i).stop.state = .fired)))
      rw [level_after h (pair_ok h) ih _ le_rfl, inv, decide_eq_decide.mpr e1, decide_eq_decide.mpr e2]
      rfl

/-- C73 in full: for all histories in which the control code asks for pulses, the pin is at its active level exactly while the output
is on. -/
def C73_full : Prop :=
  ∀ (n : Nat) (i : Fin n) (p : Fin 16) (s : PortSys n) (t : Time), PortReach pulseTimes i p s →
    (t - (s.dma.buf s.dma.cur).first).toNat < 128 → (s.at t p = (!(s.dma.evs i).inverted) ↔ s.On i t)

/-- **C73**, for histories in which an ignition reschedule does not put the stop before a start that can no longer be moved. -/
theorem C73_pin_partial {n : Nat} {i : Fin n} {p : Fin 16} {s : PortSys n} (h : PortReach orderedTimes i p s) (t : Time)
    (ht : (t - (s.dma.buf s.dma.cur).first).toNat < 128) : s.at t p = (!(s.dma.evs i).inverted) ↔ s.On i t := by
  unfold PortSys.at PortSys.On Entry.playedBy
  rw [level_after h (pair_ok h) (level_start h) _ (by unfold numSlots; omega)]
  simp only [Nat.lt_succ_iff]
  generalize (s.dma.evs i).inverted = inv
  by_cases h1 : (s.dma.evs i).start.state = .fired ∨ (s.dma.evs i).start.state = .submitted ∧
    ((s.dma.evs i).start.time - (s.dma.buf s.dma.cur).first).toNat ≤ (t - (s.dma.buf s.dma.cur).first).toNat
  · by_cases h2 : (s.dma.evs i).stop.state = .fired ∨ (s.dma.evs i).stop.state = .submitted ∧
      ((s.dma.evs i).stop.time - (s.dma.buf s.dma.cur).first).toNat ≤ (t - (s.dma.buf s.dma.cur).first).toNat
    · rw [decide_eq_true h1, decide_eq_true h2]
      refine iff_of_false ?_ fun h => h.2 h2
      cases inv <;> decide
    · rw [decide_eq_true h1, decide_eq_false h2]
      refine iff_of_true ?_ ⟨h1, h2⟩
      cases inv <;> rfl
  · rw [decide_eq_false h1, Bool.false_and]
    refine iff_of_false ?_ fun h => h1 h.1
    cases inv <;> decide

/-- The control code asks for a pulse, of an injector. -/
def fuelTimes : EvSt → Time → Time → Time → Prop := fun s e ns np => pulseTimes s e ns np ∧ s.ev.type = .fuel

theorem port_mono {n : Nat} {ok ok' : EvSt → Time → Time → Time → Prop} (hk : ∀ s e a b, ok s e a b → ok' s e a b) {i : Fin n}
    {p : Fin 16} {s : PortSys n} (h : PortReach ok i p s) : PortReach ok' i p s := by
  induction h with
  | start s h hp ho hl => exact .start s h hp ho hl
  | ctl h d e hb hi hp ho ih =>
      refine .ctl ih d e hb (hi.imp id fun hi => ?_) hp ho
      generalize Dma.view _ i = x at hi
      generalize Dma.view _ i = y at hi
      cases hi with
      | repin p q v w => exact .repin _ p q v w
      | arm e ns np he h => exact .arm _ e ns np he (hk _ _ _ _ h)
      | cancel => exact .cancel _
      | reset ev h e => exact .reset _ ev h e
      | swap a b ha hb => exact .swap _ a b ha hb
      | config ty ang pin inv => exact .config _ ty ang pin inv
  | swap h now hn ih => exact .swap ih now hn

/-- **C73 for injectors**: no condition but that pulses are asked for. -/
theorem C73_fuel {n : Nat} {i : Fin n} {p : Fin 16} {s : PortSys n} (h : PortReach fuelTimes i p s) (t : Time)
    (ht : (t - (s.dma.buf s.dma.cur).first).toNat < 128) : s.at t p = (!(s.dma.evs i).inverted) ↔ s.On i t :=
  C73_pin_partial (port_mono (fun _ _ _ _ h => ⟨h.1, fun hne => absurd h.2 hne⟩) h) t ht

/-- **C73**: an injector with nothing committed rests at its inactive level. -/
theorem C73_rest {n : Nat} {i : Fin n} {p : Fin 16} {s : PortSys n} (h : PortReach fuelTimes i p s) (t : Time)
    (ht : (t - (s.dma.buf s.dma.cur).first).toNat < 128)
    (hs : (s.dma.evs i).start.state = .unscheduled ∨ (s.dma.evs i).start.state = .scheduled) :
    s.at t p = (s.dma.evs i).inverted := by
  have := C73_fuel h t ht
  have hoff : ¬ s.On i t := by
    rintro ⟨h1 | ⟨h1, _⟩, _⟩ <;> rcases hs with hs | hs <;> rw [h1] at hs <;> cases hs
  have h2 := fun e => hoff (this.mp e)
  revert h2
  cases s.at t p <;> cases (s.dma.evs i).inverted <;> simp

/-! #### The levels at power-up -/

theorem boot_level {n : Nat} (evs : Fin n → OEvent) (p : Fin 16) :
    bootLevels evs p = true ↔ ∃ i, (evs i).inverted = true ∧ (evs i).type ≠ .disabled ∧ (evs i).pin.toNat = p := by
  have key : ∀ (l : List (Fin n)) (f : Pins), (l.foldl (fun (l : Pins) i p =>
      if (evs i).inverted && decide ((evs i).type ≠ .disabled) && decide ((evs i).pin.toNat = p) then true else l p) f) p = true ↔
      f p = true ∨ ∃ i ∈ l, (evs i).inverted = true ∧ (evs i).type ≠ .disabled ∧ (evs i).pin.toNat = p := by
    intro l
    induction l with
    | nil => intro f; simp
    | cons a l ih =>
        intro f
        rw [List.foldl_cons, ih]
        simp only [List.mem_cons, exists_eq_or_imp, ← or_assoc]
        refine or_congr ?_ Iff.rfl
        by_cases h : ((evs a).inverted && decide ((evs a).type ≠ .disabled) && decide ((evs a).pin.toNat = p)) = true
        · rw [if_pos h]
          simp only [Bool.and_eq_true, decide_eq_true_eq] at h
          simp [h.1.1, h.1.2, h.2]
        · rw [if_neg h]
          simp only [Bool.and_eq_true, decide_eq_true_eq, not_and] at h
          constructor
          · exact .inl
          · rintro (h1 | ⟨h1, h2, h3⟩)
            · exact h1
            · exact absurd h3 (h ⟨h1, h2⟩)
  unfold bootLevels
  rw [key]
  simp

/-- Power-up. -/
def PortSys.boot {n : Nat} (evs : Fin n → OEvent) : PortSys n := { dma := .boot evs, level := bootLevels evs }

theorem empty_play (b : OutBuf) (l : Pins) (h : ∀ k p v, ¬ bitOf b.slots k p v = true) (m : Nat) : portAfter b l m = l := by
  induction m with
  | zero => rfl
  | succ m ih =>
      unfold portAfter
      split_ifs with hm
      · rw [ih]
        funext p
        unfold playSlot
        have h1 := h ⟨m, hm⟩ p true
        have h2 := h ⟨m, hm⟩ p false
        unfold bitOf at h1 h2
        rw [if_pos rfl] at h1
        rw [if_neg (by decide)] at h2
        rw [if_neg h1, if_neg h2]
      · exact ih

/-- **C73 from power-up**: an enabled output that is alone on its pin is at its inactive level before and after the first two swaps. -/
theorem C73_boot {n : Nat} (ok : EvSt → Time → Time → Time → Prop) (evs : Fin n → OEvent) (i : Fin n) (p : Fin 16) (now1 now2 : Time)
    (hu : ∀ j w, ((evs j).edge w).state = .unscheduled) (hen : (evs i).type ≠ .disabled) (hp : (evs i).pin.toNat = p)
    (ho : ∀ j, j ≠ i → (evs j).pinNo ≠ p) (h1 : 128 ≤ now1.toNat ∧ now1.toNat < 256) (h2 : 256 ≤ now2.toNat ∧ now2.toNat < 384) :
    bootLevels evs p = (evs i).inverted ∧ PortReach ok i p (((PortSys.boot evs).swap now1).swap now2) := by
  have hl : bootLevels evs p = (evs i).inverted := by
    cases hi : (evs i).inverted
    · rw [← Bool.not_eq_true, boot_level]
      rintro ⟨j, hj, _, hj2⟩
      rcases eq_or_ne j i with rfl | hne
      · rw [hi] at hj; cases hj
      · refine ho j hne ?_
        have := p.isLt
        unfold OEvent.pinNo
        rw [BitVec.toNat_setWidth, hj2]
        omega
    · exact (boot_level evs p).mpr ⟨i, hi, hen, hp⟩
  have hst : Started (bufferSwap (bufferSwap (Dma.boot evs) now1) now2) := ⟨evs, now1, now2, hu, h1.1, h1.2, h2.1, h2.2, rfl⟩
  have sp := fun (d : Dma n) now => (bufferSwap_spec d now)
  have keep : ∀ (d : Dma n) now j, ((bufferSwap d now).evs j).pin = (d.evs j).pin ∧
      ((bufferSwap d now).evs j).inverted = (d.evs j).inverted := by
    intro d now j; rw [(sp d now).2.2.2.1]; exact ⟨rfl, rfl⟩
  refine ⟨hl, .start _ hst ?_ ?_ ?_⟩
  · show ((bufferSwap (bufferSwap (Dma.boot evs) now1) now2).evs i).pinNo = p
    unfold OEvent.pinNo
    rw [(keep _ _ _).1, (keep _ _ _).1]
    show ((evs i).pin.setWidth 8).toNat = p
    have := p.isLt
    rw [BitVec.toNat_setWidth, hp]
    omega
  · intro j hj
    show ((bufferSwap (bufferSwap (Dma.boot evs) now1) now2).evs j).pinNo ≠ p
    unfold OEvent.pinNo
    rw [(keep _ _ _).1, (keep _ _ _).1]
    exact ho j hj
  · show portAfter ((bufferSwap (Dma.boot evs) now1).buf (bufferSwap (Dma.boot evs) now1).cur)
      (portAfter ((Dma.boot evs).buf (Dma.boot evs).cur) (bootLevels evs) numSlots) numSlots p =
        ((bufferSwap (bufferSwap (Dma.boot evs) now1) now2).evs i).inverted
    rw [(keep _ _ _).2, (keep _ _ _).2]
    show _ = (evs i).inverted
    have zero : ∀ b k p v, ¬ bitOf ((Dma.boot evs).buf b).slots k p v = true := by
      intro b k p v; simp [bitOf, Dma.boot]
    rw [empty_play, empty_play _ _ (zero _), hl]
    rw [(sp _ _).1, (sp _ _).2.1]
    exact zero _

/-! #### A run, and the disagreements -/

theorem set_self {n : Nat} (d : Dma n) (i : Fin n) (ev : OEvent) : (d.set i ev).evs i = ev := by
  unfold Dma.set setEv; simp

theorem set_other {n : Nat} (d : Dma n) {i j : Fin n} (ev : OEvent) (h : j ≠ i) : (d.set i ev).evs j = d.evs j := by
  unfold Dma.set setEv; simp [h]

theorem set_view {n : Nat} (d : Dma n) (i : Fin n) (ev : OEvent) : (d.set i ev).view i = { d.view i with ev := ev } := by
  unfold Dma.view
  rw [set_self]
  rfl

/-- The output's pins are written and it is armed for a pulse. -/
theorem port_arm {n : Nat} {ok : EvSt → Time → Time → Time → Prop} {i : Fin n} {p : Fin 16} {s : PortSys n}
    (h : PortReach ok i p s) (ns np : Time)
    (hok : ok { s.dma.view i with ev := setPins (s.dma.evs i) } s.dma.earliest ns np) :
    PortReach ok i p { s with dma := s.dma.set i (scheduleCrit s.dma.earliest (setPins (s.dma.evs i)) ns np) } := by
  have hp := port_pins h
  have h1 : PortReach ok i p { s with dma := s.dma.set i (setPins (s.dma.evs i)) } := by
    refine .ctl h _ (.repin _ i) ⟨rfl, rfl⟩ (.inr ?_) ?_ ?_
    · rw [set_view]; exact .repin _ _ _ _ _
    · rw [set_self]; exact ⟨rfl, rfl⟩
    · intro j hj; rw [set_other _ _ hj]; exact hp.2 j hj
  have e : ({ s with dma := s.dma.set i (scheduleCrit s.dma.earliest (setPins (s.dma.evs i)) ns np) } : PortSys n) =
      { s with dma := Dma.set (s.dma.set i (setPins (s.dma.evs i))) i (scheduleCrit (s.dma.set i (setPins (s.dma.evs i))).earliest ((s.dma.set i (setPins (s.dma.evs i))).evs i) ns np) } := by
    rw [set_self]
    unfold Dma.set Dma.earliest setEv
    congr 2
    funext j
    by_cases hj : j = i <;> simp [hj]
  rw [e]
  refine .ctl h1 _ (.arm _ i ns np ?_) ⟨rfl, rfl⟩ (.inr ?_) ?_ ?_
  · show PinsSet ((s.dma.set i (setPins (s.dma.evs i))).evs i)
    rw [set_self]; rfl
  · rw [set_view (s.dma.set i (setPins (s.dma.evs i)))]
    refine .arm ((s.dma.set i (setPins (s.dma.evs i))).view i) _ ns np ?_ ?_
    · show ((s.dma.set i (setPins (s.dma.evs i))).earliest - (s.dma.set i (setPins (s.dma.evs i))).earliest : Time).toNat ≤ _
      rw [BitVec.sub_self]; decide
    · show ok ((s.dma.set i (setPins (s.dma.evs i))).view i) _ ns np
      rw [set_view]; exact hok
  · rw [set_self]
    show (scheduleCrit _ _ ns np).pin = ((s.dma.set i (setPins (s.dma.evs i))).evs i).pin ∧
      (scheduleCrit _ _ ns np).inverted = ((s.dma.set i (setPins (s.dma.evs i))).evs i).inverted
    unfold scheduleCrit
    split_ifs <;> exact ⟨rfl, rfl⟩
  · intro j hj
    rw [set_other _ _ hj]
    show ((s.dma.set i (setPins (s.dma.evs i))).evs j).pinNo ≠ p
    rw [set_other _ _ hj]; exact hp.2 j hj

/-- An output on pin 1. -/
def pinEv (ty : EvType) : OEvent :=
  { type := ty, angle := Fl.fin 0, pin := 1, inverted := false, start := Entry.init, stop := Entry.init }

/-- Power-up and the first two swaps. -/
def pin0 (ty : EvType) : PortSys 1 := ((PortSys.boot fun _ => pinEv ty).swap 200).swap 300

/-- A pulse is asked for. -/
def PortSys.ask (s : PortSys 1) (ns np : Time) : PortSys 1 :=
  { s with dma := s.dma.set 0 (scheduleCrit s.dma.earliest (setPins (s.dma.evs 0)) ns np) }

theorem pin0_reach (ok : EvSt → Time → Time → Time → Prop) (ty : EvType) (hty : ty ≠ .disabled) : PortReach ok 0 1 (pin0 ty) :=
  (C73_boot ok (fun _ => pinEv ty) 0 1 200 300 (by intro j w; cases w <;> rfl) hty rfl
    (fun j hj => absurd (Subsingleton.elim j 0) hj) (by decide) (by decide)).2

/-- A pulse from tick 600 to tick 700 is asked for, and played: the pin is high from tick 600 on. -/
example : ∃ s : PortSys 1, PortReach fuelTimes 0 1 s ∧ (s.dma.buf s.dma.cur).first = 512 ∧ s.at 599 1 = false ∧ s.at 600 1 = true := by
  refine ⟨(((pin0 .fuel).ask 600 700).swap 400).swap 520, .swap (.swap (port_arm (pin0_reach _ _ (by decide)) 600 700 ?_) 400 ?_) 520 ?_,
    ?_, ?_, ?_⟩
  · unfold fuelTimes pulseTimes; decide +kernel
  all_goals decide +kernel

/-- C73 fails for ignition: the coil's start is at tick 600; an update asks for a spark at tick 520, which the start is too late for.
The stop is moved before the start, and the pin stays active, with the output off. -/
theorem C73_full_false : ¬ C73_full := by
  intro h
  have h0 := port_arm (ok := pulseTimes) (pin0_reach _ .ignition (by decide)) 600 700 (by unfold pulseTimes; decide +kernel)
  have h1 := port_arm h0 500 520 (by unfold pulseTimes; decide +kernel)
  have h2 := PortReach.swap h1 400 (by decide +kernel)
  have h3 := PortReach.swap h2 520 (by decide +kernel)
  have h4 := (h 1 0 1 _ 639 h3 (by decide +kernel)).mp (by decide +kernel)
  obtain ⟨_, h6⟩ := h4
  apply h6
  exact .inr (by decide +kernel)

/-- The run of `C73_full_false`, one window later. -/
def coilOn : PortSys 1 := (((((pin0 .ignition).ask 600 700).ask 500 520).swap 400).swap 520).swap 650

/-- And it stays so: both edges are reported fired and the coil is on throughout the next window. -/
theorem C73_coil_left_on : PortReach pulseTimes 0 1 coilOn ∧ eventHasFired (coilOn.dma.evs 0) = true ∧
    ∀ t : Time, (t - (coilOn.dma.buf coilOn.dma.cur).first).toNat < 128 → coilOn.at t 1 = true := by
  refine ⟨.swap (.swap (.swap (port_arm (s := (pin0 .ignition).ask 600 700)
    (port_arm (pin0_reach _ .ignition (by decide)) 600 700 ?_) 500 520 ?_) 400 ?_) 520 ?_) 650 ?_, ?_, ?_⟩
  · unfold pulseTimes; decide +kernel
  · unfold pulseTimes; decide +kernel
  · decide +kernel
  · decide +kernel
  · decide +kernel
  · decide +kernel
  · intro t ht
    have key : ∀ m : Fin 129, portAfter (coilOn.dma.buf coilOn.dma.cur) coilOn.level m 1 = true := by decide +kernel
    exact key ⟨(t - (coilOn.dma.buf coilOn.dma.cur).first).toNat + 1, Nat.succ_lt_succ ht⟩

/-- The polarity of a resting output is changed from the console: its pin is left at what is now the active level. -/
theorem C73_polarity : ∃ s : PortSys 1, PortReach fuelTimes 0 1 s ∧ eventIsUnscheduled (s.dma.evs 0) = true ∧
    DmaStep s.dma (s.dma.set 0 { s.dma.evs 0 with pin := 1, inverted := true }) ∧
    ∀ t : Time, (t - (s.dma.buf s.dma.cur).first).toNat < 128 →
      ({ s with dma := s.dma.set 0 { s.dma.evs 0 with pin := 1, inverted := true } } : PortSys 1).at t 1 = false := by
  refine ⟨pin0 .fuel, pin0_reach _ _ (by decide), by decide +kernel, .reconf _ 0 1 true (by decide +kernel), ?_⟩
  intro t ht
  have key : ∀ m : Fin 129, portAfter ((pin0 .fuel).dma.buf (pin0 .fuel).dma.cur) (pin0 .fuel).level m 1 = false := by decide +kernel
  exact key ⟨(t - ((pin0 .fuel).dma.buf (pin0 .fuel).dma.cur).first).toNat + 1, Nat.succ_lt_succ ht⟩

/-! ### C74 -/

/-- What the port would be if only the DMA wrote to it. -/
def onlyDma (l : Pins) : List PortAct → Pins
  | [] => l
  | .dma w :: as => onlyDma (playSlot l w) as
  | .cpu :: as => onlyDma l as

/-- C74 in full, for a `set_output`: however the DMA's writes fall among its accesses, every other pin is as the DMA leaves it. -/
def C74_full (f : Fin 16 → Bool → Pins × SetPc → PortAct → Pins × SetPc) : Prop :=
  ∀ (out : Fin 16) (v : Bool) (l : Pins) (as : List PortAct) (p : Fin 16), p ≠ out →
    (as.foldl (f out v) (l, .load)).1 p = onlyDma l as p

theorem play_congr {l l' : Pins} {p : Fin 16} (h : l p = l' p) (w : Slot) : playSlot l w p = playSlot l' w p := by
  unfold playSlot; rw [h]

theorem onlyDma_congr {l l' : Pins} {p : Fin 16} (h : l p = l' p) (as : List PortAct) : onlyDma l as p = onlyDma l' as p := by
  induction as generalizing l l' with
  | nil => exact h
  | cons a as ih =>
      cases a with
      | dma w => exact ih (play_congr h w)
      | cpu => exact ih h

/-- **C74 on the stm32.** -/
theorem C74_stm32 : C74_full stSetOutput := by
  intro out v l as p hp
  suffices key : ∀ (pc : SetPc) (l : Pins), (as.foldl (stSetOutput out v) (l, pc)).1 p = onlyDma l as p from key .load l
  induction as with
  | nil => intro pc l; rfl
  | cons a as ih =>
      intro pc l
      rw [List.foldl_cons]
      cases a with
      | dma w => exact ih pc _
      | cpu =>
          cases pc with
          | load =>
              show (as.foldl (stSetOutput out v) (playSlot l _, .done)).1 p = onlyDma l as p
              rw [ih]
              apply onlyDma_congr
              have hm : ∀ q : Fin 16, q ≠ out → (1#16 <<< out.val).getLsbD q = false := by
                intro q hq
                rw [BitVec.getLsbD_shiftLeft]
                have : (q : Nat) ≠ out := fun e => hq (Fin.ext e)
                rcases lt_or_ge (q : Nat) out.val with h | h
                · simp [h]
                · rw [BitVec.getLsbD_one]; simp; omega
              have h0 : (0#16).getLsbD p = false := BitVec.getLsbD_zero
              have h1 := hm p hp
              cases v
              · show (if (0#16).getLsbD p = true then true else if (1#16 <<< out.val).getLsbD p = true then false else l p) = l p
                rw [h0, h1]; rfl
              · show (if (1#16 <<< out.val).getLsbD p = true then true else if (0#16).getLsbD p = true then false else l p) = l p
                rw [h0, h1]; rfl
          | store r => exact ih .done l
          | done => exact ih .done l

/-- The requested pin itself is switched, whatever the DMA did before. -/
theorem C74_stm32_own (out : Fin 16) (v : Bool) (l : Pins) : (stSetOutput out v (l, .load) .cpu).1 out = v := by
  have hm : (1#16 <<< out.val).getLsbD out = true := by
    rw [BitVec.getLsbD_shiftLeft]; simp
  unfold stSetOutput playSlot
  cases v
  · show (if (0 : BitVec 16).getLsbD out = true then true else if (1#16 <<< out.val).getLsbD out = true then false else l out) = false
    rw [if_neg (by simp), if_pos hm]
  · show (if (1#16 <<< out.val).getLsbD out = true then true else _) = true
    rw [if_pos hm]

/-- **C74 on the gd32, the part that holds**: when the DMA writes nothing between the load and the store. -/
theorem C74_gd32_partial (out : Fin 16) (v : Bool) (l : Pins) (ws ws' : List Slot) (p : Fin 16) :
    (((ws.map PortAct.dma) ++ .cpu :: .cpu :: (ws'.map PortAct.dma)).foldl (gdSetOutput out v) (l, .load)).1 p =
      ws'.foldl playSlot (fun q => if q = out then v else ws.foldl playSlot l q) p := by
  have dm : ∀ (ws : List Slot) (l : Pins) (pc : SetPc), (ws.map PortAct.dma).foldl (gdSetOutput out v) (l, pc) = (ws.foldl playSlot l, pc) := by
    intro ws
    induction ws with
    | nil => intro l pc; rfl
    | cons w ws ih => intro l pc; exact ih _ _
  rw [List.foldl_append, dm]
  show ((ws'.map PortAct.dma).foldl (gdSetOutput out v) ((fun q => if q = out then v else ws.foldl playSlot l q), .done)).1 p = _
  rw [dm]

/-- C74 fails on the gd32: the DMA closes an injector (pin 3) between the load and the store, and the store opens it again. -/
theorem C74_gd32_full_false : ¬ C74_full gdSetOutput := by
  intro h
  have := h 5 false (fun p => decide (p = 3)) [.cpu, .dma ⟨0, 8⟩, .cpu] 3 (by decide)
  revert this
  decide

end Verif
