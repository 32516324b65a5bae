/-
C81: while the configuration is written to the flash the outputs are off.
-/
import Verif.Model.Halt
import Verif.Props.Port
import Verif.Props.Tasks

namespace Verif

/-- The slots of the window being played that follow tick `t`. -/
def PortSys.slotsAfter {n : Nat} (s : PortSys n) (t : Time) : List Slot :=
  (List.ofFn (s.dma.buf s.dma.cur).slots).drop ((t - (s.dma.buf s.dma.cur).first).toNat + 1)

/-- The levels after tick `t`. -/
def PortSys.pinsAt {n : Nat} (s : PortSys n) (t : Time) : Pins := fun p => s.at t p

/-- C81 in full: the shutdown is begun after tick `t`, and is done within the window being played; then the pin of every enabled
output is at its inactive level. -/
def C81_full : Prop :=
  ∀ (n : Nat) (i : Fin n) (p : Fin 16) (s : PortSys n) (t : Time) (as : List PortAct), PortReach orderedTimes i p s →
    (t - (s.dma.buf s.dma.cur).first).toNat < 128 → (s.dma.evs i).type ≠ .disabled →
    dmaWords as <+: s.slotsAfter t → (haltRun s.dma.evs (s.pinsAt t) as).2.outs = [] →
    (haltRun s.dma.evs (s.pinsAt t) as).1 p = (s.dma.evs i).inverted

/-- The word does not switch pin `p` away from level `v`. -/
def Slot.Keeps (w : Slot) (p : Fin 16) (v : Bool) : Prop := ∀ l : Pins, l p = v → playSlot l w p = v

/-- What holds during the shutdown for a pin that is to be switched to `v`. -/
structure HaltInv (p : Fin 16) (v : Bool) (x : Pins × HaltPc) : Prop where
  same : ∀ w, (p, w) ∈ x.2.outs → w = v
  fresh : x.2.pc ≠ .done
  going : ∀ r, x.2.pc = .store r → (∃ w outs, x.2.outs = (p, w) :: outs) → r p = v
  done : (¬ ∃ w, (p, w) ∈ x.2.outs) → x.1 p = v ∧ ∀ r, x.2.pc = .store r → r p = v

theorem halt_inv {p : Fin 16} {v : Bool} {x : Pins × HaltPc} (h : HaltInv p v x) (a : PortAct)
    (ha : ∀ w, a = .dma w → w.Keeps p v) : HaltInv p v (haltStep x a) := by
  obtain ⟨l, outs, pc⟩ := x
  obtain ⟨h1, h2, h3, h4⟩ := h
  cases a with
  | dma w => exact ⟨h1, h2, h3, fun hn => ⟨ha w rfl l (h4 hn).1, (h4 hn).2⟩⟩
  | cpu =>
      cases outs with
      | nil => exact ⟨h1, h2, h3, h4⟩
      | cons o outs =>
          obtain ⟨o, u⟩ := o
          cases pc with
          | done => exact absurd rfl h2
          | load =>
              refine ⟨h1, (fun h => nomatch h), fun r hr ho => ?_, fun hn => ⟨(h4 hn).1, fun r hr => ?_⟩⟩
              · cases hr
                obtain ⟨w, outs', ho⟩ := ho
                cases ho
                show (if p = p then _ else _) = v
                rw [if_pos rfl]
                exact h1 _ (List.mem_cons_self ..)
              · cases hr
                have hne : p ≠ o := by
                  rintro rfl
                  exact hn ⟨u, List.mem_cons_self ..⟩
                show (if p = o then _ else _) = v
                rw [if_neg hne]
                exact (h4 hn).1
          | store r =>
              refine ⟨fun w hw => h1 w (List.mem_cons_of_mem _ hw), (fun h => nomatch h), fun r hr => (nomatch hr), fun hn => ⟨?_, fun r hr => (nomatch hr)⟩⟩
              show r p = v
              by_cases hp : o = p
              · subst hp
                exact h3 r rfl ⟨u, outs, rfl⟩
              · refine (h4 ?_).2 r rfl
                rintro ⟨w, hw⟩
                rcases List.mem_cons.mp hw with e | e
                · cases e; exact hp rfl
                · exact hn ⟨w, e⟩

theorem halt_invs {p : Fin 16} {v : Bool} (as : List PortAct) (ha : ∀ w ∈ dmaWords as, w.Keeps p v) {x : Pins × HaltPc}
    (h : HaltInv p v x) : HaltInv p v (as.foldl haltStep x) := by
  induction as generalizing x with
  | nil => exact h
  | cons a as ih =>
      rw [List.foldl_cons]
      refine ih (fun w hw => ha w ?_) (halt_inv h a fun w hw => ha w ?_)
      · cases a
        · exact List.mem_cons_of_mem _ hw
        · exact hw
      · subst hw; exact List.mem_cons_self ..

theorem mem_fuelOuts {n : Nat} {evs : Fin n → OEvent} {p : Fin 16} {v : Bool} :
    (p, v) ∈ fuelOuts evs ↔ ∃ i, (evs i).type = .fuel ∧ (evs i).pin.toNat = p ∧ (evs i).inverted = v := by
  unfold fuelOuts
  simp only [List.mem_filterMap, List.mem_finRange, true_and]
  constructor
  · rintro ⟨i, hi⟩
    split_ifs at hi with h
    cases hi
    exact ⟨i, h.1, rfl, rfl⟩
  · rintro ⟨i, h1, h2, h3⟩
    refine ⟨i, ?_⟩
    rw [dif_pos ⟨h1, h2 ▸ p.isLt⟩, h3]
    congr 2
    exact Fin.ext h2

theorem slotsAfter_mem {n : Nat} {s : PortSys n} {t : Time} {w : Slot} (h : w ∈ s.slotsAfter t) :
    ∃ k : Fin numSlots, (t - (s.dma.buf s.dma.cur).first).toNat < k ∧ w = (s.dma.buf s.dma.cur).slots k := by
  unfold PortSys.slotsAfter at h
  obtain ⟨j, hj, he⟩ := List.getElem_of_mem h
  rw [List.getElem_drop, List.getElem_ofFn] at he
  refine ⟨_, ?_, he.symm⟩
  show _ < _ + 1 + j
  omega

/-- The injector's own words keep it closed, unless its start is among them. -/
theorem own_keeps {n : Nat} {ok : EvSt → Time → Time → Time → Prop} {i : Fin n} {p : Fin 16} {s : PortSys n} (h : PortReach ok i p s)
    {t : Time} (hs : (s.dma.evs i).start.state = .submitted → ((s.dma.evs i).start.time - (s.dma.buf s.dma.cur).first).toNat ≤
      (t - (s.dma.buf s.dma.cur).first).toNat) {w : Slot} (hw : w ∈ s.slotsAfter t) : w.Keeps p (s.dma.evs i).inverted := by
  obtain ⟨k, hk, rfl⟩ := slotsAfter_mem hw
  have hb := own_bits h k (!(s.dma.evs i).inverted)
  have no : bitOf (s.dma.buf s.dma.cur).slots k p (!(s.dma.evs i).inverted) ≠ true := by
    rw [Ne, hb]
    rintro (⟨h1, h2, -⟩ | ⟨-, -, h3⟩)
    · have := hs h1; omega
    · cases hi : (s.dma.evs i).inverted <;> rw [hi] at h3 <;> cases h3
  intro l hl
  unfold playSlot
  unfold bitOf at no
  cases hi : (s.dma.evs i).inverted <;> rw [hi] at no hl
  · simp only [Bool.not_false, if_true] at no
    rw [if_neg no]
    split_ifs
    · rfl
    · exact hl
  · simp only [Bool.not_true, Bool.false_eq_true, if_false] at no
    split_ifs <;> first | rfl | exact hl

/-- **C81 for injectors**: an injector alone on its pin, whose start is not among the edges that the DMA is still to play in this window,
is closed when the flash is written, whether or not it was open, and wherever the DMA's writes fall. -/
theorem C81_injector_partial {n : Nat} {ok : EvSt → Time → Time → Time → Prop} {i : Fin n} {p : Fin 16} {s : PortSys n} {t : Time}
    {as : List PortAct} (h : PortReach ok i p s) (hty : (s.dma.evs i).type = .fuel) (hpin : (s.dma.evs i).pin.toNat = p)
    (hs : (s.dma.evs i).start.state = .submitted → ((s.dma.evs i).start.time - (s.dma.buf s.dma.cur).first).toNat ≤
      (t - (s.dma.buf s.dma.cur).first).toNat)
    (hd : dmaWords as <+: s.slotsAfter t) (he : (haltRun s.dma.evs (s.pinsAt t) as).2.outs = []) :
    (haltRun s.dma.evs (s.pinsAt t) as).1 p = (s.dma.evs i).inverted := by
  have ho := (port_pins h).2
  have key : HaltInv p (s.dma.evs i).inverted (haltRun s.dma.evs (s.pinsAt t) as) := by
    refine halt_invs as (fun w hw => own_keeps h hs (hd.subset hw)) ⟨fun w hw => ?_, (fun h => nomatch h), fun r hr => (nomatch hr), fun hn => ?_⟩
    · obtain ⟨j, -, h2, h3⟩ := mem_fuelOuts.mp hw
      have : j = i := by
        by_contra hne
        refine ho j hne ?_
        unfold OEvent.pinNo
        have := p.isLt
        rw [BitVec.toNat_setWidth, h2]
        omega
      rw [← h3, this]
    · exact absurd ⟨_, mem_fuelOuts.mpr ⟨i, hty, hpin, rfl⟩⟩ hn
  exact (key.done (by rw [he]; simp)).1

/-- No access of the shutdown is to pin `p`, and the DMA does not write to it. -/
theorem halt_kept {n : Nat} {evs : Fin n → OEvent} {p : Fin 16} {l : Pins} {as : List PortAct} (hp : ∀ v, (p, v) ∉ fuelOuts evs)
    (hd : ∀ w ∈ dmaWords as, w.on.getLsbD p = false ∧ w.off.getLsbD p = false) : (haltRun evs l as).1 p = l p := by
  have key : HaltInv p (l p) (haltRun evs l as) := by
    refine halt_invs as (fun w hw l' hl' => ?_) ⟨fun w hw => absurd hw (hp w), (fun h => nomatch h), fun r hr => (nomatch hr),
      fun _ => ⟨rfl, fun r hr => (nomatch hr)⟩⟩
    unfold playSlot
    rw [(hd w hw).1, (hd w hw).2]
    exact hl'
  refine (key.done ?_).1
  rintro ⟨w, hw⟩
  exact hp w (by
    have : ∀ (as : List PortAct) (x : Pins × HaltPc), ∀ q ∈ (as.foldl haltStep x).2.outs, q ∈ x.2.outs := by
      intro as
      induction as with
      | nil => intro x q hq; exact hq
      | cons a as ih =>
          intro x q hq
          have h1 := ih _ q hq
          obtain ⟨l, outs, pc⟩ := x
          cases a with
          | dma w => exact h1
          | cpu =>
              cases outs with
              | nil => exact h1
              | cons o outs =>
                  cases pc with
                  | done => exact List.mem_cons_of_mem _ h1
                  | load => exact h1
                  | store r => exact List.mem_cons_of_mem _ h1
    exact this as _ _ hw)

/-- **C81 is violated by every charging coil**: a coil that is on when the shutdown begins, and whose stop is not among the edges that the
DMA is still to play in this window, is on when the flash is written: its stop is not played any more. -/
theorem C81_coil_on {n : Nat} {i : Fin n} {p : Fin 16} {s : PortSys n} {t : Time} {as : List PortAct} (h : PortReach orderedTimes i p s)
    (hty : (s.dma.evs i).type ≠ .fuel) (ht : (t - (s.dma.buf s.dma.cur).first).toNat < 128) (hon : s.On i t)
    (hs : (s.dma.evs i).stop.state = .submitted → 128 ≤ ((s.dma.evs i).stop.time - (s.dma.buf s.dma.cur).first).toNat)
    (hd : dmaWords as <+: s.slotsAfter t) : (haltRun s.dma.evs (s.pinsAt t) as).1 p = !(s.dma.evs i).inverted := by
  have ho := (port_pins h).2
  rw [halt_kept (fun v hv => ?_) (fun w hw => ?_)]
  · exact (C73_pin_partial h t ht).mpr hon
  · obtain ⟨j, h1, h2, -⟩ := mem_fuelOuts.mp hv
    have : j = i := by
      by_contra hne
      refine ho j hne ?_
      unfold OEvent.pinNo
      have := p.isLt
      rw [BitVec.toNat_setWidth, h2]
      omega
    exact hty (this ▸ h1)
  · obtain ⟨k, hk, rfl⟩ := slotsAfter_mem (hd.subset hw)
    have no : ∀ v, bitOf (s.dma.buf s.dma.cur).slots k p v ≠ true := by
      intro v
      rw [Ne, own_bits h k v]
      rintro (⟨h1, h2, -⟩ | ⟨h1, h2, -⟩)
      · rcases hon.1 with h3 | ⟨-, h3⟩
        · rw [h1] at h3; cases h3
        · omega
      · have := hs h1
        have := k.isLt
        unfold numSlots at this
        omega
    have n1 := no true
    have n2 := no false
    unfold bitOf at n1 n2
    rw [if_pos rfl] at n1
    rw [if_neg (by decide)] at n2
    exact ⟨Bool.eq_false_iff.mpr n1, Bool.eq_false_iff.mpr n2⟩

/-- A coil that charges from tick 600 to tick 700, in the window from tick 512 on. -/
def chargingCoil : PortSys 1 := (((pin0 .ignition).ask 600 700).swap 400).swap 520

theorem chargingCoil_reach : PortReach orderedTimes 0 1 chargingCoil :=
  .swap (.swap (port_arm (pin0_reach _ .ignition (by decide)) 600 700 (by unfold orderedTimes pulseTimes; decide +kernel)) 400
    (by decide +kernel)) 520 (by decide +kernel)

/-- C81 is false: the configuration is saved at tick 620, and the coil stays on. -/
theorem C81_full_false : ¬ C81_full := by
  intro h
  have := h 1 0 1 chargingCoil 620 [] chargingCoil_reach (by decide +kernel) (by decide +kernel) (List.nil_prefix) (by decide +kernel)
  revert this
  decide +kernel

/-- The hypotheses of `C81_coil_on` are met. -/
example : ∀ as, dmaWords as <+: chargingCoil.slotsAfter 620 →
    (haltRun chargingCoil.dma.evs (chargingCoil.pinsAt 620) as).1 1 = true := fun as hd =>
  C81_coil_on (i := 0) chargingCoil_reach (by decide +kernel) (by decide +kernel)
    ⟨.inr (by decide +kernel), by unfold Entry.playedBy; decide +kernel⟩ (fun _ => by decide +kernel) hd

/-- An injector open from tick 600 on. -/
def openInjector : PortSys 1 := (((pin0 .fuel).ask 600 700).swap 400).swap 520

/-- It is open at tick 620 and closed by the shutdown, while the DMA goes on. -/
example : openInjector.at 620 1 = true ∧ ∀ w1 w2 w3, [w1, w2, w3] <+: openInjector.slotsAfter 620 →
    (haltRun openInjector.dma.evs (openInjector.pinsAt 620) [.dma w1, .cpu, .dma w2, .cpu, .dma w3]).1 1 = false := by
  refine ⟨by decide +kernel, fun w1 w2 w3 hd => ?_⟩
  exact C81_injector_partial (i := 0) (ok := fuelTimes) (.swap (.swap (port_arm (pin0_reach _ .fuel (by decide)) 600 700 (by
    unfold fuelTimes pulseTimes; decide +kernel)) 400 (by decide +kernel)) 520 (by decide +kernel)) (by decide +kernel)
    (by decide +kernel) (fun _ => by decide +kernel) hd (by rfl)

/-- The calls are those of the emergency shutdown (C30). -/
theorem C81_calls {pump : BitVec 32} {evs evs' : Fin maxEvents → OEvent} {ws : List OutWrite}
    (h : emergencyShutdown pump evs = .ok (evs', ws)) (p : Fin 16) (v : Bool) :
    (p, v) ∈ fuelOuts evs ↔ ∃ x : BitVec 32, x.toNat = p ∧ OutWrite.output x v ∈ ws := by
  unfold emergencyShutdown at h
  obtain ⟨e, he, h⟩ := bind_eq_ok.mp h
  obtain ⟨rfl, rfl⟩ := Prod.mk.inj (Except.ok.inj h)
  rw [mem_fuelOuts]
  have ty := fun i => (C17_invalidate he i).2.2
  have pn := fun i => invalidate_pin he i
  simp only [List.mem_cons, List.mem_map, List.mem_filter, decide_eq_true_iff, reduceCtorEq, false_or, List.mem_finRange, true_and,
    OutWrite.output.injEq]
  constructor
  · rintro ⟨i, h1, h2, h3⟩
    exact ⟨(evs i).pin, h2, i, by rw [ty]; exact h1, (pn i).1, (pn i).2.trans h3⟩
  · rintro ⟨x, h1, i, h2, h3, h4⟩
    exact ⟨i, by rw [← ty]; exact h2, by rw [← (pn i).1, h3]; exact h1, (pn i).2.symm.trans h4⟩

end Verif
