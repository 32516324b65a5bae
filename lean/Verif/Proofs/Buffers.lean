import Verif.Model.Buffers
import Verif.Proofs.Sched

namespace Verif

/-- Is output `p` driven to `v` by slot `k`? -/
def bitOf (slots : Fin numSlots → Slot) (k : Fin numSlots) (p : Fin 16) (v : Bool) : Bool :=
  if v then (slots k).on.getLsbD p else (slots k).off.getLsbD p

/-- The start (`false`) or stop (`true`) edge of an event. -/
def OEvent.edge (ev : OEvent) : Bool → Entry
  | false => ev.start
  | true => ev.stop

/-- The edge is in state `st` and drives output `p` to `v` at slot `k` of the window starting at `first`. -/
def Hits (st : SState) (first : Time) (k : Fin numSlots) (p : Fin 16) (v : Bool) (en : Entry) : Prop :=
  en.state = st ∧ (en.time - first).toNat = k ∧ en.pin.toNat = p ∧ en.val = v

theorem pinMask_bit (pin : BitVec 8) (p : Fin 16) :
    (pinMask pin).getLsbD p = decide (pin.toNat = p) := by
  unfold pinMask
  rw [BitVec.getLsbD_shiftLeft]
  have hp := p.isLt
  simp only [hp, decide_true, Bool.true_and]
  by_cases h : (p : Nat) < pin.toNat
  · simp [h]; omega
  · simp only [h, decide_false, Bool.not_false, Bool.true_and]
    rw [BitVec.getLsbD_one]
    simp
    omega

theorem pinMask_elem (pin : BitVec 8) (p : Fin 16) : (pinMask pin)[(p : Nat)] = decide (pin.toNat = p) := by
  rw [← pinMask_bit, BitVec.getLsbD_eq_getElem]

theorem slotUnset_bit (slots : Fin numSlots → Slot) (i k : Fin numSlots) (pin : BitVec 8) (w v : Bool) (p : Fin 16) :
    bitOf (slotUnset slots i pin w) k p v = true ↔
      bitOf slots k p v = true ∧ ¬ (k = i ∧ pin.toNat = p ∧ w = v) := by
  have hp := p.isLt
  unfold bitOf slotUnset
  by_cases hk : k = i
  · subst hk
    cases w <;> cases v <;> simp [pinMask_elem]
  · simp [hk]

theorem slotSet_bit (slots : Fin numSlots → Slot) (i k : Fin numSlots) (pin : BitVec 8) (w v : Bool) (p : Fin 16) :
    bitOf (slotSet slots i pin w) k p v = true ↔
      bitOf slots k p v = true ∨ (k = i ∧ pin.toNat = p ∧ w = v) := by
  unfold bitOf slotSet
  by_cases hk : k = i
  · subst hk
    cases w <;> cases v <;> simp [pinMask_elem]
  · simp [hk]

/-- What retiring does to an edge. -/
def retired (first : Time) (en : Entry) : Entry :=
  if en.state = .submitted ∧ (en.time - first).toNat < numSlots then { en with state := .fired } else en

/-- What populating does to an edge. -/
def populated (first : Time) (en : Entry) : Entry :=
  if en.state = .scheduled ∧ (en.time - first).toNat < numSlots then { en with state := .submitted } else en

theorem retireEdge_spec (b : OutBuf) (en : Entry) :
    (retireEdge b en).1.first = b.first ∧ (retireEdge b en).2 = retired b.first en ∧
    ∀ k p v, bitOf (retireEdge b en).1.slots k p v = true ↔
      bitOf b.slots k p v = true ∧ ¬ Hits .submitted b.first k p v en := by
  unfold retireEdge retired Hits
  by_cases h : en.state = .submitted ∧ (en.time - b.first).toNat < numSlots
  · rw [dif_pos h, if_pos h]
    refine ⟨rfl, rfl, fun k p v => ?_⟩
    simp only []
    rw [slotUnset_bit]
    constructor
    · rintro ⟨h1, h2⟩
      refine ⟨h1, fun h3 => h2 ⟨Fin.ext h3.2.1.symm, h3.2.2.1, h3.2.2.2⟩⟩
    · rintro ⟨h1, h2⟩
      refine ⟨h1, fun h3 => h2 ⟨h.1, by rw [h3.1], h3.2.1, h3.2.2⟩⟩
  · rw [dif_neg h, if_neg h]
    refine ⟨rfl, rfl, fun k p v => ?_⟩
    constructor
    · intro h1
      refine ⟨h1, fun h3 => h ⟨h3.1, ?_⟩⟩
      rw [h3.2.1]; exact k.isLt
    · exact fun h1 => h1.1

theorem populateEdge_spec (b : OutBuf) (en : Entry) :
    (populateEdge b en).1.first = b.first ∧ (populateEdge b en).2 = populated b.first en ∧
    ∀ k p v, bitOf (populateEdge b en).1.slots k p v = true ↔
      bitOf b.slots k p v = true ∨ Hits .scheduled b.first k p v en := by
  unfold populateEdge populated Hits
  by_cases h : en.state = .scheduled ∧ (en.time - b.first).toNat < numSlots
  · rw [dif_pos h, if_pos h]
    refine ⟨rfl, rfl, fun k p v => ?_⟩
    simp only []
    rw [slotSet_bit]
    constructor
    · rintro (h1 | ⟨h2, h3, h4⟩)
      · exact .inl h1
      · exact .inr ⟨h.1, by rw [h2], h3, h4⟩
    · rintro (h1 | ⟨h2, h3, h4, h5⟩)
      · exact .inl h1
      · exact .inr ⟨Fin.ext h3.symm, h4, h5⟩
  · rw [dif_neg h, if_neg h]
    refine ⟨rfl, rfl, fun k p v => ?_⟩
    constructor
    · exact fun h1 => .inl h1
    · rintro (h1 | ⟨h2, h3, _⟩)
      · exact h1
      · exact absurd ⟨h2, by rw [h3]; exact k.isLt⟩ h

/-- Both edges of an event mapped by `f`. -/
def mapEdges (f : Entry → Entry) (ev : OEvent) : OEvent := { ev with start := f ev.start, stop := f ev.stop }

@[simp] theorem mapEdges_edge (f : Entry → Entry) (ev : OEvent) (w : Bool) :
    (mapEdges f ev).edge w = f (ev.edge w) := by cases w <;> rfl

theorem retire_list {n : Nat} (l : List (Fin n)) (hl : l.Nodup) (b : OutBuf) (evs : Fin n → OEvent) :
    (l.foldl retireAt (b, evs)).1.first = b.first ∧
    (∀ j, (l.foldl retireAt (b, evs)).2 j = if j ∈ l then mapEdges (retired b.first) (evs j) else evs j) ∧
    ∀ k p v, bitOf (l.foldl retireAt (b, evs)).1.slots k p v = true ↔
      bitOf b.slots k p v = true ∧ ∀ i ∈ l, ∀ w, ¬ Hits .submitted b.first k p v ((evs i).edge w) := by
  induction l generalizing b evs with
  | nil => simp
  | cons a l ih =>
    rw [List.nodup_cons] at hl
    rw [List.foldl_cons]
    obtain ⟨s1, s2, s3⟩ := retireEdge_spec b (evs a).start
    obtain ⟨t1, t2, t3⟩ := retireEdge_spec (retireEdge b (evs a).start).1 (evs a).stop
    have e : retireAt (b, evs) a = ((retireEdge (retireEdge b (evs a).start).1 (evs a).stop).1,
        setEv evs a (mapEdges (retired b.first) (evs a))) := by
      unfold retireAt mapEdges
      simp only [s2, t2, s1]
    rw [e]
    obtain ⟨i1, i2, i3⟩ := ih hl.2 (retireEdge (retireEdge b (evs a).start).1 (evs a).stop).1
      (setEv evs a (mapEdges (retired b.first) (evs a)))
    have hf : (retireEdge (retireEdge b (evs a).start).1 (evs a).stop).1.first = b.first := t1.trans s1
    rw [hf] at i1 i2 i3
    refine ⟨i1, ?_, ?_⟩
    · intro j
      rw [i2]
      by_cases hj : j ∈ l
      · have : j ≠ a := by rintro rfl; exact hl.1 hj
        simp [hj, setEv, this]
      · by_cases ha : j = a
        · subst ha; simp [hj, setEv]
        · simp [hj, ha, setEv]
    · intro k p v
      rw [i3, t3, s3, s1]
      have hne : ∀ i ∈ l, (setEv evs a (mapEdges (retired b.first) (evs a))) i = evs i := by
        intro i hi
        have : i ≠ a := by rintro rfl; exact hl.1 hi
        simp [setEv, this]
      constructor
      · rintro ⟨⟨⟨h1, h2⟩, h3⟩, h4⟩
        refine ⟨h1, fun i hi w => ?_⟩
        rcases List.mem_cons.mp hi with rfl | hi'
        · cases w
          · exact h2
          · exact h3
        · rw [← hne i hi']; exact h4 i hi' w
      · rintro ⟨h1, h2⟩
        refine ⟨⟨⟨h1, h2 a (by simp) false⟩, h2 a (by simp) true⟩, fun i hi w => ?_⟩
        rw [hne i hi]; exact h2 i (by simp [hi]) w

theorem populate_list {n : Nat} (l : List (Fin n)) (hl : l.Nodup) (b : OutBuf) (evs : Fin n → OEvent) :
    (l.foldl populateAt (b, evs)).1.first = b.first ∧
    (∀ j, (l.foldl populateAt (b, evs)).2 j = if j ∈ l then mapEdges (populated b.first) (evs j) else evs j) ∧
    ∀ k p v, bitOf (l.foldl populateAt (b, evs)).1.slots k p v = true ↔
      bitOf b.slots k p v = true ∨ ∃ i ∈ l, ∃ w, Hits .scheduled b.first k p v ((evs i).edge w) := by
  induction l generalizing b evs with
  | nil => simp
  | cons a l ih =>
    rw [List.nodup_cons] at hl
    rw [List.foldl_cons]
    obtain ⟨s1, s2, s3⟩ := populateEdge_spec b (evs a).start
    obtain ⟨t1, t2, t3⟩ := populateEdge_spec (populateEdge b (evs a).start).1 (evs a).stop
    have e : populateAt (b, evs) a = ((populateEdge (populateEdge b (evs a).start).1 (evs a).stop).1,
        setEv evs a (mapEdges (populated b.first) (evs a))) := by
      unfold populateAt mapEdges
      simp only [s2, t2, s1]
    rw [e]
    obtain ⟨i1, i2, i3⟩ := ih hl.2 (populateEdge (populateEdge b (evs a).start).1 (evs a).stop).1
      (setEv evs a (mapEdges (populated b.first) (evs a)))
    have hf : (populateEdge (populateEdge b (evs a).start).1 (evs a).stop).1.first = b.first := t1.trans s1
    rw [hf] at i1 i2 i3
    refine ⟨i1, ?_, ?_⟩
    · intro j
      rw [i2]
      by_cases hj : j ∈ l
      · have : j ≠ a := by rintro rfl; exact hl.1 hj
        simp [hj, setEv, this]
      · by_cases ha : j = a
        · subst ha; simp [hj, setEv]
        · simp [hj, ha, setEv]
    · intro k p v
      rw [i3, t3, s3, s1]
      have hne : ∀ i ∈ l, (setEv evs a (mapEdges (populated b.first) (evs a))) i = evs i := by
        intro i hi
        have : i ≠ a := by rintro rfl; exact hl.1 hi
        simp [setEv, this]
      constructor
      · rintro (((h1 | h2) | h3) | ⟨i, hi, w, h4⟩)
        · exact .inl h1
        · exact .inr ⟨a, by simp, false, h2⟩
        · exact .inr ⟨a, by simp, true, h3⟩
        · rw [hne i hi] at h4; exact .inr ⟨i, by simp [hi], w, h4⟩
      · rintro (h1 | ⟨i, hi, w, h4⟩)
        · exact .inl (.inl (.inl h1))
        · rcases List.mem_cons.mp hi with rfl | hi'
          · cases w
            · exact .inl (.inl (.inr h4))
            · exact .inl (.inr h4)
          · refine .inr ⟨i, hi', w, ?_⟩
            rw [hne i hi']; exact h4

/-- What `stm32_buffer_swap` does. -/
theorem bufferSwap_spec {n : Nat} (s : Dma n) (now : Time) :
    (bufferSwap s now).cur = !s.cur ∧
    (bufferSwap s now).buf (!s.cur) = s.buf (!s.cur) ∧
    ((bufferSwap s now).buf s.cur).first = roundToBuffer now + 128 ∧
    (∀ i, (bufferSwap s now).evs i =
      mapEdges (fun en => populated (roundToBuffer now + 128) (retired (s.buf s.cur).first en)) (s.evs i)) ∧
    ∀ k p v, bitOf ((bufferSwap s now).buf s.cur).slots k p v = true ↔
      (bitOf (s.buf s.cur).slots k p v = true ∧
        ∀ i w, ¬ Hits .submitted (s.buf s.cur).first k p v ((s.evs i).edge w)) ∨
      ∃ i w, Hits .scheduled (roundToBuffer now + 128) k p v ((s.evs i).edge w) := by
  obtain ⟨r1, r2, r3⟩ := retire_list _ (List.nodup_finRange n) (s.buf s.cur) s.evs
  obtain ⟨p1, p2, p3⟩ := populate_list _ (List.nodup_finRange n)
    { (retireBuffer (s.buf s.cur) s.evs).1 with first := roundToBuffer now + 128 }
    (retireBuffer (s.buf s.cur) s.evs).2
  have r2' : ∀ j, (retireBuffer (s.buf s.cur) s.evs).2 j = mapEdges (retired (s.buf s.cur).first) (s.evs j) := by
    intro j; have := r2 j; rwa [if_pos (List.mem_finRange j)] at this
  refine ⟨rfl, by simp [bufferSwap], ?_, ?_, ?_⟩
  · simp only [bufferSwap, if_true]; exact p1
  · intro i
    have := p2 i
    rw [if_pos (List.mem_finRange i), r2'] at this
    exact this
  · intro k p v
    simp only [bufferSwap, if_true]
    refine (p3 k p v).trans ?_
    refine or_congr ((r3 k p v).trans ?_) ?_
    · simp
    · simp only [List.mem_finRange, true_and]
      refine exists_congr fun i => exists_congr fun w => ?_
      rw [r2', mapEdges_edge]
      unfold Hits retired
      split_ifs with h
      · simp [h.1]
      · rfl

/-- The edge after a swap: first retired from the window at `g`, then handed over to the window at `f`. -/
structure SwapEdge (f g : Time) (en x : Entry) : Prop where
  time : x.time = en.time
  pin : x.pin = en.pin
  val : x.val = en.val
  unscheduled : x.state = .unscheduled ↔ en.state = .unscheduled
  scheduled : x.state = .scheduled ↔ en.state = .scheduled ∧ 128 ≤ (en.time - f).toNat
  submitted : x.state = .submitted ↔ (en.state = .scheduled ∧ (en.time - f).toNat < 128) ∨
    (en.state = .submitted ∧ 128 ≤ (en.time - g).toNat)
  fired : x.state = .fired ↔ en.state = .fired ∨ (en.state = .submitted ∧ (en.time - g).toNat < 128)

theorem swapEdge (f g : Time) (en : Entry) : SwapEdge f g en (populated f (retired g en)) := by
  unfold populated retired numSlots
  by_cases h1 : (en.time - g).toNat < 128 <;> by_cases h2 : (en.time - f).toNat < 128 <;>
    rcases hs : en.state with _ | _ | _ | _ <;>
    simp only [hs, h1, h2, reduceCtorEq, and_false, and_true, if_true, if_false] <;>
    (refine ⟨rfl, rfl, rfl, ?_, ?_, ?_, ?_⟩ <;> simp only [hs, h1, reduceCtorEq, false_and, true_and, false_or,
      or_false, or_true, true_or, true_iff, false_iff, not_false_eq_true, not_lt, iff_true, iff_false] <;> omega)

end Verif
