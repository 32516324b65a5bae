/-
C19, C20: the DMA double buffer.
-/
import Verif.Proofs.Buffers
import Verif.Props.Sched

namespace Verif

/-- Event `i` changed by a control step. -/
def Dma.set {n : Nat} (s : Dma n) (i : Fin n) (ev : OEvent) : Dma n := { s with evs := setEv s.evs i ev }

/-- The edges carry the configured pin and polarity. -/
def PinsSet (ev : OEvent) : Prop := setPins ev = ev

/-- The steps of the output system while the pins of busy outputs are not reconfigured: the atomic pieces of the control code on any
event, and swaps serviced while the buffer that has just started is playing. -/
inductive DmaStep {n : Nat} : Dma n → Dma n → Prop
  | repin (s : Dma n) (i : Fin n) : DmaStep s (s.set i (setPins (s.evs i)))
  /-- `schedule_output_event_safely` arms only after having written the pins -/
  | arm (s : Dma n) (i : Fin n) (ns np : Time) (h : PinsSet (s.evs i)) :
      DmaStep s (s.set i (scheduleCrit s.earliest (s.evs i) ns np))
  | cancel (s : Dma n) (i : Fin n) : DmaStep s (s.set i (descheduleCrit (s.evs i)))
  | reset (s : Dma n) (i : Fin n) (ev : OEvent) (h : eventHasFired (s.evs i) = true)
      (e : resetFiredEvent (s.evs i) = .ok ev) : DmaStep s (s.set i ev)
  | retype (s : Dma n) (i : Fin n) (ty : EvType) (ang : Fl) :
      DmaStep s (s.set i { s.evs i with type := ty, angle := ang })
  /-- the pin or the polarity is reconfigured while neither edge is armed or committed -/
  | reconf (s : Dma n) (i : Fin n) (pin : BitVec 32) (inv : Bool)
      (h : ∀ w, ((s.evs i).edge w).state = .unscheduled ∨ ((s.evs i).edge w).state = .fired) :
      DmaStep s (s.set i { s.evs i with pin := pin, inverted := inv })
  | swap (s : Dma n) (now : Time) (h : (now - (s.buf (!s.cur)).first).toNat < 128) :
      DmaStep s (bufferSwap s now)

/-- The state after the first two swaps, with no output scheduled yet.  Buffer 0 plays ticks 0-127, buffer 1 plays
ticks 128-255. -/
def Started {n : Nat} (s : Dma n) : Prop :=
  ∃ (evs : Fin n → OEvent) (now1 now2 : Time),
    (∀ i w, ((evs i).edge w).state = .unscheduled) ∧
    128 ≤ now1.toNat ∧ now1.toNat < 256 ∧ 256 ≤ now2.toNat ∧ now2.toNat < 384 ∧
    s = bufferSwap (bufferSwap (Dma.boot evs) now1) now2

inductive DmaReach {n : Nat} : Dma n → Prop
  | start {s : Dma n} (h : Started s) : DmaReach s
  | step {s t : Dma n} (h : DmaReach s) (e : DmaStep s t) : DmaReach t

/-- Output `p` is driven to `v` by buffer `b` at tick `t`. -/
def Drives (b : OutBuf) (t : Time) (p : Fin 16) (v : Bool) : Prop :=
  ∃ k : Fin numSlots, t = b.first + BitVec.ofNat 32 k ∧ bitOf b.slots k p v = true

/-! ### Invariant -/

structure DmaInv {n : Nat} (s : Dma n) : Prop where
  aligned : (s.buf s.cur).first.toNat % 128 = 0
  adjacent : (s.buf (!s.cur)).first = (s.buf s.cur).first + 128
  submitted : ∀ i w, ((s.evs i).edge w).state = .submitted →
    (((s.evs i).edge w).time - (s.buf s.cur).first).toNat < 256
  scheduled : ∀ i w, ((s.evs i).edge w).state = .scheduled →
    (((s.evs i).edge w).time - s.earliest).toNat < 2 ^ 31
  pins : ∀ i w, ((s.evs i).edge w).state = .scheduled ∨ ((s.evs i).edge w).state = .submitted →
    ((setPins (s.evs i)).edge w) = (s.evs i).edge w
  bits : ∀ b k p v, bitOf (s.buf b).slots k p v = true ↔
    ∃ i w, Hits .submitted (s.buf b).first k p v ((s.evs i).edge w)

theorem round_in_window (now f : Time) (hf : f.toNat % 128 = 0) (h : (now - f).toNat < 128) :
    roundToBuffer now = f := by
  unfold roundToBuffer
  apply BitVec.eq_of_toNat_eq
  have e : (now.umod 128).toNat = now.toNat % 128 := BitVec.toNat_umod
  have hl := f.isLt
  have hn := now.isLt
  rw [BitVec.toNat_sub] at h ⊢
  rw [e]
  omega

theorem dma_swap_inv {n : Nat} {s : Dma n} (I : DmaInv s) (now : Time)
    (h : (now - (s.buf (!s.cur)).first).toNat < 128) : DmaInv (bufferSwap s now) := by
  obtain ⟨al, adj, sub, sch, pins, bits⟩ := I
  obtain ⟨c, b1, b2, ev, bt⟩ := bufferSwap_spec s now
  have hr : roundToBuffer now = (s.buf s.cur).first + 128 := by
    rw [adj] at h
    exact round_in_window _ _ (by bv_omega) h
  rw [hr] at b2 ev bt
  have ed : ∀ i w, ((bufferSwap s now).evs i).edge w =
      populated ((s.buf s.cur).first + 128 + 128) (retired (s.buf s.cur).first ((s.evs i).edge w)) := by
    intro i w; rw [ev i, mapEdges_edge]
  have nc : (!(bufferSwap s now).cur) = s.cur := by rw [c]; simp
  have curF : ((bufferSwap s now).buf (bufferSwap s now).cur).first = (s.buf s.cur).first + 128 := by
    rw [c, b1, adj]
  have early : (bufferSwap s now).earliest = (s.buf s.cur).first + 384 := by
    unfold Dma.earliest; rw [curF]; bv_omega
  have earl0 : s.earliest = (s.buf s.cur).first + 256 := rfl
  have sw : ∀ i w, SwapEdge ((s.buf s.cur).first + 128 + 128) (s.buf s.cur).first ((s.evs i).edge w)
      (((bufferSwap s now).evs i).edge w) := by
    intro i w; rw [ed]; exact swapEdge _ _ _
  refine ⟨?_, ?_, ?_, ?_, ?_, ?_⟩
  · rw [curF]; bv_omega
  · rw [nc, b2, curF]
  · intro i w hs
    have X := sw i w
    rw [curF, X.time]
    rcases X.submitted.mp hs with ⟨h1, h2⟩ | ⟨h1, h2⟩
    · bv_omega
    · have := sub i w h1; bv_omega
  · intro i w hs
    have X := sw i w
    obtain ⟨h1, h2⟩ := X.scheduled.mp hs
    have := sch i w h1
    rw [early, X.time]; rw [earl0] at this; bv_omega
  · intro i w hs
    have X := sw i w
    have key : ((s.evs i).edge w).state = .scheduled ∨ ((s.evs i).edge w).state = .submitted := by
      rw [X.scheduled, X.submitted] at hs; tauto
    have p1 := pins i w key
    have hpi : ((bufferSwap s now).evs i).pin = (s.evs i).pin ∧
        ((bufferSwap s now).evs i).inverted = (s.evs i).inverted := by rw [ev i]; exact ⟨rfl, rfl⟩
    have X1 := X.pin; have X2 := X.val
    generalize (bufferSwap s now).evs i = x at *
    cases w
    · have q1 : (s.evs i).pin.setWidth 8 = (s.evs i).start.pin := congrArg Entry.pin p1
      have q2 : (!(s.evs i).inverted) = (s.evs i).start.val := congrArg Entry.val p1
      show ({ x.start with pin := x.pin.setWidth 8, val := !x.inverted } : Entry) = x.start
      change x.start.pin = (s.evs i).start.pin at X1
      change x.start.val = (s.evs i).start.val at X2
      rw [hpi.1, hpi.2, q1, q2, ← X1, ← X2]
    · have q1 : (s.evs i).pin.setWidth 8 = (s.evs i).stop.pin := congrArg Entry.pin p1
      have q2 : (s.evs i).inverted = (s.evs i).stop.val := congrArg Entry.val p1
      show ({ x.stop with pin := x.pin.setWidth 8, val := x.inverted } : Entry) = x.stop
      change x.stop.pin = (s.evs i).stop.pin at X1
      change x.stop.val = (s.evs i).stop.val at X2
      rw [hpi.1, hpi.2, q1, q2, ← X1, ← X2]
  · intro b k p v
    have hk : (k : Nat) < 128 := k.isLt
    by_cases hb : b = s.cur
    · subst hb
      rw [bt, b2]
      constructor
      · rintro (⟨h1, h2⟩ | ⟨i, w, h1, h2, h3, h4⟩)
        · obtain ⟨i, w, h3⟩ := (bits _ _ _ _).mp h1
          exact absurd h3 (h2 i w)
        · have X := sw i w
          exact ⟨i, w, X.submitted.mpr (.inl ⟨h1, by omega⟩), by rw [X.time]; exact h2, by rw [X.pin]; exact h3,
            by rw [X.val]; exact h4⟩
      · rintro ⟨i, w, h1, h2, h3, h4⟩
        right
        have X := sw i w
        rw [X.time] at h2; rw [X.pin] at h3; rw [X.val] at h4
        refine ⟨i, w, ?_, h2, h3, h4⟩
        rcases X.submitted.mp h1 with ⟨k1, _⟩ | ⟨k1, k2⟩
        · exact k1
        · exfalso; have := sub i w k1; bv_omega
    · have hb' : b = !s.cur := by cases b <;> cases hc : s.cur <;> simp_all
      subst hb'
      rw [b1, adj, bits, adj]
      refine exists_congr fun i => exists_congr fun w => ?_
      have X := sw i w
      have s1 := sub i w
      unfold Hits
      rw [X.time, X.pin, X.val, X.submitted]
      constructor
      · rintro ⟨h1, h2, h3⟩
        exact ⟨.inr ⟨h1, by bv_omega⟩, h2, h3⟩
      · rintro ⟨⟨h1, h4⟩ | ⟨h1, h4⟩, h2, h3⟩
        · exfalso; bv_omega
        · exact ⟨h1, h2, h3⟩

theorem edge_set {n : Nat} (s : Dma n) (i j : Fin n) (ev : OEvent) (w : Bool) :
    ((s.set i ev).evs j).edge w = if j = i then ev.edge w else (s.evs j).edge w := by
  unfold Dma.set setEv; simp only []; split_ifs <;> rfl

/-- A control step keeps the invariant if it keeps what was submitted, and arms only in the future with the
configured pins. -/
theorem dma_ctl_inv {n : Nat} {s : Dma n} (I : DmaInv s) (i : Fin n) (ev : OEvent)
    (hsub : ∀ w, (ev.edge w).state = .submitted ↔ ((s.evs i).edge w).state = .submitted)
    (hsame : ∀ w, ((s.evs i).edge w).state = .submitted → ev.edge w = (s.evs i).edge w)
    (hsch : ∀ w, (ev.edge w).state = .scheduled → ((ev.edge w).time - s.earliest).toNat < 2 ^ 31)
    (hpin : ∀ w, (ev.edge w).state = .scheduled ∨ (ev.edge w).state = .submitted → (setPins ev).edge w = ev.edge w) :
    DmaInv (s.set i ev) := by
  obtain ⟨al, adj, sub, sch, pins, bits⟩ := I
  refine ⟨al, adj, ?_, ?_, ?_, ?_⟩
  · intro j w
    rw [edge_set]
    split_ifs with h
    · subst h
      intro hs
      have := (hsub w).mp hs
      rw [hsame w this]
      exact sub _ w this
    · exact sub j w
  · intro j w
    rw [edge_set]
    split_ifs with h
    · exact hsch w
    · exact sch j w
  · intro j w
    rw [edge_set]
    by_cases h : j = i
    · subst h
      have e : (s.set j ev).evs j = ev := by simp [Dma.set, setEv]
      rw [if_pos rfl, e]; exact hpin w
    · have e : (s.set i ev).evs j = s.evs j := by simp [Dma.set, setEv, h]
      rw [if_neg h, e]; exact pins j w
  · intro b k p v
    show bitOf (s.buf b).slots k p v = true ↔ _
    rw [bits]
    refine exists_congr fun j => exists_congr fun w => ?_
    rw [edge_set]
    split_ifs with h
    · subst h
      by_cases hs : ((s.evs j).edge w).state = .submitted
      · rw [hsame w hs]; rfl
      · have : (ev.edge w).state ≠ .submitted := fun hh => hs ((hsub w).mp hh)
        constructor
        · rintro ⟨h1, _⟩; exact absurd h1 hs
        · rintro ⟨h1, _⟩; exact absurd h1 this
    · rfl

theorem setPins_setPins (ev : OEvent) : setPins (setPins ev) = setPins ev := rfl

theorem crit_pins {e ns np : Time} {ev : OEvent} (h : PinsSet ev) : PinsSet (scheduleCrit e ev ns np) := by
  have h1 : ev.pin.setWidth 8 = ev.start.pin := congrArg (fun v => v.start.pin) h
  have h2 : (!ev.inverted) = ev.start.val := congrArg (fun v => v.start.val) h
  have h3 : ev.pin.setWidth 8 = ev.stop.pin := congrArg (fun v => v.stop.pin) h
  have h4 : ev.inverted = ev.stop.val := congrArg (fun v => v.stop.val) h
  have en : ∀ (x : Entry) (t : Time), (entryEnable e x t).1.pin = x.pin ∧ (entryEnable e x t).1.val = x.val := by
    intro x t; unfold entryEnable; split_ifs <;> exact ⟨rfl, rfl⟩
  have hp : (scheduleCrit e ev ns np).pin = ev.pin ∧ (scheduleCrit e ev ns np).inverted = ev.inverted ∧
      (scheduleCrit e ev ns np).start.pin = ev.start.pin ∧ (scheduleCrit e ev ns np).start.val = ev.start.val ∧
      (scheduleCrit e ev ns np).stop.pin = ev.stop.pin ∧ (scheduleCrit e ev ns np).stop.val = ev.stop.val := by
    unfold scheduleCrit
    split_ifs
    · exact ⟨rfl, rfl, (en _ _).1, (en _ _).2, (en _ _).1, (en _ _).2⟩
    · exact ⟨rfl, rfl, rfl, rfl, rfl, rfl⟩
    · exact ⟨rfl, rfl, (en _ _).1, (en _ _).2, (en _ _).1, (en _ _).2⟩
  obtain ⟨a, b, c, d, f, g⟩ := hp
  generalize scheduleCrit e ev ns np = x at *
  unfold PinsSet setPins
  rw [a, b, h1, ← c, h2, ← d]
  have : x.stop.pin = x.start.pin := by rw [f, ← h3, h1, c]
  have hv : ev.inverted = x.stop.val := by rw [g]; exact h4
  cases x with
  | mk ty an pi iv st sp =>
    cases st; cases sp
    simp_all

theorem dma_step_inv {n : Nat} {s t : Dma n} (I : DmaInv s) (e : DmaStep s t) : DmaInv t := by
  cases e with
  | repin i =>
    have p := I.pins i
    apply dma_ctl_inv I i (setPins (s.evs i))
    · intro w; cases w <;> exact Iff.rfl
    · intro w hs; exact p w (.inr hs)
    · intro w hs
      have hs' : ((s.evs i).edge w).state = .scheduled := by cases w <;> exact hs
      rw [p w (.inl hs')]; exact I.scheduled i w hs'
    · intro w _; rfl
  | arm i ns np h =>
    have key : ∀ (x : Entry) (t : Time), ((entryEnable s.earliest x t).1.state = .submitted ↔ x.state = .submitted) ∧
        (x.state = .submitted → (entryEnable s.earliest x t).1 = x) ∧
        ((entryEnable s.earliest x t).1.state = .scheduled →
          ((x.state = .scheduled → (x.time - s.earliest).toNat < 2 ^ 31) →
          ((entryEnable s.earliest x t).1.time - s.earliest).toNat < 2 ^ 31)) := by
      intro x t
      rcases entryEnable_cases s.earliest x t with ⟨k, k1⟩ | ⟨k, k1, k2, k3⟩
      · rw [k]; exact ⟨Iff.rfl, fun _ => rfl, fun h1 h2 => h2 h1⟩
      · rw [k]
        refine ⟨by simp [k1], fun h => absurd h k1, fun _ _ => ?_⟩
        rwa [timeBefore_false_iff] at k3
    have pn := crit_pins (e := s.earliest) (ns := ns) (np := np) h
    apply dma_ctl_inv I i
    · intro w
      unfold scheduleCrit
      split_ifs
      · cases w
        · exact (key _ _).1
        · exact (key _ _).1
      · rfl
      · cases w
        · exact (key _ _).1
        · exact (key _ _).1
    · intro w hs
      unfold scheduleCrit
      split_ifs
      · cases w
        · exact (key _ _).2.1 hs
        · exact (key _ _).2.1 hs
      · rfl
      · cases w
        · exact (key _ _).2.1 hs
        · exact (key _ _).2.1 hs
    · intro w
      have old := I.scheduled i w
      unfold scheduleCrit
      split_ifs
      · cases w
        · exact fun hs => (key _ _).2.2 hs old
        · exact fun hs => (key _ _).2.2 hs old
      · exact old
      · cases w
        · exact fun hs => (key _ _).2.2 hs old
        · exact fun hs => (key _ _).2.2 hs old
    · intro w _; rw [pn]
  | cancel i =>
    have p := I.pins i
    have old := I.scheduled i
    by_cases h1 : (s.evs i).start.state = .scheduled
    · have e : descheduleCrit (s.evs i) = { (s.evs i) with start := (entryDisable (s.evs i).start).1, stop := (entryDisable (s.evs i).stop).1 } := by
        simp [descheduleCrit, entryDisable, h1]
      have dis : ∀ x : Entry, ((entryDisable x).1.state = .submitted ↔ x.state = .submitted) ∧
          (x.state = .submitted → (entryDisable x).1 = x) ∧ (entryDisable x).1.state ≠ .scheduled := by
        intro x; unfold entryDisable; split_ifs with k
        · exact ⟨Iff.rfl, fun _ => rfl, k⟩
        · simp only [ne_eq, not_not] at k
          simp [k]
      rw [e]
      apply dma_ctl_inv I i
      · intro w; cases w
        · exact (dis _).1
        · exact (dis _).1
      · intro w hs; cases w
        · exact (dis _).2.1 hs
        · exact (dis _).2.1 hs
      · intro w hs; cases w
        · exact absurd hs (dis _).2.2
        · exact absurd hs (dis _).2.2
      · intro w hs; cases w
        · rcases hs with hs | hs
          · exact absurd hs (dis _).2.2
          · have h2 : (s.evs i).start.state = .submitted := (dis (s.evs i).start).1.mp hs
            rw [h1] at h2; cases h2
        · rcases hs with hs | hs
          · exact absurd hs (dis _).2.2
          · have h2 : (s.evs i).stop.state = .submitted := (dis (s.evs i).stop).1.mp hs
            have h3 := p true (.inr h2)
            have h4 := (dis (s.evs i).stop).2.1 h2
            show ({ (entryDisable (s.evs i).stop).1 with
              pin := (s.evs i).pin.setWidth 8, val := (s.evs i).inverted } : Entry) = (entryDisable (s.evs i).stop).1
            rw [h4]; exact h3
    · rw [C14_committed_untouched _ h1]
      exact dma_ctl_inv I i _ (fun _ => Iff.rfl) (fun _ _ => rfl) old p
  | reset i ev h e =>
    obtain ⟨h1, h2, rfl⟩ := reset_ok e
    apply dma_ctl_inv I i
    · intro w; cases w
      · simp [OEvent.edge, h1]
      · simp [OEvent.edge, h2]
    · intro w hs; cases w
      · simp [OEvent.edge, h1] at hs
      · simp [OEvent.edge, h2] at hs
    · intro w hs; cases w <;> simp [OEvent.edge] at hs
    · intro w hs; cases w <;> simp [OEvent.edge] at hs
  | retype i ty ang =>
    have p := I.pins i
    have old := I.scheduled i
    apply dma_ctl_inv I i
    · intro w; cases w <;> exact Iff.rfl
    · intro w _; cases w <;> rfl
    · intro w hs; cases w
      · exact old false hs
      · exact old true hs
    · intro w hs; cases w
      · exact p false hs
      · exact p true hs
  | reconf i pin inv h =>
    have no : ∀ w, ¬ (((s.evs i).edge w).state = .scheduled ∨ ((s.evs i).edge w).state = .submitted) := by
      intro w hh
      rcases h w with k | k <;> rw [k] at hh <;> rcases hh with hh | hh <;> cases hh
    apply dma_ctl_inv I i
    · intro w; cases w <;> exact Iff.rfl
    · intro w _; cases w <;> rfl
    · intro w hs; cases w
      · exact absurd (.inl hs) (no false)
      · exact absurd (.inl hs) (no true)
    · intro w hs; cases w
      · exact absurd hs (no false)
      · exact absurd hs (no true)
  | swap now h => exact dma_swap_inv I now h

theorem round_window (now : Time) (a : Nat) (ha : a % 128 = 0) (h1 : a ≤ now.toNat)
    (h2 : now.toNat < a + 128) : roundToBuffer now = BitVec.ofNat 32 a := by
  apply round_in_window
  · have := now.isLt
    rw [BitVec.toNat_ofNat]; omega
  · have := now.isLt
    rw [BitVec.toNat_sub, BitVec.toNat_ofNat]; omega

theorem dma_start_inv {n : Nat} {s : Dma n} (h : Started s) : DmaInv s := by
  obtain ⟨evs, now1, now2, hu, a1, a2, b1, b2, rfl⟩ := h
  have r1 : roundToBuffer now1 = 128 := round_window now1 128 rfl a1 (by omega)
  have r2 : roundToBuffer now2 = 256 := round_window now2 256 rfl b1 (by omega)
  have idle : ∀ f g en, en.state = .unscheduled → populated f (retired g en) = en := by
    intro f g en h; simp [populated, retired, h]
  obtain ⟨c1, o1, f1, e1, t1⟩ := bufferSwap_spec (Dma.boot evs) now1
  rw [r1] at f1 e1 t1
  have ev1 : (bufferSwap (Dma.boot evs) now1).evs = evs := by
    funext i
    rw [e1]
    have h1 := hu i false; have h2 := hu i true
    show mapEdges _ (evs i) = _
    unfold mapEdges
    simp only []
    rw [idle _ _ (evs i).start h1, idle _ _ (evs i).stop h2]
  have zero : ∀ k p v, bitOf ((Dma.boot evs).buf false).slots k p v = false := by
    intro k p v; simp [bitOf, Dma.boot]
  have nb1 : ∀ b k p v, ¬ bitOf ((bufferSwap (Dma.boot evs) now1).buf b).slots k p v = true := by
    intro b k p v
    cases b
    · rw [show false = (Dma.boot evs).cur from rfl, t1]
      rintro (⟨h1, _⟩ | ⟨i, w, h1⟩)
      · rw [show (Dma.boot evs).cur = false from rfl, zero] at h1; cases h1
      · have := h1.1; rw [show (Dma.boot evs).evs i = evs i from rfl, hu] at this; cases this
    · rw [show true = !(Dma.boot evs).cur from rfl, o1]
      simp [bitOf, Dma.boot]
  have hc1 : (bufferSwap (Dma.boot evs) now1).cur = true := c1
  obtain ⟨c2, o2, f2, e2, t2⟩ := bufferSwap_spec (bufferSwap (Dma.boot evs) now1) now2
  rw [r2] at f2 e2 t2
  have ev2 : (bufferSwap (bufferSwap (Dma.boot evs) now1) now2).evs = evs := by
    funext i
    rw [e2, ev1]
    have h1 := hu i false; have h2 := hu i true
    unfold mapEdges
    simp only []
    rw [idle _ _ (evs i).start h1, idle _ _ (evs i).stop h2]
  have nb2 : ∀ b k p v, ¬ bitOf ((bufferSwap (bufferSwap (Dma.boot evs) now1) now2).buf b).slots k p v = true := by
    intro b k p v
    by_cases hb : b = (bufferSwap (Dma.boot evs) now1).cur
    · subst hb
      rw [t2]
      rintro (⟨h1, _⟩ | ⟨i, w, h1⟩)
      · exact nb1 _ _ _ _ h1
      · have := h1.1; rw [ev1, hu] at this; cases this
    · have hb' : b = !(bufferSwap (Dma.boot evs) now1).cur := by
        cases b
        · rw [hc1]; rfl
        · exact absurd hc1.symm hb
      rw [hb', o2]; exact nb1 _ _ _ _
  have hc2 : (bufferSwap (bufferSwap (Dma.boot evs) now1) now2).cur = false := by rw [c2, hc1]; rfl
  have fc : ((bufferSwap (bufferSwap (Dma.boot evs) now1) now2).buf false).first = 256 := by
    have : (false : Bool) = !(bufferSwap (Dma.boot evs) now1).cur := by rw [hc1]; rfl
    rw [this, o2, hc1]
    exact f1
  have fo : ((bufferSwap (bufferSwap (Dma.boot evs) now1) now2).buf true).first = 384 := by
    rw [hc1] at f2; exact f2
  refine ⟨?_, ?_, ?_, ?_, ?_, ?_⟩
  · rw [hc2, fc]; rfl
  · rw [hc2, fc]; show OutBuf.first _ = _; rw [show (!false) = true from rfl, fo]; rfl
  · intro i w hs; rw [ev2, hu] at hs; cases hs
  · intro i w hs; rw [ev2, hu] at hs; cases hs
  · intro i w hs; rw [ev2, hu] at hs; simp at hs
  · intro b k p v
    constructor
    · intro h; exact absurd h (nb2 _ _ _ _)
    · rintro ⟨i, w, h, _⟩; rw [ev2, hu] at h; cases h

theorem dma_reach_inv {n : Nat} {s : Dma n} (h : DmaReach s) : DmaInv s := by
  induction h with
  | start h => exact dma_start_inv h
  | step _ e ih => exact dma_step_inv ih e

/-! ### C19 -/

/-- C19, exactness: in every reachable state, either buffer drives exactly the committed edges of its window, each
at its own tick, and nothing else. -/
theorem C19_exact {n : Nat} {s : Dma n} (h : DmaReach s) (b : Bool) (t : Time) (p : Fin 16) (v : Bool) :
    Drives (s.buf b) t p v ↔ (t - (s.buf b).first).toNat < 128 ∧
      ∃ i w, ((s.evs i).edge w).state = .submitted ∧ ((s.evs i).edge w).time = t ∧
        ((s.evs i).edge w).pin.toNat = p ∧ ((s.evs i).edge w).val = v := by
  have I := dma_reach_inv h
  constructor
  · rintro ⟨k, rfl, hb⟩
    have hk : (k : Nat) < 128 := k.isLt
    obtain ⟨i, w, h1, h2, h3⟩ := (I.bits b k p v).mp hb
    exact ⟨by bv_omega, i, w, h1, by bv_omega, h3⟩
  · rintro ⟨hw, i, w, h1, h2, h3, h4⟩
    subst h2
    refine ⟨⟨_, hw⟩, by bv_omega, (I.bits _ _ _ _).mpr ⟨i, w, h1, rfl, h3, h4⟩⟩

/-- C19, nothing is late: every armed edge is at or after the earliest schedulable time, that is, at or after the
end of both buffers. -/
theorem C19_armed_in_time {n : Nat} {s : Dma n} (h : DmaReach s) (i : Fin n) (w : Bool)
    (hs : ((s.evs i).edge w).state = .scheduled) :
    timeBefore ((s.evs i).edge w).time s.earliest = false := by
  rw [timeBefore_false_iff]; exact (dma_reach_inv h).scheduled i w hs

/-- C19, reporting: a swap reports fired exactly the edges the completed buffer has just played. -/
theorem C19_fired {n : Nat} {s : Dma n} (_h : DmaReach s) (now : Time)
    (i : Fin n) (w : Bool) :
    (((bufferSwap s now).evs i).edge w).state = .fired ↔
      ((s.evs i).edge w).state = .fired ∨
      (((s.evs i).edge w).state = .submitted ∧ (((s.evs i).edge w).time - (s.buf s.cur).first).toNat < 128) := by
  have e := (bufferSwap_spec s now).2.2.2.1 i
  rw [e, mapEdges_edge]
  exact (swapEdge _ _ _).fired

/-- A path in which one edge is not moved, cancelled or reset, counting the swaps. -/
inductive Hold {n : Nat} (i : Fin n) (w : Bool) (s : Dma n) : Nat → Dma n → Prop
  | refl : Hold i w s 0 s
  | ctl {c : Nat} {t u : Dma n} (h : Hold i w s c t) (e : DmaStep t u) (hb : u.buf = t.buf ∧ u.cur = t.cur)
      (ht : ((u.evs i).edge w).time = ((t.evs i).edge w).time)
      (hs : ((u.evs i).edge w).state = ((t.evs i).edge w).state) : Hold i w s c u
  | swap {c : Nat} {t : Dma n} (h : Hold i w s c t) (now : Time)
      (hn : (now - (t.buf (!t.cur)).first).toNat < 128) : Hold i w s (c + 1) (bufferSwap t now)

theorem Hold.reach {n : Nat} {i : Fin n} {w : Bool} {c : Nat} {s t : Dma n} (h : DmaReach s) (p : Hold i w s c t) :
    DmaReach t := by
  induction p with
  | refl => exact h
  | ctl _ e _ _ _ ih => exact .step ih e
  | swap _ now hn ih => exact .step ih (.swap _ now hn)

/-- The first tick of the playing buffer advances by 128 at each swap. -/
theorem Hold.first {n : Nat} {i : Fin n} {w : Bool} {c : Nat} {s t : Dma n} (h : DmaReach s) (p : Hold i w s c t) :
    (t.buf t.cur).first = (s.buf s.cur).first + 128 * BitVec.ofNat 32 c := by
  induction p with
  | refl => simp
  | ctl p e hb _ _ ih => rw [hb.1, hb.2]; exact ih
  | swap p now hn ih =>
    rename_i c t
    have I := dma_reach_inv (p.reach h)
    obtain ⟨e1, e2, _⟩ := bufferSwap_spec t now
    rw [e1, e2, I.adjacent, ih]
    have : BitVec.ofNat 32 (c + 1) = BitVec.ofNat 32 c + 1 := by
      apply BitVec.eq_of_toNat_eq; simp
    rw [this, BitVec.mul_add, BitVec.add_assoc]; rfl

/-- C19, exactly once.  An edge armed `m` windows after the earliest schedulable time, and not moved, cancelled or
reset, stays armed for `m` swaps; the next one hands it over; while the buffer of its window plays (and only then)
that buffer drives its output at its own tick; and the swap that ends that buffer reports it fired. -/
theorem C19_exactly_once {n : Nat} {s t : Dma n} {i : Fin n} {w : Bool} {c : Nat} (h : DmaReach s)
    (hs : ((s.evs i).edge w).state = .scheduled) (p : Hold i w s c t) :
    let m := (((s.evs i).edge w).time - s.earliest).toNat / 128
    let en := (t.evs i).edge w
    en.time = ((s.evs i).edge w).time ∧
    (c ≤ m → en.state = .scheduled) ∧
    (c = m + 1 ∨ c = m + 2 → en.state = .submitted) ∧
    (c = m + 2 → ∀ p : Fin 16, en.pin.toNat = p → Drives (t.buf t.cur) en.time p en.val) ∧
    (m + 3 ≤ c → en.state = .fired) := by
  intro m en
  have hm : (((s.evs i).edge w).time - s.earliest).toNat < 2 ^ 31 := (dma_reach_inv h).scheduled i w hs
  have main : en.time = ((s.evs i).edge w).time ∧ (c ≤ m → en.state = .scheduled) ∧
      (c = m + 1 ∨ c = m + 2 → en.state = .submitted) ∧ (m + 3 ≤ c → en.state = .fired) := by
    induction p with
    | refl => exact ⟨rfl, fun _ => hs, by omega, by omega⟩
    | ctl p e hb ht hst ih =>
      obtain ⟨a, b, c, d⟩ := ih
      simp only [en]
      rw [ht, hst]; exact ⟨a, b, c, d⟩
    | swap p now hn ih =>
      rename_i c t
      obtain ⟨a1, a2, a3, a4⟩ := ih
      have F := p.first h
      have I := dma_reach_inv (p.reach h)
      have hr : roundToBuffer now = (t.buf t.cur).first + 128 := by
        have al := I.aligned
        rw [I.adjacent] at hn
        exact round_in_window _ _ (by bv_omega) hn
      have X : SwapEdge ((t.buf t.cur).first + 128 + 128) (t.buf t.cur).first ((t.evs i).edge w)
          (((bufferSwap t now).evs i).edge w) := by
        rw [(bufferSwap_spec t now).2.2.2.1 i, mapEdges_edge, hr]; exact swapEdge _ _ _
      have e0 : s.earliest = (s.buf s.cur).first + 256 := rfl
      simp only [en]
      rw [X.time, X.scheduled, X.submitted, X.fired, a1, F]
      rw [e0] at hm
      simp only [m, e0] at a2 a3 a4 ⊢
      generalize ((s.evs i).edge w).time = T at *
      generalize (s.buf s.cur).first = f at *
      generalize ((t.evs i).edge w).state = st at *
      generalize hd : (T - (f + 256)).toNat = d at *
      have off : ∀ c : Nat, c ≤ d / 128 + 3 → (128 * BitVec.ofNat 32 c).toNat = 128 * c := by
        intro c hc
        rw [BitVec.toNat_mul, BitVec.toNat_ofNat]
        have : (128 : BitVec 32).toNat = 128 := rfl
        rw [this, Nat.mod_eq_of_lt (a := c) (by omega), Nat.mod_eq_of_lt (by omega)]
      refine ⟨by trivial, ?_, ?_, ?_⟩
      · intro hc
        have := off c (by omega)
        exact ⟨a2 (by omega), by bv_omega⟩
      · rintro (hc | hc)
        · have := off c (by omega)
          exact .inl ⟨a2 (by omega), by bv_omega⟩
        · have := off c (by omega)
          exact .inr ⟨a3 (by omega), by bv_omega⟩
      · intro hc
        by_cases hc' : c = d / 128 + 2
        · have := off c (by omega)
          exact .inr ⟨a3 (by omega), by bv_omega⟩
        · exact .inl (a4 (by omega))
  refine ⟨main.1, main.2.1, main.2.2.1, ?_, main.2.2.2⟩
  intro hc q hq
  refine (C19_exact (p.reach h) _ _ _ _).mpr ⟨?_, i, w, main.2.2.1 (.inr hc), rfl, hq, rfl⟩
  have F := p.first h
  have e0 : s.earliest = (s.buf s.cur).first + 256 := rfl
  rw [main.1, F]
  simp only [m, e0] at hc hm ⊢
  generalize ((s.evs i).edge w).time = T at *
  generalize (s.buf s.cur).first = f at *
  generalize hd : (T - (f + 256)).toNat = d at *
  have : (128 * BitVec.ofNat 32 c).toNat = 128 * c := by
    rw [BitVec.toNat_mul, BitVec.toNat_ofNat]
    have : (128 : BitVec 32).toNat = 128 := rfl
    rw [this, Nat.mod_eq_of_lt (a := c) (by omega), Nat.mod_eq_of_lt (by omega)]
  bv_omega

/-! ### Link to the one-event view of C11-C18 -/

/-- Every step of the DMA platform is, for each output, one of the atomic steps of `Verif.Spec.Output` (or nothing),
`next` being the earliest schedulable time. -/
theorem C11_dma_is_path {n : Nat} {s t : Dma n} (h : DmaReach s) (e : DmaStep s t) (i : Fin n) :
    (⟨t.earliest, t.evs i⟩ : EvSt) = ⟨s.earliest, s.evs i⟩ ∨
      EvStep anyTimes ⟨s.earliest, s.evs i⟩ ⟨t.earliest, t.evs i⟩ := by
  have ctl : ∀ (j : Fin n) (ev : OEvent), EvStep anyTimes ⟨s.earliest, s.evs j⟩ ⟨s.earliest, ev⟩ →
      (⟨(s.set j ev).earliest, (s.set j ev).evs i⟩ : EvSt) = ⟨s.earliest, s.evs i⟩ ∨
      EvStep anyTimes ⟨s.earliest, s.evs i⟩ ⟨(s.set j ev).earliest, (s.set j ev).evs i⟩ := by
    intro j ev hs
    have e1 : (s.set j ev).earliest = s.earliest := rfl
    by_cases k : i = j
    · subst k
      have e2 : (s.set i ev).evs i = ev := by simp [Dma.set, setEv]
      rw [e1, e2]; exact .inr hs
    · have e2 : (s.set j ev).evs i = s.evs i := by simp [Dma.set, setEv, k]
      rw [e1, e2]; exact .inl rfl
  cases e with
  | repin j => exact ctl j _ (.repin _ _ _ _ _)
  | arm j ns np h => exact ctl j _ (.arm ⟨s.earliest, s.evs j⟩ s.earliest ns np (by simp) trivial)
  | cancel j => exact ctl j _ (.cancel _)
  | reset j ev h e => exact ctl j _ (.reset _ ev h e)
  | retype j ty ang => exact ctl j _ (.config ⟨s.earliest, s.evs j⟩ ty ang (s.evs j).pin (s.evs j).inverted)
  | reconf j pin inv h => exact ctl j _ (.config ⟨s.earliest, s.evs j⟩ (s.evs j).type (s.evs j).angle pin inv)
  | swap now hn =>
    right
    have I := dma_reach_inv h
    have hr : roundToBuffer now = (s.buf s.cur).first + 128 := by
      have al := I.aligned
      rw [I.adjacent] at hn
      exact round_in_window _ _ (by bv_omega) hn
    obtain ⟨e1, e2, _, e4, _⟩ := bufferSwap_spec s now
    have e0 : (bufferSwap s now).earliest = s.earliest + 128 := by
      unfold Dma.earliest; rw [e1, e2, I.adjacent]; bv_omega
    have ef : (s.buf s.cur).first + 128 + 128 = s.earliest := by
      unfold Dma.earliest; bv_omega
    rw [e0, e4, hr, ef]
    have sw : ∀ en : Entry, EdgeSwap s.earliest en (populated s.earliest (retired (s.buf s.cur).first en)) := by
      intro en
      unfold populated retired
      rcases hs : en.state with _ | _ | _ | _
      · simp only [hs, reduceCtorEq, false_and, if_false]
        exact .idle _ (by simp [hs])
      · simp only [hs, reduceCtorEq, false_and, if_false, true_and]
        split_ifs with hh
        · exact .submit _ hs hh
        · exact .later _ hs (by simpa using hh)
      · split_ifs with h1 h2 h2
        · cases h2.1
        · exact .fire _ hs
        · exact absurd (hs ▸ h2.1) (by simp)
        · exact .idle _ (by simp [hs])
      · simp only [hs, reduceCtorEq, false_and, if_false]
        exact .idle _ (by simp [hs])
    exact .swap ⟨s.earliest, s.evs i⟩ _ _ (sw _) (sw _)

/-! ### A concrete run, and what happens between the first and the second swap -/

/-- One idle ignition output on pin 1. -/
def demoEv : OEvent :=
  { type := .ignition, angle := Fl.fin 0, pin := 1, inverted := false, start := Entry.init, stop := Entry.init }

def demo0 : Dma 1 := bufferSwap (bufferSwap (Dma.boot fun _ => demoEv) 200) 300
def demo1 : Dma 1 := demo0.set 0 (setPins (demo0.evs 0))
def demo2 : Dma 1 := demo1.set 0 (scheduleCrit demo1.earliest (demo1.evs 0) 512 600)
def demo3 : Dma 1 := bufferSwap demo2 400

theorem demo0_reach : DmaReach demo0 :=
  .start ⟨fun _ => demoEv, 200, 300, by intro i w; cases w <;> rfl, by decide, by decide, by decide, by decide, rfl⟩

theorem demo1_reach : DmaReach demo1 := .step demo0_reach (.repin _ 0)
theorem demo2_reach : DmaReach demo2 := .step demo1_reach (.arm demo1 0 512 600 (by unfold PinsSet; decide +kernel))
theorem demo3_reach : DmaReach demo3 := .step demo2_reach (.swap demo2 400 (by decide +kernel))

/-- The hypotheses of C19 are met: an armed edge in a reachable state, and a run of three swaps over it. -/
example : ((demo2.evs 0).edge false).state = .scheduled ∧
    (((demo2.evs 0).edge false).time - demo2.earliest).toNat / 128 = 0 ∧
    Hold 0 false demo2 3 (bufferSwap (bufferSwap (bufferSwap demo2 400) 520) 650) :=
  ⟨by decide +kernel, by decide +kernel,
   .swap (.swap (.swap .refl 400 (by decide +kernel)) 520 (by decide +kernel)) 650 (by decide +kernel)⟩

/-- Between the first and the second swap after power-up the earliest schedulable time is one window too early:
an edge armed then, at any tick of that window, is in no buffer and is still armed, in the past, after the second
swap. -/
theorem C19_boot_gap (evs : Fin 1 → OEvent) (hu : ∀ i w, ((evs i).edge w).state = .unscheduled)
    (now1 now2 ns np : Time) (h1 : 128 ≤ now1.toNat ∧ now1.toNat < 256) (h2 : 256 ≤ now2.toNat ∧ now2.toNat < 384)
    (hs : 256 ≤ ns.toNat ∧ ns.toNat < 384) :
    let s1 := bufferSwap (Dma.boot evs) now1
    let s2 := s1.set 0 (scheduleSafely s1.earliest (s1.evs 0) ns np)
    let s3 := bufferSwap s2 now2
    timeBefore ns s1.earliest = false ∧
    ((s3.evs 0).edge false).state = .scheduled ∧ ((s3.evs 0).edge false).time = ns ∧
    timeBefore ns s3.earliest = true := by
  intro s1 s2 s3
  have r1 : roundToBuffer now1 = 128 := round_window now1 128 rfl h1.1 (by omega)
  have r2 : roundToBuffer now2 = 256 := round_window now2 256 rfl h2.1 (by omega)
  obtain ⟨c1, o1, f1, e1, -⟩ := bufferSwap_spec (Dma.boot evs) now1
  obtain ⟨c2, o2, f2, e2, -⟩ := bufferSwap_spec s2 now2
  have hc1 : s1.cur = true := c1
  have ev1 : s1.evs 0 = evs 0 := by
    show (bufferSwap (Dma.boot evs) now1).evs 0 = _
    rw [e1]
    have h1 := hu 0 false; have h2 := hu 0 true
    show mapEdges _ (evs 0) = _
    unfold mapEdges
    have idle : ∀ f g en, en.state = .unscheduled → populated f (retired g en) = en := by
      intro f g en h; simp [populated, retired, h]
    simp only []
    rw [idle _ _ (evs 0).start h1, idle _ _ (evs 0).stop h2]
  have ft : (s1.buf true).first = 0 := by
    rw [show true = !(Dma.boot evs).cur from rfl]
    show ((bufferSwap (Dma.boot evs) now1).buf _).first = 0
    rw [o1]; rfl
  have ff : (s1.buf false).first = 256 := by
    rw [show false = (Dma.boot evs).cur from rfl]
    show ((bufferSwap (Dma.boot evs) now1).buf _).first = 256
    rw [f1, r1]; rfl
  have he : s1.earliest = 256 := by unfold Dma.earliest; rw [hc1, ft]; rfl
  have tb : timeBefore ns s1.earliest = false := by
    rw [timeBefore_false_iff, he]; bv_omega
  have he3 : s3.earliest = 512 := by
    unfold Dma.earliest
    rw [show s3.cur = !s2.cur from c2, show s3.buf (!s2.cur) = s2.buf (!s2.cur) from o2, show s2.cur = true from hc1]
    show (s1.buf false).first + 256 = _
    rw [ff]; rfl
  have st : (s2.evs 0).edge false = ⟨ns, (evs 0).pin.setWidth 8, !(evs 0).inverted, .scheduled⟩ := by
    have : s2.evs 0 = scheduleSafely s1.earliest (s1.evs 0) ns np := by simp [s2, Dma.set, setEv]
    rw [this, ev1]
    have h1 : (evs 0).start.state = .unscheduled := hu 0 false
    have h2 : (evs 0).stop.state = .unscheduled := hu 0 true
    simp [scheduleSafely, scheduleCrit, eventIsUnscheduled, setPins, entryEnable, tb, h1, h2, OEvent.edge]
  have X : SwapEdge (256 + 128) 0 ((s2.evs 0).edge false) ((s3.evs 0).edge false) := by
    show SwapEdge _ _ _ (((bufferSwap s2 now2).evs 0).edge false)
    rw [e2, mapEdges_edge, r2]
    have : (s2.buf s2.cur).first = 0 := by rw [show s2.cur = true from hc1]; exact ft
    rw [this]
    exact swapEdge _ _ _
  refine ⟨tb, ?_, ?_, ?_⟩
  · rw [X.scheduled, st]
    exact ⟨rfl, by bv_omega⟩
  · rw [X.time, st]
  · rw [he3]
    by_contra hh
    have := (timeBefore_false_iff ns 512).mp (by simpa using hh)
    bv_omega

/-! ### C20 -/

/-- The steps when an output may be reconfigured at any time. -/
inductive DmaStepC {n : Nat} : Dma n → Dma n → Prop
  | base {s t : Dma n} (h : DmaStep s t) : DmaStepC s t
  | reconf (s : Dma n) (i : Fin n) (pin : BitVec 32) (inv : Bool) :
      DmaStepC s (s.set i { s.evs i with pin := pin, inverted := inv })

inductive DmaReachC {n : Nat} : Dma n → Prop
  | start {s : Dma n} (h : Started s) : DmaReachC s
  | step {s t : Dma n} (h : DmaReachC s) (e : DmaStepC s t) : DmaReachC t

/-- C20: whenever all outputs are idle, no buffer drives any output. -/
def C20_full : Prop :=
  ∀ (n : Nat) (s : Dma n), DmaReachC s → (∀ i w, ((s.evs i).edge w).state = .unscheduled) →
    ∀ b t p v, ¬ Drives (s.buf b) t p v

/-- C20 for histories that reconfigure an output only while neither of its edges is armed or committed.  Missing: a
reconfiguration of a busy output, for which it is false (`C20_full_false`). -/
theorem C20_partial {n : Nat} {s : Dma n} (h : DmaReach s) (hi : ∀ i w, ((s.evs i).edge w).state = .unscheduled)
    (b : Bool) (t : Time) (p : Fin 16) (v : Bool) : ¬ Drives (s.buf b) t p v := by
  rw [C19_exact h]
  rintro ⟨-, i, w, hs, -⟩
  rw [hi] at hs; cases hs

/-- The pulse of `demo3` is committed; the output is moved to pin 2 and rescheduled; the pulse is played, reported
fired and reset. -/
def demo4 : Dma 1 := demo3.set 0 { demo3.evs 0 with pin := 2, inverted := false }
def demo5 : Dma 1 := demo4.set 0 (setPins (demo4.evs 0))
def demo6 : Dma 1 := bufferSwap (bufferSwap demo5 520) 650
def demo7 : Dma 1 := demo6.set 0 { demo6.evs 0 with
  start := { (demo6.evs 0).start with state := .unscheduled }, stop := { (demo6.evs 0).stop with state := .unscheduled } }

theorem reachC {n : Nat} {s : Dma n} (h : DmaReach s) : DmaReachC s := by
  induction h with
  | start h => exact .start h
  | step _ e ih => exact .step ih (.base e)

theorem demo7_reach : DmaReachC demo7 := by
  have h4 : DmaReachC demo4 := .step (reachC demo3_reach) (.reconf _ 0 2 false)
  have h5 : DmaReachC demo5 := .step h4 (.base (.repin _ 0))
  have h6 : DmaReachC demo6 :=
    .step (.step h5 (.base (.swap demo5 520 (by decide +kernel)))) (.base (.swap _ 650 (by decide +kernel)))
  exact .step h6 (.base (.reset demo6 0 _ (by decide +kernel) (by decide +kernel)))

theorem demo7_idle : ∀ i w, ((demo7.evs i).edge w).state = .unscheduled := by decide +kernel

theorem demo7_stale : bitOf (demo7.buf false).slots 0 1 true = true := by decide +kernel

/-- C20 fails: moving a committed output to another pin leaves the old pin's bits in the buffer. -/
theorem C20_full_false : ¬ C20_full := fun h =>
  h 1 demo7 demo7_reach demo7_idle false _ 1 true ⟨0, rfl, demo7_stale⟩

/-- Such a bit is permanent: it is there after any number of swaps while the outputs are idle, so its pin is driven
every time its buffer is played. -/
theorem C20_permanent {n : Nat} (s : Dma n) (hi : ∀ i w, ((s.evs i).edge w).state = .unscheduled)
    (b : Bool) (k : Fin numSlots) (p : Fin 16) (v : Bool) (hb : bitOf (s.buf b).slots k p v = true)
    (nows : List Time) : bitOf ((nows.foldl bufferSwap s).buf b).slots k p v = true := by
  induction nows generalizing s with
  | nil => exact hb
  | cons now l ih =>
    obtain ⟨-, o, -, e, t⟩ := bufferSwap_spec s now
    apply ih
    · intro i w
      rw [e, mapEdges_edge]
      exact (swapEdge _ _ _).unscheduled.mpr (hi i w)
    · by_cases hc : b = s.cur
      · subst hc
        rw [t]
        exact .inl ⟨hb, fun i w hh => by have := hh.1; rw [hi] at this; cases this⟩
      · have : b = !s.cur := by cases b <;> cases h : s.cur <;> simp_all
        rw [this, o, ← this]; exact hb

end Verif
