/-
C21: the hosted timebase.
-/
import Verif.Model.Hosted
import Verif.Props.Buffers
import Mathlib.Data.List.FinRange

namespace Verif

/-! ### One swap -/

/-- What a hosted swap does to an edge. -/
def hostEdge (f : Time) (en : Entry) : Entry :=
  match en.state with
  | .submitted => { en with state := .fired }
  | .scheduled => if (en.time - f).toNat < 128 then { en with state := .submitted } else en
  | _ => en

/-- The edges a hosted swap copies from one event, in order. -/
def hostTake (f : Time) (ev : OEvent) : List Entry :=
  [ev.start, ev.stop].filter fun en => decide (en.state = .scheduled ∧ (en.time - f).toNat < 128)

theorem inRange_window (t f : Time) : timeInRange t f (f + 127) = true ↔ (t - f).toNat < 128 := by
  unfold timeInRange
  have : (f + 127 - f).toNat = 127 := by bv_omega
  rw [this, decide_eq_true_eq]; omega

theorem hostSubmit_eq (f : Time) (l : List Entry) (en : Entry) (hl : l.length < 64) :
    hostSubmit f (f + 127) l (hostFire en) =
      .ok (l ++ [en].filter (fun en => decide (en.state = .scheduled ∧ (en.time - f).toNat < 128)), hostEdge f en) := by
  unfold hostSubmit hostFire hostEdge addOutput
  simp only [inRange_window]
  by_cases h2 : (en.time - f).toNat < 128 <;> rcases hs : en.state with _ | _ | _ | _ <;>
    simp [hs, h2, hl, except_bind_ok, pure, Except.pure, -BitVec.toNat_sub]

theorem hostTake_length (f : Time) (ev : OEvent) : (hostTake f ev).length ≤ 2 :=
  le_trans (List.length_filter_le _ _) (by simp)

theorem hostAt_eq {n : Nat} (f : Time) (l : List Entry) (evs : Fin n → OEvent) (i : Fin n) (hl : l.length ≤ 62) :
    hostAt f (f + 127) (l, evs) i =
      .ok (l ++ hostTake f (evs i), setEv evs i (mapEdges (hostEdge f) (evs i))) := by
  unfold hostAt
  have h1 : (l ++ [(evs i).start].filter
      (fun en => decide (en.state = .scheduled ∧ (en.time - f).toNat < 128))).length < 64 := by
    rw [List.length_append]
    have := List.length_filter_le (fun en => decide (en.state = .scheduled ∧ (en.time - f).toNat < 128)) [(evs i).start]
    simp at this ⊢; omega
  rw [hostSubmit_eq f l _ (by omega), except_bind_ok]
  simp only []
  rw [hostSubmit_eq f _ _ h1, except_bind_ok]
  simp only [pure, Except.pure, Except.ok.injEq, Prod.mk.injEq]
  refine ⟨?_, rfl⟩
  rw [List.append_assoc, ← List.filter_append]; rfl

theorem hostSwap_list {n : Nat} (f : Time) (L : List (Fin n)) (hn : L.Nodup) (l : List Entry) (evs : Fin n → OEvent)
    (hl : l.length + 2 * L.length ≤ 64) :
    L.foldlM (hostAt f (f + 127)) (l, evs) =
      .ok (l ++ L.flatMap (fun i => hostTake f (evs i)),
        fun i => if i ∈ L then mapEdges (hostEdge f) (evs i) else evs i) := by
  induction L generalizing l evs with
  | nil => simp [pure, Except.pure]
  | cons a L ih =>
    simp only [List.length_cons] at hl
    rw [List.foldlM_cons, hostAt_eq f l evs a (by omega), except_bind_ok]
    have hl2 : (l ++ hostTake f (evs a)).length + 2 * L.length ≤ 64 := by
      have := hostTake_length f (evs a)
      rw [List.length_append]; omega
    rw [List.nodup_cons] at hn
    rw [ih hn.2 _ _ hl2]
    have e1 : ∀ i ∈ L, setEv evs a (mapEdges (hostEdge f) (evs a)) i = evs i := by
      intro i hi
      have : i ≠ a := fun h => hn.1 (h ▸ hi)
      simp [setEv, this]
    congr 2
    · rw [List.flatMap_cons, ← List.append_assoc]
      congr 1
      exact List.flatMap_congr fun i hi => by rw [e1 i hi]
    · funext i
      by_cases hi : i ∈ L
      · rw [if_pos hi, e1 i hi, if_pos (List.mem_cons_of_mem _ hi)]
      · rw [if_neg hi]
        by_cases ha : i = a
        · subst ha; simp [setEv]
        · simp [setEv, ha, hi]

theorem hostSwap_eq {n : Nat} (f : Time) (evs : Fin n → OEvent) (hn : n ≤ 32) :
    hostSwap f (f + 127) evs =
      .ok ((List.finRange n).flatMap (fun i => hostTake f (evs i)), fun i => mapEdges (hostEdge f) (evs i)) := by
  unfold hostSwap
  rw [hostSwap_list f _ (List.nodup_finRange n) _ _ (by simp; omega)]
  simp

/-! ### Histories -/

/-- The steps of the hosted output system: the timebase thread, and the atomic pieces of the control code on any
event, in any interleaving. -/
inductive HostStep {n : Nat} : Host n → Host n → Prop
  | tick (s : Host n) (h : s.swapped = true) : HostStep s (hostTick s)
  | window (s t : Host n) (l : List Entry) (h : s.swapped = false) (e : hostWindow s = .ok (l, t)) : HostStep s t
  | ctl (s : Host n) (i : Fin n) (ev : OEvent)
      (h : (∃ p q v w, ev = { s.evs i with start := { (s.evs i).start with pin := p, val := v },
                                           stop := { (s.evs i).stop with pin := q, val := w } }) ∨
        (∃ ns np, ev = scheduleCrit (hostEarliest s.cur) (s.evs i) ns np) ∨
        ev = descheduleCrit (s.evs i) ∨
        (eventHasFired (s.evs i) = true ∧ resetFiredEvent (s.evs i) = .ok ev) ∨
        (∃ ty an p v, ev = { s.evs i with type := ty, angle := an, pin := p, inverted := v })) :
      HostStep s { s with evs := setEv s.evs i ev }

inductive HostReach {n : Nat} : Host n → Prop
  | start (evs : Fin n → OEvent) (h : ∀ i w, ((evs i).edge w).state = .unscheduled) :
      HostReach { cur := 0, swapped := true, evs := evs }
  | step {s t : Host n} (h : HostReach s) (e : HostStep s t) : HostReach t

/-- First tick not yet handed over. -/
def Host.next {n : Nat} (s : Host n) : Time := if s.swapped then s.cur + 128 else s.cur

structure HostInv {n : Nat} (s : Host n) : Prop where
  aligned : s.cur.toNat % 128 = 0
  scheduled : ∀ i w, ((s.evs i).edge w).state = .scheduled → (((s.evs i).edge w).time - s.next).toNat < 2 ^ 31 + 128
  ahead : ∀ i w, ((s.evs i).edge w).state = .scheduled → s.swapped = true →
    (((s.evs i).edge w).time - s.next).toNat < 2 ^ 31

theorem hostEarliest_aligned (c : Time) (h : c.toNat % 128 = 0) : hostEarliest c = c + 128 := by
  unfold hostEarliest
  have : c.udiv 128 * 128 = c := by
    apply BitVec.eq_of_toNat_eq
    have e : (c.udiv 128).toNat = c.toNat / 128 := BitVec.toNat_udiv
    have := c.isLt
    rw [BitVec.toNat_mul, e]
    show c.toNat / 128 * 128 % 2 ^ 32 = _
    omega
  rw [this]

theorem hostWindow_eq {n : Nat} (s : Host n) (hn : n ≤ 32) :
    hostWindow s = .ok ((List.finRange n).flatMap (fun i => hostTake s.cur (s.evs i)),
      { s with swapped := true, evs := fun i => mapEdges (hostEdge s.cur) (s.evs i) }) := by
  unfold hostWindow
  rw [hostSwap_eq _ _ hn]; rfl

theorem entryEnable_sched {e : Time} {x : Entry} {t : Time} (_h : (entryEnable e x t).1.state = .scheduled) :
    (entryEnable e x t).1 = x ∨ ((entryEnable e x t).1.time - e).toNat < 2 ^ 31 := by
  rcases entryEnable_cases e x t with ⟨k, k1⟩ | ⟨k, k1, k2, k3⟩
  · rw [k]; exact .inl rfl
  · rw [k]; rw [timeBefore_false_iff] at k3; exact .inr k3

theorem scheduleCrit_sched {e : Time} {ev : OEvent} {ns np : Time} {w : Bool}
    (h : ((scheduleCrit e ev ns np).edge w).state = .scheduled) :
    (scheduleCrit e ev ns np).edge w = ev.edge w ∨ (((scheduleCrit e ev ns np).edge w).time - e).toNat < 2 ^ 31 := by
  revert h
  unfold scheduleCrit
  split_ifs
  · cases w
    · exact fun h => entryEnable_sched h
    · exact fun h => entryEnable_sched h
  · exact fun _ => .inl rfl
  · cases w
    · exact fun h => entryEnable_sched h
    · exact fun h => entryEnable_sched h

theorem descheduleCrit_sched {ev : OEvent} {w : Bool} (h : ((descheduleCrit ev).edge w).state = .scheduled) :
    (descheduleCrit ev).edge w = ev.edge w := by
  have dis : ∀ x : Entry, (entryDisable x).1.state ≠ .scheduled := by
    intro x; unfold entryDisable; split_ifs with k
    · exact k
    · simp
  revert h
  unfold descheduleCrit
  split_ifs
  · cases w
    · exact fun h => absurd h (dis _)
    · exact fun h => absurd h (dis _)
  · exact fun _ => rfl

theorem host_inv {n : Nat} (hn : n ≤ 32) {s : Host n} (h : HostReach s) : HostInv s := by
  induction h with
  | start evs h =>
    exact ⟨rfl, fun i w hs => by simp [h i w] at hs, fun i w hs => by simp [h i w] at hs⟩
  | @step s t _ e ih =>
    obtain ⟨al, sc, ah⟩ := ih
    cases e with
    | tick hs =>
      have e1 : (hostTick s).next = s.next := by simp [Host.next, hostTick, hs]
      refine ⟨?_, fun i w h => ?_, fun i w h hh => by simp [hostTick] at hh⟩
      · show (s.cur + 128).toNat % 128 = 0
        bv_omega
      · rw [e1]; exact sc i w h
    | window _ l hs e =>
      rw [hostWindow_eq _ hn] at e
      simp only [Except.ok.injEq, Prod.mk.injEq] at e
      obtain ⟨-, rfl⟩ := e
      have key : ∀ i w, (((fun i => mapEdges (hostEdge s.cur) (s.evs i)) i).edge w).state = .scheduled →
          ((((fun i => mapEdges (hostEdge s.cur) (s.evs i)) i).edge w).time - (s.cur + 128)).toNat < 2 ^ 31 := by
        intro i w
        simp only [mapEdges_edge]
        have old := sc i w
        have e0 : s.next = s.cur := by simp [Host.next, hs]
        rw [e0] at old
        generalize (s.evs i).edge w = en at *
        unfold hostEdge
        rcases hst : en.state with _ | _ | _ | _ <;> simp only
        · intro h; rw [hst] at h; cases h
        · split_ifs with h2
          · intro h; cases h
          · intro _
            have := old hst
            generalize s.cur = c at *
            generalize en.time = t at *
            bv_omega
        · intro h; cases h
        · intro h; rw [hst] at h; cases h
      have e1 : ({ s with swapped := true, evs := fun i => mapEdges (hostEdge s.cur) (s.evs i) } : Host n).next =
        s.cur + 128 := rfl
      refine ⟨al, fun i w h => ?_, fun i w h _ => ?_⟩
      · rw [e1]; exact lt_trans (key i w h) (by norm_num)
      · rw [e1]; exact key i w h
    | ctl i ev h =>
      have he := hostEarliest_aligned s.cur al
      have key : ∀ w, (ev.edge w).state = .scheduled →
          ((ev.edge w).time = ((s.evs i).edge w).time ∧ ((s.evs i).edge w).state = .scheduled) ∨
          ((ev.edge w).time - (s.cur + 128)).toNat < 2 ^ 31 := by
        intro w hw
        rcases h with ⟨p, q, v, x, rfl⟩ | ⟨ns, np, rfl⟩ | rfl | ⟨h1, h2⟩ | ⟨ty, an, p, v, rfl⟩
        · cases w
          · exact .inl ⟨rfl, hw⟩
          · exact .inl ⟨rfl, hw⟩
        · rw [he] at hw ⊢
          rcases scheduleCrit_sched hw with k | k
          · rw [k] at hw ⊢; exact .inl ⟨rfl, hw⟩
          · exact .inr k
        · have k := descheduleCrit_sched hw
          rw [k] at hw ⊢; exact .inl ⟨rfl, hw⟩
        · obtain ⟨-, -, rfl⟩ := reset_ok h2
          cases w <;> simp [OEvent.edge] at hw
        · cases w
          · exact .inl ⟨rfl, hw⟩
          · exact .inl ⟨rfl, hw⟩
      have ed : ∀ j w, ((setEv s.evs i ev) j).edge w = if j = i then ev.edge w else (s.evs j).edge w := by
        intro j w; unfold setEv; split_ifs <;> rfl
      have e1 : ({ s with evs := setEv s.evs i ev } : Host n).next = s.next := rfl
      have nx : s.next = s.cur ∨ s.next = s.cur + 128 := by
        unfold Host.next; split_ifs <;> simp
      refine ⟨al, fun j w => ?_, fun j w => ?_⟩
      · show (((setEv s.evs i ev) j).edge w).state = .scheduled → ((((setEv s.evs i ev) j).edge w).time - s.next).toNat < _
        rw [ed]
        split_ifs with hj
        · subst hj
          intro hw
          rcases key w hw with ⟨k1, k2⟩ | k
          · rw [k1]; exact sc j w k2
          · generalize (ev.edge w).time = t at *
            rcases nx with nx | nx <;> rw [nx] <;> bv_omega
        · exact sc j w
      · show (((setEv s.evs i ev) j).edge w).state = .scheduled → s.swapped = true →
          ((((setEv s.evs i ev) j).edge w).time - s.next).toNat < _
        rw [ed]
        split_ifs with hj
        · subst hj
          intro hw hsw
          rcases key w hw with ⟨k1, k2⟩ | k
          · rw [k1]; exact ah j w k2 hsw
          · have : s.next = s.cur + 128 := by simp [Host.next, hsw]
            rw [this]; exact k
        · exact ah j w

/-! ### C21 -/

/-- All edges, in the order of the configuration. -/
def allEdges {n : Nat} (evs : Fin n → OEvent) : List Entry :=
  (List.finRange n).flatMap fun i => [(evs i).start, (evs i).stop]

/-- C21, one window: the swap of the window that starts at the current time never leaves the array, the window's list
is exactly the armed edges whose time is in the window, and those become committed; the ones committed
before are now fired, and no other edge changes. -/
theorem C21_window {n : Nat} (hn : n ≤ 32) (s : Host n) :
    ∃ t, hostWindow s = .ok ((allEdges s.evs).filter fun en =>
        decide (en.state = .scheduled ∧ (en.time - s.cur).toNat < 128), t) ∧
      t.cur = s.cur ∧ ∀ i w,
        ((t.evs i).edge w).time = ((s.evs i).edge w).time ∧
        (((t.evs i).edge w).state = .submitted ↔
          ((s.evs i).edge w).state = .scheduled ∧ (((s.evs i).edge w).time - s.cur).toNat < 128) ∧
        (((t.evs i).edge w).state = .scheduled ↔
          ((s.evs i).edge w).state = .scheduled ∧ ¬ (((s.evs i).edge w).time - s.cur).toNat < 128) ∧
        (((t.evs i).edge w).state = .fired ↔
          ((s.evs i).edge w).state = .fired ∨ ((s.evs i).edge w).state = .submitted) := by
  refine ⟨{ s with swapped := true, evs := fun i => mapEdges (hostEdge s.cur) (s.evs i) }, ?_, rfl, ?_⟩
  · rw [hostWindow_eq s hn]
    congr 2
    unfold allEdges hostTake
    rw [List.filter_flatMap]
  · intro i w
    simp only [mapEdges_edge]
    generalize (s.evs i).edge w = en
    unfold hostEdge
    by_cases h : (en.time - s.cur).toNat < 128 <;> rcases hs : en.state with _ | _ | _ | _ <;>
      simp [hs, h, -BitVec.toNat_sub]

/-- C21: with 16 outputs the list has at most 32 entries, half the array. -/
theorem C21_list_bound {n : Nat} (s t : Host n) (l : List Entry) (hn : n ≤ 32) (h : hostWindow s = .ok (l, t)) :
    l.length ≤ 2 * n := by
  obtain ⟨t', e, -⟩ := C21_window hn s
  rw [e] at h
  simp only [Except.ok.injEq, Prod.mk.injEq] at h
  rw [← h.1]
  refine le_trans (List.length_filter_le _ _) ?_
  unfold allEdges
  rw [List.length_flatMap]
  simp [Nat.mul_comm]

/-- C21, nothing is late: in every reachable state an armed edge is in a window that has not been handed over yet. -/
theorem C21_armed_in_time {n : Nat} (hn : n ≤ 32) {s : Host n} (h : HostReach s) (i : Fin n) (w : Bool)
    (hs : ((s.evs i).edge w).state = .scheduled) :
    (((s.evs i).edge w).time - s.next).toNat < 2 ^ 31 + 128 := (host_inv hn h).scheduled i w hs

/-- A path in which one edge is not moved, cancelled or reset, counting the windows. -/
inductive HHold {n : Nat} (i : Fin n) (w : Bool) (s : Host n) : Nat → Host n → Prop
  | refl : HHold i w s 0 s
  | ctl {c : Nat} {t u : Host n} (h : HHold i w s c t) (e : HostStep t u)
      (hc : u.next = t.next)
      (ht : ((u.evs i).edge w).time = ((t.evs i).edge w).time)
      (hs : ((u.evs i).edge w).state = ((t.evs i).edge w).state) : HHold i w s c u
  | window {c : Nat} {t u : Host n} {l : List Entry} (h : HHold i w s c t) (hsw : t.swapped = false)
      (e : hostWindow t = .ok (l, u)) : HHold i w s (c + 1) u

theorem HHold.next {n : Nat} (hn : n ≤ 32) {i : Fin n} {w : Bool} {s t : Host n} {c : Nat} (p : HHold i w s c t) :
    t.next = s.next + 128 * BitVec.ofNat 32 c := by
  induction p with
  | refl => simp
  | ctl _ _ hc _ _ ih => rw [hc, ih]
  | window p hsw e ih =>
    rename_i c t u l
    rw [hostWindow_eq _ hn] at e
    simp only [Except.ok.injEq, Prod.mk.injEq] at e
    obtain ⟨-, rfl⟩ := e
    have h1 : t.next = t.cur := by simp [Host.next, hsw]
    show t.cur + 128 = _
    rw [← h1, ih]
    have : BitVec.ofNat 32 (c + 1) = BitVec.ofNat 32 c + 1 := by
      apply BitVec.eq_of_toNat_eq; simp
    rw [this, BitVec.mul_add, BitVec.add_assoc]; rfl

/-- C21, exactly once.  An edge armed `m` windows ahead, and not moved, cancelled or reset, stays armed for `m`
windows, is handed over in the next one (`C21_window`: the one that contains its time), and has fired from the
one after that on. -/
theorem C21_exactly_once {n : Nat} (hn : n ≤ 32) {s t : Host n} {i : Fin n} {w : Bool} {c : Nat} (h : HostReach s)
    (hs : ((s.evs i).edge w).state = .scheduled) (p : HHold i w s c t) :
    let m := (((s.evs i).edge w).time - s.next).toNat / 128
    ((t.evs i).edge w).time = ((s.evs i).edge w).time ∧
    (c ≤ m → ((t.evs i).edge w).state = .scheduled) ∧
    (c = m + 1 → ((t.evs i).edge w).state = .submitted) ∧
    (m + 2 ≤ c → ((t.evs i).edge w).state = .fired) := by
  intro m
  have hm := C21_armed_in_time hn h i w hs
  induction p with
  | refl => exact ⟨rfl, fun _ => hs, by omega, by omega⟩
  | ctl p e hc ht hst ih =>
    rw [ht, hst]; exact ih
  | window p hsw e ih =>
    rename_i c t u l
    obtain ⟨a1, a2, a3, a4⟩ := ih
    have F := p.next hn
    obtain ⟨u', e', -, X⟩ := C21_window hn t
    rw [e] at e'
    simp only [Except.ok.injEq, Prod.mk.injEq] at e'
    obtain ⟨-, rfl⟩ := e'
    obtain ⟨x1, x2, x3, x4⟩ := X i w
    have h1 : t.next = t.cur := by simp [Host.next, hsw]
    rw [h1] at F
    rw [x1, x2, x3, x4, a1, F]
    simp only [m] at a2 a3 a4 ⊢
    generalize ((s.evs i).edge w).time = T at *
    generalize s.next = f at *
    generalize ((t.evs i).edge w).state = st at *
    generalize hd : (T - f).toNat = d at *
    have off : ∀ c : Nat, c ≤ d / 128 + 3 → (128 * BitVec.ofNat 32 c).toNat = 128 * c := by
      intro c hc
      rw [BitVec.toNat_mul, BitVec.toNat_ofNat]
      have : (128 : BitVec 32).toNat = 128 := rfl
      rw [this, Nat.mod_eq_of_lt (a := c) (by omega), Nat.mod_eq_of_lt (by omega)]
    refine ⟨by trivial, ?_, ?_, ?_⟩
    · intro hc
      have := off c (by omega)
      exact ⟨a2 (by omega), by bv_omega⟩
    · intro hc
      have := off c (by omega)
      exact ⟨a2 (by omega), by bv_omega⟩
    · intro hc
      by_cases hc' : c = d / 128 + 1
      · exact .inr (a3 hc')
      · exact .inl (a4 (by omega))

/-! ### Order and reporting within a window -/

theorem compare_le {f : Time} {a b : Entry} (ha : (a.time - f).toNat < 128) (hb : (b.time - f).toNat < 128)
    (h : outputCompare a b ≤ 0) : (a.time - f).toNat ≤ (b.time - f).toNat := by
  unfold outputCompare at h
  split_ifs at h with h1 h2
  · rw [h1]
  · rw [timeBefore_iff] at h2
    bv_omega
  · omega

theorem doSlots_spec (f : Time) (l : List Entry) : ∀ (out : BitVec 16), (∀ e ∈ l, (e.time - f).toNat < 128) →
    l.Pairwise (fun a b => (a.time - f).toNat ≤ (b.time - f).toNat) →
    (doSlots out l).1 = l.foldl applyEdge out ∧
    (∀ t o, (t, o) ∈ (doSlots out l).2 ↔ (∃ e ∈ l, e.time = t) ∧
      o = (l.filter fun e => decide ((e.time - f).toNat ≤ (t - f).toNat)).foldl applyEdge out) ∧
    (doSlots out l).2.Pairwise (fun a b => (a.1 - f).toNat < (b.1 - f).toNat) := by
  induction l with
  | nil => intro out _ _; simp [doSlots]
  | cons s l ih =>
    intro out hw hp
    cases l with
    | nil =>
      simp only [doSlots]
      refine ⟨rfl, ?_, by simp⟩
      intro t o
      simp only [List.mem_singleton, Prod.mk.injEq, exists_eq_left]
      constructor
      · rintro ⟨rfl, rfl⟩; simp
      · rintro ⟨rfl, rfl⟩; simp
    | cons r l =>
      rw [List.pairwise_cons] at hp
      obtain ⟨i1, i2, i3⟩ := ih (applyEdge out s) (fun e he => hw e (List.mem_cons_of_mem _ he)) hp.2
      have hs := hw s (by simp)
      have filt : ∀ t, (∃ e ∈ r :: l, e.time = t) →
          ((s :: r :: l).filter fun e => decide ((e.time - f).toNat ≤ (t - f).toNat)) =
            s :: ((r :: l).filter fun e => decide ((e.time - f).toNat ≤ (t - f).toNat)) := by
        rintro t ⟨e, he, rfl⟩
        rw [List.filter_cons, if_pos (by simpa only [decide_eq_true_eq] using hp.1 e he)]
      by_cases heq : s.time = r.time
      · have e0 : doSlots out (s :: r :: l) = ((doSlots (applyEdge out s) (r :: l)).1, (doSlots (applyEdge out s) (r :: l)).2) := by
          rw [doSlots]; simp only [if_pos heq]
        rw [e0]
        refine ⟨i1, ?_, i3⟩
        intro t o
        have : (∃ e ∈ s :: r :: l, e.time = t) ↔ ∃ e ∈ r :: l, e.time = t := by
          simp only [List.mem_cons, exists_eq_or_imp]
          rw [heq]; tauto
        rw [i2, this]
        constructor
        · rintro ⟨h1, h2⟩; exact ⟨h1, by rw [filt t h1]; exact h2⟩
        · rintro ⟨h1, h2⟩; exact ⟨h1, by rw [filt t h1] at h2; exact h2⟩
      · have e0 : doSlots out (s :: r :: l) = ((doSlots (applyEdge out s) (r :: l)).1,
            (s.time, applyEdge out s) :: (doSlots (applyEdge out s) (r :: l)).2) := by
          rw [doSlots]; simp only [if_neg heq]
        rw [e0]
        have lt : ∀ e ∈ r :: l, (s.time - f).toNat < (e.time - f).toNat := by
          intro e he
          have h1 : (s.time - f).toNat ≤ (r.time - f).toNat := hp.1 r (by simp)
          have h2 : (r.time - f).toNat ≤ (e.time - f).toNat := by
            rcases List.mem_cons.mp he with rfl | he
            · exact le_refl _
            · exact (List.pairwise_cons.mp hp.2).1 e he
          have h3 : (s.time - f).toNat ≠ (r.time - f).toNat := by
            intro h; apply heq; bv_omega
          omega
        have none : ((r :: l).filter fun e => decide ((e.time - f).toNat ≤ (s.time - f).toNat)) = [] := by
          rw [List.filter_eq_nil_iff]
          intro e he
          have := lt e he
          simp only [decide_eq_true_eq]; omega
        refine ⟨i1, ?_, ?_⟩
        · intro t o
          rw [List.mem_cons, i2]
          constructor
          · rintro (h | ⟨h1, h2⟩)
            · obtain ⟨rfl, rfl⟩ := Prod.mk.inj h
              refine ⟨⟨s, by simp, rfl⟩, ?_⟩
              rw [List.filter_cons, if_pos (by simp), none]; rfl
            · refine ⟨?_, by rw [filt t h1]; exact h2⟩
              obtain ⟨e, he, h⟩ := h1
              exact ⟨e, List.mem_cons_of_mem _ he, h⟩
          · rintro ⟨⟨e, he, rfl⟩, h2⟩
            rcases List.mem_cons.mp he with rfl | he
            · left
              rw [List.filter_cons, if_pos (by simp), none] at h2
              rw [h2]; rfl
            · right
              exact ⟨⟨e, he, rfl⟩, by rw [filt _ ⟨e, he, rfl⟩] at h2; exact h2⟩
        · rw [List.pairwise_cons]
          refine ⟨?_, i3⟩
          rintro ⟨t, o⟩ hto
          obtain ⟨⟨e, he, rfl⟩, -⟩ := (i2 t o).mp hto
          exact lt e he

/-- C21, order: whatever order the sort picks for equal times, the edges of a window are applied in time order; there
is one report per distinct edge time, in time order, and it carries the outputs with exactly the edges up to and
including that time applied. -/
theorem C21_order {n : Nat} (hn : n ≤ 32) (s t : Host n) (l l' : List Entry) (out : BitVec 16)
    (hw : hostWindow s = .ok (l, t)) (hq : QSorted l l') :
    l'.Pairwise (fun a b => (a.time - s.cur).toNat ≤ (b.time - s.cur).toNat) ∧
    (doSlots out l').1 = l'.foldl applyEdge out ∧
    (∀ x o, (x, o) ∈ (doSlots out l').2 ↔ (∃ e ∈ l', e.time = x) ∧
      o = (l'.filter fun e => decide ((e.time - s.cur).toNat ≤ (x - s.cur).toNat)).foldl applyEdge out) ∧
    (doSlots out l').2.Pairwise (fun a b => (a.1 - s.cur).toNat < (b.1 - s.cur).toNat) := by
  obtain ⟨t', e, -⟩ := C21_window hn s
  rw [e] at hw
  simp only [Except.ok.injEq, Prod.mk.injEq] at hw
  have win : ∀ x ∈ l', (x.time - s.cur).toNat < 128 := by
    intro x hx
    have := hq.1.mem_iff.mp hx
    rw [← hw.1, List.mem_filter, decide_eq_true_eq] at this
    exact this.2.2
  have so : l'.Pairwise (fun a b => (a.time - s.cur).toNat ≤ (b.time - s.cur).toNat) :=
    hq.2.imp_of_mem fun ha hb h => compare_le (win _ ha) (win _ hb) h
  exact ⟨so, doSlots_spec s.cur l' out win so⟩

/-- The level of pin `p` after the edges of `l`: that of the last edge on this pin. -/
def pinLevelAfter (l : List Entry) (p : Nat) (before : Bool) : Bool :=
  match (l.filter fun e => decide (e.pin.toNat = p)).getLast? with
  | some e => e.val
  | none => before

theorem applyEdge_bit (out : BitVec 16) (e : Entry) {p : Nat} (hp : p < 16) :
    (applyEdge out e).getLsbD p = if e.pin.toNat = p then e.val else out.getLsbD p := by
  have hm : (pinMask e.pin).getLsbD p = decide (e.pin.toNat = p) := by
    unfold pinMask
    rw [BitVec.getLsbD_shiftLeft, BitVec.getLsbD_one, Bool.eq_iff_iff]
    simp [hp]
    omega
  unfold applyEdge
  by_cases h : e.pin.toNat = p
  · cases hv : e.val <;> simp [h, BitVec.getLsbD_or, BitVec.getLsbD_and, hm, hp, -BitVec.getLsbD_eq_getElem]
  · cases hv : e.val <;> simp [h, BitVec.getLsbD_or, BitVec.getLsbD_and, hm, hp, -BitVec.getLsbD_eq_getElem]

theorem pinLevelAfter_foldl (l : List Entry) (out : BitVec 16) {p : Nat} (hp : p < 16) :
    (l.foldl applyEdge out).getLsbD p = pinLevelAfter l p (out.getLsbD p) := by
  induction l generalizing out with
  | nil => rfl
  | cons e l ih =>
    rw [List.foldl_cons, ih, applyEdge_bit out e hp]
    unfold pinLevelAfter
    by_cases h : e.pin.toNat = p
    · rw [if_pos h, List.filter_cons_of_pos (by simp [h])]
      cases hl : l.filter (fun e => decide (e.pin.toNat = p)) with
      | nil => rfl
      | cons a as =>
        rw [List.getLast?_cons_cons]
        cases h : (a :: as).getLast? with
        | none => simp at h
        | some x => rfl
    · rw [if_neg h, List.filter_cons_of_neg (by simp [h])]

/-- C21, what is reported: the levels of the 16 pins after each reported time, and at the end of the window,
are those of the last edge up to then on each pin, and pins without an edge keep their level. -/
theorem C21_levels {n : Nat} (hn : n ≤ 32) (s t : Host n) (l l' : List Entry) (out : BitVec 16)
    (hw : hostWindow s = .ok (l, t)) (hq : QSorted l l') {p : Nat} (hp : p < 16) :
    (doSlots out l').1.getLsbD p = pinLevelAfter l' p (out.getLsbD p) ∧
    ∀ x o, (x, o) ∈ (doSlots out l').2 →
      o.getLsbD p =
        pinLevelAfter (l'.filter fun e => decide ((e.time - s.cur).toNat ≤ (x - s.cur).toNat)) p (out.getLsbD p) := by
  obtain ⟨-, h1, h2, -⟩ := C21_order hn s t l l' out hw hq
  refine ⟨by rw [h1, pinLevelAfter_foldl _ _ hp], fun x o h => ?_⟩
  rw [((h2 x o).mp h).2, pinLevelAfter_foldl _ _ hp]

/-- Every step of the hosted platform is, for each output, one of the atomic steps of `Verif.Spec.Output` (or
nothing). -/
theorem C11_hosted_is_path {n : Nat} (hn : n ≤ 32) {s t : Host n} (h : HostReach s) (e : HostStep s t) (i : Fin n) :
    (⟨t.next, t.evs i⟩ : EvSt) = ⟨s.next, s.evs i⟩ ∨ EvStep anyTimes ⟨s.next, s.evs i⟩ ⟨t.next, t.evs i⟩ := by
  cases e with
  | tick hs =>
    left
    have e1 : (hostTick s).next = s.next := by simp [Host.next, hostTick, hs]
    rw [e1]; rfl
  | window _ l hs e =>
    rw [hostWindow_eq _ hn] at e
    simp only [Except.ok.injEq, Prod.mk.injEq] at e
    obtain ⟨-, rfl⟩ := e
    right
    have e0 : s.next = s.cur := by simp [Host.next, hs]
    rw [e0]
    have sw : ∀ en : Entry, EdgeSwap s.cur en (hostEdge s.cur en) := by
      intro en
      unfold hostEdge
      rcases hst : en.state with _ | _ | _ | _ <;> simp only
      · exact .idle _ (by simp [hst])
      · split_ifs with hh
        · exact .submit _ hst hh
        · exact .later _ hst (Nat.not_lt.mp hh)
      · exact .fire _ hst
      · exact .idle _ (by simp [hst])
    exact .swap ⟨s.cur, s.evs i⟩ _ _ (sw _) (sw _)
  | ctl j ev hc =>
    have al := (host_inv hn h).aligned
    have he := hostEarliest_aligned s.cur al
    have e1 : ({ s with evs := setEv s.evs j ev } : Host n).next = s.next := rfl
    rw [e1]
    by_cases hj : i = j
    · subst hj
      have e2 : setEv s.evs i ev i = ev := by simp [setEv]
      show _ ∨ EvStep anyTimes _ ⟨s.next, setEv s.evs i ev i⟩
      rw [e2]
      right
      rcases hc with ⟨p, q, v, x, rfl⟩ | ⟨ns, np, rfl⟩ | rfl | ⟨h1, h2⟩ | ⟨ty, an, p, v, rfl⟩
      · exact .repin ⟨s.next, s.evs i⟩ p q v x
      · refine .arm ⟨s.next, s.evs i⟩ _ ns np ?_ trivial
        rw [he]
        show (s.cur + 128 - s.next).toNat ≤ 128
        unfold Host.next; split_ifs <;> bv_omega
      · exact .cancel ⟨s.next, s.evs i⟩
      · exact .reset ⟨s.next, s.evs i⟩ ev h1 h2
      · exact .config ⟨s.next, s.evs i⟩ ty an p v
    · left
      simp [setEv, hj]

/-! ### A concrete run -/

def hostDemo0 : Host 1 := { cur := 0, swapped := true, evs := fun _ => demoEv }
def hostDemo1 : Host 1 :=
  { hostDemo0 with evs := setEv hostDemo0.evs 0 (scheduleCrit (hostEarliest 0) (hostDemo0.evs 0) 200 300) }

theorem hostDemo1_reach : HostReach hostDemo1 :=
  .step (.start _ (by intro i w; cases w <;> rfl)) (.ctl hostDemo0 0 _ (.inr (.inl ⟨200, 300, rfl⟩)))

/-- An armed edge in a reachable state, and the window that hands it over. -/
example : ((hostDemo1.evs 0).edge false).state = .scheduled ∧
    (((hostDemo1.evs 0).edge false).time - hostDemo1.next).toNat / 128 = 0 ∧
    ∃ l t, hostWindow (hostTick hostDemo1) = .ok (l, t) ∧ HHold 0 false hostDemo1 1 t ∧ l.length = 1 :=
  ⟨by decide +kernel, by decide +kernel, _, _, hostWindow_eq _ (by decide),
   .window (.ctl .refl (.tick hostDemo1 rfl) (by decide +kernel) rfl rfl) rfl (hostWindow_eq _ (by decide)),
   by decide +kernel⟩

example : doSlots 0 [⟨130, 1, true, .scheduled⟩, ⟨140, 2, true, .scheduled⟩, ⟨140, 1, false, .scheduled⟩] =
    (4, [(130, 2), (140, 4)]) := by decide +kernel

end Verif
