/-
C08: the callback queue.  C09: the callback array.
-/
import Verif.Proofs.Callback
import Verif.Props.Time
import Mathlib.Data.Fintype.Card
import Mathlib.Tactic.DeriveFintype
import Mathlib.Data.Fintype.Sum

namespace Verif

section
variable {α : Type} [DecidableEq α]

/-- Histories of the queue next to the specification: requests (at a true time, of which the code
sees the 32-bit stamp; other pending requests within half a wrap), and timer interrupts, which
first take the head callback and then (after the callback ran, possibly with more requests) rearm
the timer.  The flag says whether the history is inside an interrupt. -/
inductive QReach : CbQ α → TimerSpec α → Bool → Prop
  | init : QReach (CbQ.init α) (TimerSpec.empty α) false
  | request {q q' s b} (c : α) (due : Int) : QReach q s b → s.Near c due →
      scheduleCallback q c (stamp due) = .ok q' → QReach q' (s.request c due) b
  | take {q q' s} (now : Time) (c : α) : QReach q s false → executeTake q now = .ok (c, q') →
      QReach q' (s.served c) true
  | rearm {q q' s} : QReach q s true → executeRearm q = .ok q' → QReach q' s false

/-- The queue `q`, read as the list `l`, represents the specification state `s`. -/
structure Represents (q : CbQ α) (s : TimerSpec α) (l : List α) : Prop where
  /-- the array holds `l` and then NULLs -/
  array : ∀ i (h : i < maxCallbacks), q.arr ⟨i, h⟩ = l[i]?
  count : q.n = l.length
  /-- each callback at most once -/
  nodup : l.Nodup
  /-- exactly the pending callbacks -/
  mem : ∀ c, c ∈ l ↔ (s.pend c).isSome
  /-- the `scheduled` field says whether it is pending -/
  flag : ∀ c, q.scheduled c = (s.pend c).isSome
  /-- at the most recently requested time -/
  time : ∀ c r, s.pend c = some r → q.time c = stamp r.due
  /-- in order of due time, first come first served -/
  sorted : l.Pairwise fun c d => ∀ r r', s.pend c = some r → s.pend d = some r' → r.before r'

/-! ## C09 -/

/-- Every history of the queue operations on 32-bit times, with no assumption on the times. -/
inductive CReach : CbQ α → Prop
  | init : CReach (CbQ.init α)
  | request {q q'} (c : α) (t : Time) : CReach q → scheduleCallback q c t = .ok q' → CReach q'
  | take {q q'} (now : Time) (c : α) : CReach q → executeTake q now = .ok (c, q') → CReach q'
  | rearm {q q'} : CReach q → executeRearm q = .ok q' → CReach q'

theorem CReach.inv [Fintype α] (hcard : Fintype.card α ≤ maxCallbacks) {q : CbQ α}
    (h : CReach q) : ∃ l, QInv q l := by
  induction h with
  | init => exact ⟨[], fun i h => rfl, rfl, List.nodup_nil, fun c => by simp [CbQ.init]⟩
  | request c t _ e ih =>
    obtain ⟨l, hl⟩ := ih
    obtain ⟨q', l0, l1, l2, e', _, _, hq, _⟩ := scheduleCallback_spec hcard hl c t
    rw [e] at e'
    cases e'
    exact ⟨_, hq⟩
  | take now c _ e ih =>
    obtain ⟨l, hl⟩ := ih
    obtain ⟨l', _, hq, _⟩ := executeTake_spec hl (hl.len hcard) e
    exact ⟨l', hq⟩
  | rearm _ e ih =>
    obtain ⟨l, hl⟩ := ih
    obtain ⟨q', e', hq, _⟩ := executeRearm_spec hl
    rw [e] at e'
    cases e'
    exact ⟨l, hq⟩

end

deriving instance Fintype for CbId

theorem card_cbId : Fintype.card CbId ≤ maxCallbacks := by decide

/-- With the callbacks of the firmware, a request never writes outside the array, never follows a
NULL entry and never fails the removal assertion, whatever happened before. -/
theorem C09_request_never_faults (q : CbQ CbId) (h : CReach q) (c : CbId) (t : Time) :
    ∃ q', scheduleCallback q c t = .ok q' := by
  obtain ⟨l, hl⟩ := h.inv card_cbId
  obtain ⟨q', _, _, _, e, _⟩ := scheduleCallback_spec card_cbId hl c t
  exact ⟨q', e⟩

/-- The timer interrupt either runs one callback, or stops at its own opening assertions (nothing
pending, or the first pending callback not yet due: see C10); rearming never faults. -/
theorem C09_interrupt_never_faults (q : CbQ CbId) (h : CReach q) (now : Time) :
    ((∃ c q', executeTake q now = .ok (c, q')) ∨
      (executeTake q now = .error .assertFail ∧ (q.n = 0 ∨ ∃ c, q.arr 0 = some c ∧
        timeBeforeOrEqual (q.time c) now = false))) ∧
    ∃ q', executeRearm q = .ok q' := by
  obtain ⟨l, hl⟩ := h.inv card_cbId
  refine ⟨?_, ?_⟩
  · rcases l with _ | ⟨c0, l'⟩
    · right
      have h0 : q.n = 0 := by rw [hl.count]; rfl
      refine ⟨?_, Or.inl h0⟩
      unfold executeTake
      rw [h0]; rfl
    · have h0 : rd q.arr 0 = .ok (some c0) := by
        have h0 := rd_ok q.arr 0 (by decide)
        rw [hl.array 0 (by decide)] at h0
        exact h0
      have hn : q.n > 0 := by rw [hl.count]; simp
      cases hd : timeBeforeOrEqual (q.time c0) now with
      | false =>
        right
        refine ⟨?_, Or.inr ⟨c0, hl.array 0 (by decide), hd⟩⟩
        unfold executeTake
        rw [headTime_ok hl.array, decide_eq_true hn, cassert_true, except_bind_ok, except_bind_ok, hd]
        rfl
      | true =>
        left
        obtain ⟨l1, l2, q1, h1, h2, h3, h4, h5, h6, h7, h8⟩ :=
          callbackRemove_spec hl.array hl.count (hl.len card_cbId) (show c0 ∈ c0 :: l' by simp)
        refine ⟨c0, q1, ?_⟩
        unfold executeTake
        rw [headTime_ok hl.array, decide_eq_true hn, cassert_true, except_bind_ok, except_bind_ok, hd,
          cassert_true, except_bind_ok, h0, except_bind_ok]
        dsimp only
        rw [h3]; rfl
  · obtain ⟨q', e, _⟩ := executeRearm_spec hl
    exact ⟨q', e⟩

/-- The bound behind C09: at most 19 callbacks are ever pending. -/
theorem C09_at_most_nineteen (q : CbQ CbId) (h : CReach q) : q.n ≤ 19 := by
  obtain ⟨l, hl⟩ := h.inv card_cbId
  rw [hl.count]
  exact le_trans hl.nodup.length_le_card (by decide)

/-! ## C08 -/

section
variable {α : Type} [DecidableEq α] [Fintype α]

theorem timeBefore_near {a b : Int} (h : |a - b| < 2 ^ 31) :
    timeBefore (stamp a) (stamp b) = decide (a < b) := by
  unfold timeBefore
  rw [stamp_sub, stamp_toInt h]
  simp

/-- `Represents` is preserved by a request. -/
theorem represents_request (hcard : Fintype.card α ≤ maxCallbacks) {q q' : CbQ α} {s : TimerSpec α}
    {l : List α} (hr : Represents q s l) (hseq : ∀ c r, s.pend c = some r → r.seq < s.count)
    (hnear : ∀ c d r r', s.pend c = some r → s.pend d = some r' → |r.due - r'.due| < 2 ^ 31)
    {c : α} {due : Int} (hn : s.Near c due) (e : scheduleCallback q c (stamp due) = .ok q') :
    ∃ l', Represents q' (s.request c due) l' ∧ ∀ a l'', l' = a :: l'' → q'.timer = some (q'.time a) := by
  have hq : QInv q l := ⟨hr.array, hr.count, hr.nodup, fun c => by
    rw [hr.flag]
    rcases h : (s.pend c).isSome with _ | _
    · symm; rw [decide_eq_false_iff_not, hr.mem, h]; simp
    · symm; rw [decide_eq_true_eq, hr.mem, h]⟩
  obtain ⟨q'', l0, l1, l2, e', h0, h1, h2, h3, h4, h5, h6⟩ := scheduleCallback_spec hcard hq c (stamp due)
  rw [e] at e'
  cases e'
  refine ⟨l1 ++ c :: l2, ?_, h6⟩
  have hmem : ∀ d, d ∈ l1 ++ l2 ↔ d ≠ c ∧ (s.pend d).isSome := by
    intro d
    rw [← h1, h0, hr.nodup.mem_erase_iff, hr.mem]
  have hmem' : ∀ d, d ∈ l1 ++ c :: l2 ↔ ((s.request c due).pend d).isSome := by
    intro d
    have := hmem d
    simp only [TimerSpec.request]
    by_cases hd : d = c
    · simp [hd]
    · rw [if_neg hd]
      simp only [List.mem_append, List.mem_cons, hd, false_or] at this ⊢
      rw [this]; simp [hd]
  -- sortedness of the rest, under the old state
  have hsub : (l1 ++ l2).Pairwise fun c d => ∀ r r', s.pend c = some r → s.pend d = some r' → r.before r' := by
    rw [← h1, h0]
    exact hr.sorted.sublist List.erase_sublist
  rw [List.pairwise_append] at hsub
  obtain ⟨hs1, hs2, hs12⟩ := hsub
  have hold : ∀ d, d ∈ l1 ++ l2 → (s.request c due).pend d = s.pend d := by
    intro d hd
    simp [TimerSpec.request, ((hmem d).mp hd).1]
  have hpc : (s.request c due).pend c = some ⟨due, s.count⟩ := by simp [TimerSpec.request]
  -- comparisons against the new request
  have hcmp : ∀ d ∈ l1 ++ l2, ∀ r, s.pend d = some r → timeBefore (stamp due) (q.time d) = decide (due < r.due) := by
    intro d hd r hrd
    rw [hr.time d r hrd]
    have := hn d r ((hmem d).mp hd).1 hrd
    rw [abs_sub_comm] at this
    exact timeBefore_near this
  have hL1 : ∀ d ∈ l1, ∀ r, s.pend d = some r → r.before ⟨due, s.count⟩ := by
    intro d hd r hrd
    have := h4 d hd
    rw [hcmp d (by simp [hd]) r hrd] at this
    simp only [decide_eq_false_iff_not, not_lt] at this
    rcases lt_or_eq_of_le this with h | h
    · exact Or.inl h
    · exact Or.inr ⟨h, hseq d r hrd⟩
  have hL2 : ∀ d ∈ l2, ∀ r, s.pend d = some r → (⟨due, s.count⟩ : Req).before r := by
    intro d hd r hrd
    rcases l2 with _ | ⟨a, l2'⟩
    · simp at hd
    · have ha := h5 a l2' rfl
      obtain ⟨ra, hra⟩ : ∃ ra, s.pend a = some ra :=
        Option.isSome_iff_exists.mp ((hmem a).mp (by simp)).2
      rw [hcmp a (by simp) ra hra] at ha
      simp only [decide_eq_true_eq] at ha
      rcases List.mem_cons.mp hd with rfl | hd'
      · rw [hra] at hrd; cases hrd; exact Or.inl ha
      · have := (List.pairwise_cons.mp hs2).1 d hd' ra r hra hrd
        left
        rcases this with h | h
        · exact lt_trans ha h
        · exact h.1 ▸ ha
  refine ⟨h2.array, h2.count, h2.nodup, hmem', ?_, ?_, ?_⟩
  · intro d
    rw [h2.flag]
    rcases h : ((s.request c due).pend d).isSome with _ | _
    · rw [decide_eq_false_iff_not, hmem', h]; simp
    · rw [decide_eq_true_eq, hmem', h]
  · intro d r hd
    rw [h3, upd]
    by_cases hdc : d = c
    · subst hdc
      rw [hpc] at hd; cases hd; simp
    · rw [if_neg hdc]
      simp only [TimerSpec.request, if_neg hdc] at hd
      exact hr.time d r hd
  · rw [List.pairwise_append]
    refine ⟨?_, ?_, ?_⟩
    · refine hs1.imp_of_mem ?_
      intro a b ha hb hab r r' h h'
      rw [hold a (by simp [ha])] at h
      rw [hold b (by simp [hb])] at h'
      exact hab r r' h h'
    · rw [List.pairwise_cons]
      refine ⟨?_, ?_⟩
      · intro d hd r r' h h'
        rw [hpc] at h; cases h
        rw [hold d (by simp [hd])] at h'
        exact hL2 d hd r' h'
      · refine hs2.imp_of_mem ?_
        intro a b ha hb hab r r' h h'
        rw [hold a (by simp [ha])] at h
        rw [hold b (by simp [hb])] at h'
        exact hab r r' h h'
    · intro a ha b hb r r' h h'
      rw [hold a (by simp [ha])] at h
      rcases List.mem_cons.mp hb with rfl | hb
      · rw [hpc] at h'; cases h'
        exact hL1 a ha r h
      · rw [hold b (by simp [hb])] at h'
        exact hs12 a ha b hb r r' h h'

/-- In every history the queue represents the specification; outside an interrupt the timer is set
to the due time of the first pending callback. -/
theorem C08_queue (hcard : Fintype.card α ≤ maxCallbacks) (q : CbQ α) (s : TimerSpec α) (b : Bool)
    (h : QReach q s b) :
    ∃ l, Represents q s l ∧ (b = false → ∀ c l', l = c :: l' → q.timer = some (q.time c)) ∧
      (∀ c r, s.pend c = some r → r.seq < s.count) ∧
      ∀ c d r r', s.pend c = some r → s.pend d = some r' → |r.due - r'.due| < 2 ^ 31 := by
  induction h with
  | init =>
    refine ⟨[], ⟨fun i h => rfl, rfl, List.nodup_nil, ?_, ?_, ?_, List.Pairwise.nil⟩, by simp, ?_, ?_⟩ <;>
      simp [TimerSpec.empty, CbQ.init]
  | @request q q' s b c due _ hn e ih =>
    obtain ⟨l, hr, _, hseq, hnear⟩ := ih
    obtain ⟨l', hr', ht'⟩ := represents_request hcard hr hseq hnear hn e
    refine ⟨l', hr', fun _ => ht', ?_, ?_⟩
    · intro d r hd
      simp only [TimerSpec.request] at hd ⊢
      by_cases hdc : d = c
      · rw [if_pos hdc] at hd; cases hd; simp
      · rw [if_neg hdc] at hd; have := hseq d r hd; omega
    · intro d d' r r' hd hd'
      simp only [TimerSpec.request] at hd hd'
      by_cases hdc : d = c <;> by_cases hdc' : d' = c
      · rw [if_pos hdc] at hd; rw [if_pos hdc'] at hd'; cases hd; cases hd'; simp
      · rw [if_pos hdc] at hd; rw [if_neg hdc'] at hd'; cases hd
        rw [abs_sub_comm]; exact hn d' r' hdc' hd'
      · rw [if_neg hdc] at hd; rw [if_pos hdc'] at hd'; cases hd'
        exact hn d r hdc hd
      · rw [if_neg hdc] at hd; rw [if_neg hdc'] at hd'
        exact hnear d d' r r' hd hd'
  | @take q q' s now c _ e ih =>
    obtain ⟨l, hr, _, hseq, hnear⟩ := ih
    have hq : QInv q l := ⟨hr.array, hr.count, hr.nodup, fun c => by
      rw [hr.flag]
      rcases h : (s.pend c).isSome with _ | _
      · symm; rw [decide_eq_false_iff_not, hr.mem, h]; simp
      · symm; rw [decide_eq_true_eq, hr.mem, h]⟩
    obtain ⟨l', rfl, hq', ht, _⟩ := executeTake_spec hq (hq.len hcard) e
    have hcl : c ∉ l' := (List.nodup_cons.mp hr.nodup).1
    have hpend : ∀ d r, (s.served c).pend d = some r → d ≠ c ∧ s.pend d = some r := by
      intro d r hd
      simp only [TimerSpec.served] at hd
      by_cases hdc : d = c
      · rw [if_pos hdc] at hd; cases hd
      · rw [if_neg hdc] at hd; exact ⟨hdc, hd⟩
    have hmem : ∀ d, d ∈ l' ↔ ((s.served c).pend d).isSome := by
      intro d
      have := hr.mem d
      simp only [TimerSpec.served]
      by_cases hdc : d = c
      · subst hdc; simp [hcl]
      · rw [if_neg hdc, ← this]; simp [hdc]
    refine ⟨l', ⟨hq'.array, hq'.count, hq'.nodup, hmem, ?_, ?_, ?_⟩, by simp, ?_, ?_⟩
    · intro d
      rw [hq'.flag]
      rcases h : ((s.served c).pend d).isSome with _ | _
      · rw [decide_eq_false_iff_not, hmem, h]; simp
      · rw [decide_eq_true_eq, hmem, h]
    · intro d r hd
      rw [ht]; exact hr.time d r (hpend d r hd).2
    · refine (List.pairwise_cons.mp hr.sorted).2.imp ?_
      intro a b hab r r' h h'
      exact hab r r' (hpend a r h).2 (hpend b r' h').2
    · intro d r hd; exact hseq d r (hpend d r hd).2
    · intro d d' r r' hd hd'
      exact hnear d d' r r' (hpend d r hd).2 (hpend d' r' hd').2
  | @rearm q q' s _ e ih =>
    obtain ⟨l, hr, _, hseq, hnear⟩ := ih
    have hq : QInv q l := ⟨hr.array, hr.count, hr.nodup, fun c => by
      rw [hr.flag]
      rcases h : (s.pend c).isSome with _ | _
      · symm; rw [decide_eq_false_iff_not, hr.mem, h]; simp
      · symm; rw [decide_eq_true_eq, hr.mem, h]⟩
    obtain ⟨q'', e', hq', ht, hh⟩ := executeRearm_spec hq
    rw [e] at e'; cases e'
    refine ⟨l, ⟨hq'.array, hq'.count, hq'.nodup, hr.mem, ?_, ?_, hr.sorted⟩, fun _ => hh, hseq, hnear⟩
    · intro d; rw [hq'.flag, ← hq.flag, hr.flag]
    · intro d r hd; rw [ht]; exact hr.time d r hd

/-- The callback an interrupt runs is the one the specification serves next, and its time has
come. -/
theorem C08_serves_first (hcard : Fintype.card α ≤ maxCallbacks) (q q' : CbQ α) (s : TimerSpec α)
    (h : QReach q s false) (now : Time) (c : α) (e : executeTake q now = .ok (c, q')) :
    s.First c ∧ timeBeforeOrEqual (q.time c) now = true := by
  obtain ⟨l, hr, _, _, _⟩ := C08_queue hcard q s false h
  have hq : QInv q l := ⟨hr.array, hr.count, hr.nodup, fun c => by
    rw [hr.flag]
    rcases h : (s.pend c).isSome with _ | _
    · symm; rw [decide_eq_false_iff_not, hr.mem, h]; simp
    · symm; rw [decide_eq_true_eq, hr.mem, h]⟩
  obtain ⟨l', rfl, _, _, hdue⟩ := executeTake_spec hq (hq.len hcard) e
  refine ⟨?_, hdue⟩
  obtain ⟨r, hrc⟩ := Option.isSome_iff_exists.mp ((hr.mem c).mp (by simp))
  refine ⟨r, hrc, fun d r' hd hne => ?_⟩
  have : d ∈ l' := by
    have := (hr.mem d).mpr (by rw [hd]; rfl)
    simpa [hne] using this
  exact (List.pairwise_cons.mp hr.sorted).1 d this r r' hrc hd

end

/-- Outside the half-wrap assumption the order is lost: three requests each within half a wrap of
the next one, but not of each other, are queued in an order that is not the order of due times. -/
theorem C08_needs_half_wrap :
    ∃ q1 q2 q3 : CbQ CbId,
      scheduleCallback (CbQ.init CbId) .expire (stamp 0) = .ok q1 ∧
      scheduleCallback q1 .testTrigger (stamp (2 ^ 31 - 1)) = .ok q2 ∧
      scheduleCallback q2 .replay (stamp (2 ^ 32 - 2)) = .ok q3 ∧
      q3.arr 0 = some .replay := by
  refine ⟨_, _, _, rfl, rfl, rfl, ?_⟩
  decide +kernel

/-- A history meeting the hypotheses: two requests across a wrap of the clock, the later-due one
first; the earlier-due one is served first. -/
example : ∃ q1 q2 q3 : CbQ CbId,
    scheduleCallback (CbQ.init CbId) .expire (stamp (2 ^ 32 + 5)) = .ok q1 ∧
    scheduleCallback q1 (.event 3) (stamp (2 ^ 32 - 1)) = .ok q2 ∧
    q2.timer = some 0xFFFFFFFF ∧
    executeTake q2 (stamp (2 ^ 32)) = .ok (.event 3, q3) ∧
    ((TimerSpec.empty CbId).request .expire (2 ^ 32 + 5)).Near (.event 3) (2 ^ 32 - 1) := by
  refine ⟨_, _, _, rfl, rfl, by decide +kernel, rfl, ?_⟩
  intro d r hd h
  simp only [TimerSpec.request, TimerSpec.empty] at h
  split_ifs at h
  cases h
  norm_num

end Verif
