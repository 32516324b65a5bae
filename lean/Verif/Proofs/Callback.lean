/-
Lemmas about the callback queue: the array operations implement list operations.
-/
import Verif.Model.Callback
import Verif.Spec.Callback
import Verif.Spec.Time
import Verif.Proofs.Time
import Mathlib.Data.Fintype.Card

namespace Verif

/-- The array holds exactly the list, NULL after it. -/
def ArrIs {α : Type} (arr : Fin maxCallbacks → Option α) (l : List α) : Prop :=
  ∀ i (h : i < maxCallbacks), arr ⟨i, h⟩ = l[i]?

section
variable {α : Type}

theorem wr_ok {β : Type} {n : Nat} (f : Fin n → β) (i : Nat) (h : i < n) (v : β) :
    wr f i v = .ok (fun j => if j = ⟨i, h⟩ then v else f j) := by
  unfold wr; rw [dif_pos (by omega)]; simp

theorem findPos_spec {arr : Fin maxCallbacks → Option α} {l1 l : List α}
    (ha : ArrIs arr (l1 ++ l)) (hlen : (l1 ++ l).length ≤ maxCallbacks)
    (p : Option α → Except Fault Bool) (p' : α → Bool) (hp : ∀ a ∈ l, p (some a) = .ok (p' a)) :
    ∃ l2 l3, l = l2 ++ l3 ∧ findPos arr p l.length l1.length = .ok (l1 ++ l2).length ∧
      (∀ a ∈ l2, p' a = false) ∧ ∀ a l3', l3 = a :: l3' → p' a = true := by
  induction l generalizing l1 with
  | nil => exact ⟨[], [], rfl, by simp [findPos], by simp, by simp⟩
  | cons a l ih =>
    have hl : l1.length < maxCallbacks := by simp at hlen; omega
    have hget : arr ⟨l1.length, hl⟩ = some a := by rw [ha]; simp
    have e : (a :: l).length = l.length + 1 := rfl
    by_cases hpa : p' a = true
    · refine ⟨[], a :: l, rfl, ?_, by simp, ?_⟩
      · rw [e, findPos, rd_ok _ _ hl, except_bind_ok, hget, hp a (by simp), except_bind_ok, hpa]
        simp
      · intro b l3 hb; cases hb; exact hpa
    · obtain ⟨l2, l3, h1, h2, h3, h4⟩ := ih (l1 := l1 ++ [a]) (by simpa using ha) (by simpa using hlen)
        (fun b hb => hp b (by simp [hb]))
      refine ⟨a :: l2, l3, by rw [h1]; rfl, ?_, ?_, h4⟩
      · rw [e, findPos, rd_ok _ _ hl, except_bind_ok, hget, hp a (by simp), except_bind_ok]
        simp only [Bool.not_eq_true] at hpa
        rw [hpa]
        have : (l1 ++ [a]).length = l1.length + 1 := by simp
        rw [this] at h2
        simp only [Bool.false_eq_true, if_false, h2]
        simp
      · intro b hb
        rcases List.mem_cons.mp hb with rfl | hb
        · simpa using hpa
        · exact h3 b hb

theorem shiftDown_spec (rem i : Nat) (arr : Fin maxCallbacks → Option α)
    (h : i + rem < maxCallbacks) :
    ∃ arr', shiftDown rem i arr = .ok arr' ∧ ∀ j (hj : j < maxCallbacks),
      arr' ⟨j, hj⟩ = if hh : i ≤ j ∧ j < i + rem then arr ⟨j + 1, by omega⟩ else arr ⟨j, hj⟩ := by
  induction rem generalizing i arr with
  | zero => exact ⟨arr, rfl, fun j hj => by rw [dif_neg (by omega)]⟩
  | succ rem ih =>
    rw [shiftDown, rd_ok _ _ (by omega), except_bind_ok, wr_ok _ _ (by omega), except_bind_ok]
    obtain ⟨arr', h1, h2⟩ := ih (i + 1) (fun j => if j = ⟨i, by omega⟩ then arr ⟨i + 1, by omega⟩ else arr j)
      (by omega)
    refine ⟨arr', h1, fun j hj => ?_⟩
    rw [h2 j hj]
    simp only [Fin.mk.injEq]
    by_cases hji : j = i
    · subst hji
      rw [dif_neg (by omega), dif_pos (by omega), if_pos rfl]
    · split_ifs <;> first | rfl | (exfalso; omega)

theorem shiftUp_spec (pos rem : Nat) (arr : Fin maxCallbacks → Option α)
    (h : pos + rem < maxCallbacks) :
    ∃ arr', shiftUp pos rem arr = .ok arr' ∧ ∀ j (hj : j < maxCallbacks),
      arr' ⟨j, hj⟩ = if pos < j ∧ j ≤ pos + rem then arr ⟨j - 1, by omega⟩ else arr ⟨j, hj⟩ := by
  induction rem generalizing arr with
  | zero => exact ⟨arr, rfl, fun j hj => by rw [if_neg (by omega)]⟩
  | succ rem ih =>
    rw [shiftUp, rd_ok _ _ (by omega), except_bind_ok, wr_ok _ _ (by omega), except_bind_ok]
    obtain ⟨arr', h1, h2⟩ := ih (fun j => if j = ⟨pos + rem + 1, by omega⟩ then arr ⟨pos + rem, by omega⟩ else arr j)
      (by omega)
    refine ⟨arr', h1, fun j hj => ?_⟩
    rw [h2 j hj]
    simp only [Fin.mk.injEq]
    by_cases hji : j = pos + rem + 1
    · subst hji
      rw [if_neg (by omega), if_pos rfl, if_pos (by omega)]
      rfl
    · split_ifs <;> first | rfl | (exfalso; omega)

variable [DecidableEq α]

theorem callbackRemove_spec {q : CbQ α} {l : List α} (ha : ArrIs q.arr l) (hn : q.n = l.length)
    (hlen : l.length ≤ maxCallbacks) {c : α} (hc : c ∈ l) :
    ∃ l1 l2 q', l = l1 ++ c :: l2 ∧ c ∉ l1 ∧ callbackRemove q c = .ok q' ∧ ArrIs q'.arr (l1 ++ l2) ∧
      q'.n = (l1 ++ l2).length ∧ q'.time = q.time ∧ q'.scheduled = upd q.scheduled c false ∧
      q'.timer = q.timer := by
  obtain ⟨l2, l3, h1, h2, h3, h4⟩ := findPos_spec (l1 := []) (l := l) (by simpa using ha) (by simpa using hlen)
    (fun x => .ok (decide (x = some c))) (fun a => decide (a = c)) (by intro a _; simp)
  have hl3 : ∃ l3', l3 = c :: l3' := by
    rcases l3 with _ | ⟨b, l3'⟩
    · exfalso
      rw [List.append_nil] at h1
      have := h3 c (h1 ▸ hc)
      simp at this
    · have := h4 b l3' rfl
      simp at this
      exact ⟨l3', by rw [this]⟩
  obtain ⟨l3', rfl⟩ := hl3
  subst h1
  simp only [List.nil_append, List.length_nil] at h2
  have hlt : l2.length < q.n := by rw [hn]; simp
  have hn' : q.n = l2.length + l3'.length + 1 := by rw [hn]; simp; omega
  obtain ⟨arr', s1, s2⟩ := shiftDown_spec (q.n - 1 - l2.length) l2.length q.arr (by rw [hn] at *; omega)
  have hlast : q.n - 1 < maxCallbacks := by rw [hn]; omega
  refine ⟨l2, l3', { q with
    arr := fun j => if j = ⟨q.n - 1, hlast⟩ then none else arr' j, n := q.n - 1,
    scheduled := upd q.scheduled c false }, rfl, ?_, ?_, ?_, ?_, rfl, rfl, rfl⟩
  · intro hm; have := h3 c hm; simp at this
  · unfold callbackRemove
    have hcast : ((q.n : Int) - 1) = ((q.n - 1 : ℕ) : Int) := by omega
    rw [← hn] at h2
    rw [h2, except_bind_ok, decide_eq_true hlt, cassert_true, except_bind_ok, s1, except_bind_ok,
      hcast, wr_ok _ _ hlast, except_bind_ok]
    rfl
  · intro i hi
    show (if (⟨i, hi⟩ : Fin maxCallbacks) = ⟨q.n - 1, hlast⟩ then none else arr' ⟨i, hi⟩) = _
    by_cases e : i = q.n - 1
    · subst e
      rw [if_pos rfl]
      symm
      rw [List.getElem?_eq_none_iff]; simp; omega
    · rw [if_neg (by simp; exact e), s2 i hi]
      by_cases c1 : i < l2.length
      · rw [dif_neg (by omega), ha, List.getElem?_append_left c1, List.getElem?_append_left c1]
      · by_cases c2 : i < q.n - 1
        · rw [dif_pos (by omega), ha, List.getElem?_append_right (by omega), List.getElem?_append_right (by omega)]
          have : i + 1 - l2.length = (i - l2.length) + 1 := by omega
          rw [this, List.getElem?_cons_succ]
        · rw [dif_neg (by omega), ha, List.getElem?_eq_none_iff.mpr (by simp; omega),
            List.getElem?_eq_none_iff.mpr (by simp; omega)]
  · show q.n - 1 = _
    simp; omega

theorem callbackInsert_spec {q : CbQ α} {l : List α} (ha : ArrIs q.arr l) (hn : q.n = l.length)
    (hlen : l.length < maxCallbacks) (c : α) :
    ∃ l1 l2 q', l = l1 ++ l2 ∧ callbackInsert q c = .ok q' ∧ ArrIs q'.arr (l1 ++ c :: l2) ∧
      (∀ a ∈ l1, timeBefore (q.time c) (q.time a) = false) ∧
      (∀ a l2', l2 = a :: l2' → timeBefore (q.time c) (q.time a) = true) ∧
      q'.n = (l1 ++ c :: l2).length ∧ q'.time = q.time ∧ q'.scheduled = upd q.scheduled c true ∧
      q'.timer = q.timer := by
  obtain ⟨l2, l3, h1, h2, h3, h4⟩ := findPos_spec (l1 := []) (l := l) (by simpa using ha)
    (by simp; omega)
    (cmpTime q.time c) (fun a => timeBefore (q.time c) (q.time a))
    (by intro a _; rfl)
  subst h1
  simp only [List.nil_append, List.length_nil] at h2
  have hn' : q.n = l2.length + l3.length := by rw [hn]; simp
  obtain ⟨arr', s1, s2⟩ := shiftUp_spec l2.length (q.n - l2.length) q.arr (by simp at hlen; omega)
  have hp : l2.length < maxCallbacks := by simp at hlen; omega
  refine ⟨l2, l3, { q with
    arr := fun j => if j = ⟨l2.length, hp⟩ then some c else arr' j, n := q.n + 1,
    scheduled := upd q.scheduled c true }, rfl, ?_, ?_, h3, h4, ?_, rfl, rfl, rfl⟩
  · unfold callbackInsert
    rw [← hn] at h2
    rw [h2, except_bind_ok, s1, except_bind_ok, wr_ok _ _ hp, except_bind_ok]
    rfl
  · intro i hi
    show (if (⟨i, hi⟩ : Fin maxCallbacks) = ⟨l2.length, hp⟩ then some c else arr' ⟨i, hi⟩) = _
    by_cases e : i = l2.length
    · subst e
      rw [if_pos rfl]; simp
    · rw [if_neg (by simp; exact e), s2 i hi]
      by_cases c1 : i < l2.length
      · rw [if_neg (by omega), ha, List.getElem?_append_left c1, List.getElem?_append_left c1]
      · by_cases c2 : i ≤ q.n
        · rw [if_pos (by omega), ha, List.getElem?_append_right (by omega), List.getElem?_append_right (by omega)]
          have : i - l2.length = (i - 1 - l2.length) + 1 := by omega
          rw [this, List.getElem?_cons_succ]
        · rw [if_neg (by omega), ha, List.getElem?_eq_none_iff.mpr (by simp; omega),
            List.getElem?_eq_none_iff.mpr (by simp; omega)]
  · show q.n + 1 = _
    simp; omega

/-- Part of the invariant that needs no assumption on times. -/
structure QInv (q : CbQ α) (l : List α) : Prop where
  array : ArrIs q.arr l
  count : q.n = l.length
  nodup : l.Nodup
  flag : ∀ c, q.scheduled c = decide (c ∈ l)

theorem QInv.len [Fintype α] {q : CbQ α} {l : List α} (hcard : Fintype.card α ≤ maxCallbacks)
    (h : QInv q l) : l.length ≤ maxCallbacks :=
  le_trans h.nodup.length_le_card hcard

omit [DecidableEq α] in
theorem headTime_ok {q : CbQ α} {c : α} {l : List α} (h : ArrIs q.arr (c :: l)) :
    headTime q = .ok (q.time c) := by
  unfold headTime
  have : rd q.arr 0 = .ok (some c) := by
    have h0 := rd_ok q.arr 0 (by decide)
    rw [h 0 (by decide)] at h0
    exact h0
  rw [this]; rfl

/-- What `schedule_callback` does to the list. -/
theorem scheduleCallback_spec [Fintype α] (hcard : Fintype.card α ≤ maxCallbacks) {q : CbQ α}
    {l : List α} (h : QInv q l) (c : α) (t : Time) :
    ∃ q' l0 l1 l2, scheduleCallback q c t = .ok q' ∧ l0 = l.erase c ∧ l0 = l1 ++ l2 ∧
      QInv q' (l1 ++ c :: l2) ∧ q'.time = upd q.time c t ∧
      (∀ a ∈ l1, timeBefore t (q.time a) = false) ∧
      (∀ a l2', l2 = a :: l2' → timeBefore t (q.time a) = true) ∧
      ∀ a l', l1 ++ c :: l2 = a :: l' → q'.timer = some (q'.time a) := by
  have hlen := h.len hcard
  -- after the optional removal
  obtain ⟨q1, e1, ha1, hn1, ht1, hf1, hd1⟩ : ∃ q1,
      removeIfScheduled q c = .ok q1 ∧ ArrIs q1.arr (l.erase c) ∧
      q1.n = (l.erase c).length ∧ q1.time = q.time ∧
      (∀ d, upd q1.scheduled c true d = decide (d = c ∨ d ∈ l.erase c)) ∧ (l.erase c).Nodup := by
    by_cases hc : c ∈ l
    · obtain ⟨l1, l2, q1, h1, h2, h3, h4, h5, h6, h7, h8⟩ := callbackRemove_spec h.array h.count hlen hc
      have he : l.erase c = l1 ++ l2 := by
        rw [h1, List.erase_append_right _ h2, List.erase_cons_head]
      refine ⟨q1, ?_, he ▸ h4, he ▸ h5, h6, ?_, h.nodup.erase c⟩
      · rw [removeIfScheduled, h.flag, decide_eq_true hc]; exact h3
      · intro d
        rw [h7]
        unfold upd
        by_cases hd : d = c
        · simp [hd]
        · rw [if_neg hd, if_neg hd, h.flag]
          simp [hd, List.mem_erase_of_ne hd]
    · have he : l.erase c = l := List.erase_of_not_mem hc
      refine ⟨q, ?_, he.symm ▸ h.array, he.symm ▸ h.count, rfl, ?_, he.symm ▸ h.nodup⟩
      · rw [removeIfScheduled, h.flag, decide_eq_false hc]; rfl
      · intro d
        unfold upd
        by_cases hd : d = c
        · simp [hd]
        · rw [if_neg hd, h.flag, he]; simp [hd]
  have hlt : (l.erase c).length < maxCallbacks := by
    have hnd : (c :: l.erase c).Nodup := by
      rw [List.nodup_cons]
      exact ⟨fun hm => (h.nodup.mem_erase_iff.mp hm).1 rfl, hd1⟩
    have := le_trans hnd.length_le_card hcard
    simp at this; omega
  obtain ⟨l1, l2, q2, g1, g2, g3, g4, g5, g6, g7, g8, g9⟩ :=
    callbackInsert_spec (q := { q1 with time := upd q1.time c t }) (l := l.erase c) ha1 hn1 hlt c
  have hne : ∀ a ∈ l.erase c, a ≠ c := fun a ha => (h.nodup.mem_erase_iff.mp ha).1
  have htc : upd q1.time c t c = t := by simp [upd]
  have hta : ∀ a ∈ l.erase c, upd q1.time c t a = q.time a := by
    intro a ha
    rw [upd, if_neg (hne a ha), ht1]
  obtain ⟨a0, l', hl'⟩ : ∃ a l', l1 ++ c :: l2 = a :: l' := by
    cases l1 <;> simp
  have hh : headTime q2 = .ok (q2.time a0) := headTime_ok (l := l') (by rw [← hl']; exact g3)
  refine ⟨{ q2 with timer := some (q2.time a0) }, l.erase c, l1, l2, ?_, rfl, g1, ?_, ?_, ?_, ?_, ?_⟩
  · unfold scheduleCallback
    rw [e1, except_bind_ok]
    dsimp only
    rw [g2, except_bind_ok, hh]
    rfl
  · refine ⟨g3, g6, ?_, ?_⟩
    · rw [List.nodup_middle, List.nodup_cons, ← g1]
      exact ⟨fun hm => hne c hm rfl, hd1⟩
    · intro d
      show q2.scheduled d = _
      rw [g8]
      show upd q1.scheduled c true d = _
      rw [hf1 d, g1]
      simp only [List.mem_append, List.mem_cons, decide_eq_decide]
      tauto
  · show q2.time = _
    rw [g7, ht1]
  · intro a ha
    have := g4 a ha
    dsimp only at this
    rw [htc, hta a (by rw [g1]; simp [ha])] at this
    exact this
  · intro a l2' ha
    have := g5 a l2' ha
    dsimp only at this
    rw [htc, hta a (by rw [g1, ha]; simp)] at this
    exact this
  · intro a l'' e
    rw [hl'] at e
    cases e
    rfl

/-- What taking the head does to the list. -/
theorem executeTake_spec {q : CbQ α} {l : List α} (h : QInv q l) (hlen : l.length ≤ maxCallbacks)
    {now : Time} {c : α} {q' : CbQ α} (e : executeTake q now = .ok (c, q')) :
    ∃ l', l = c :: l' ∧ QInv q' l' ∧ q'.time = q.time ∧ timeBeforeOrEqual (q.time c) now = true := by
  unfold executeTake at e
  rcases l with _ | ⟨c0, l'⟩
  · rw [h.count] at e; simp at e
  · rw [h.count] at e
    have h0 : rd q.arr 0 = .ok (some c0) := by
      have h0 := rd_ok q.arr 0 (by decide)
      rw [h.array 0 (by decide)] at h0
      exact h0
    obtain ⟨l1, l2, q1, h1, h2, h3, h4, h5, h6, h7, h8⟩ :=
      callbackRemove_spec h.array h.count hlen (show c0 ∈ c0 :: l' by simp)
    have hl1 : l1 = [] := by
      rcases l1 with _ | ⟨x, l1⟩
      · rfl
      · simp at h1; exact absurd (by rw [h1.1]; simp) h2
    subst hl1
    simp only [List.nil_append, List.cons.injEq, true_and] at h1 h4 h5
    subst h1
    rw [headTime_ok h.array, h0] at e
    simp only [List.length_cons, gt_iff_lt, Nat.zero_lt_succ, decide_true, cassert_true, except_bind_ok, h3,
      except_pure] at e
    cases hd : timeBeforeOrEqual (q.time c0) now with
    | false => rw [hd] at e; simp at e
    | true =>
      rw [hd] at e
      simp at e
      obtain ⟨rfl, rfl⟩ := e
      refine ⟨l', rfl, ⟨h4, h5, (List.nodup_cons.mp h.nodup).2, ?_⟩, h6, hd⟩
      intro d
      rw [h7, upd]
      by_cases hd : d = c0
      · subst hd
        simp [(List.nodup_cons.mp h.nodup).1]
      · rw [if_neg hd, h.flag]; simp [hd]

theorem executeRearm_spec {q : CbQ α} {l : List α} (h : QInv q l) :
    ∃ q', executeRearm q = .ok q' ∧ QInv q' l ∧ q'.time = q.time ∧
      ∀ a l', l = a :: l' → q'.timer = some (q'.time a) := by
  unfold executeRearm
  rcases l with _ | ⟨a, l'⟩
  · rw [if_neg (by rw [h.count]; simp)]
    exact ⟨q, rfl, h, rfl, by simp⟩
  · rw [if_pos (by rw [h.count]; simp), headTime_ok h.array]
    refine ⟨_, rfl, ⟨h.array, h.count, h.nodup, h.flag⟩, rfl, ?_⟩
    intro b l'' e; cases e; rfl

end

end Verif
