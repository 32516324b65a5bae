/-
C91: a callback is run when its time has come, whenever the clock ticks while the timer is being set.
-/
import Verif.Spec.TimerRegs
import Verif.Props.EventTimer

namespace Verif

section
variable {α : Type}

theorem regTicks_spec : ∀ (n : Nat) (s : RegTimer α),
    (regTicks n s).q = s.q ∧ (regTicks n s).ccr = s.ccr ∧ (regTicks n s).ie = s.ie ∧
      (regTicks n s).now = s.now + BitVec.ofNat 32 n ∧
      ((regTicks n s).flag = true ↔ s.flag = true ∨ ∃ k, 0 < k ∧ k ≤ n ∧ s.ccr = s.now + BitVec.ofNat 32 k)
  | 0, s => by
    refine ⟨rfl, rfl, rfl, by simp [regTicks], ?_⟩
    constructor
    · exact .inl
    · rintro (h | ⟨k, h1, h2, -⟩)
      · exact h
      · omega
  | n + 1, s => by
    obtain ⟨h1, h2, h3, h4, h5⟩ := regTicks_spec n (regTick s)
    have hadd : ∀ k : Nat, s.now + 1 + BitVec.ofNat 32 k = s.now + BitVec.ofNat 32 (k + 1) := by
      intro k
      apply BitVec.eq_of_toNat_eq
      simp [BitVec.toNat_add]
      omega
    refine ⟨h1, h2, h3, ?_, ?_⟩
    · rw [regTicks, h4]
      exact hadd n
    · rw [regTicks, h5]
      constructor
      · rintro (h | ⟨k, k1, k2, k3⟩)
        · simp only [regTick, Bool.or_eq_true, beq_iff_eq] at h
          rcases h with h | h
          · exact .inl h
          · exact .inr ⟨1, by omega, by omega, h⟩
        · exact .inr ⟨k + 1, by omega, by omega, by rw [← hadd]; exact k3⟩
      · rintro (h | ⟨k, k1, k2, k3⟩)
        · exact .inl (by simp [regTick, h])
        · by_cases hk : k = 1
          · subst hk
            left
            simp only [regTick, Bool.or_eq_true, beq_iff_eq]
            exact .inr k3
          · right
            obtain ⟨m, rfl⟩ : ∃ m, k = m + 1 := ⟨k - 1, by omega⟩
            exact ⟨m, by omega, by omega, by rw [← hadd] at k3; exact k3⟩

theorem ofNat_add32 (x : Time) (m n : Nat) : x + BitVec.ofNat 32 m + BitVec.ofNat 32 n = x + BitVec.ofNat 32 (m + n) := by
  apply BitVec.eq_of_toNat_eq
  simp [BitVec.toNat_add]
  omega

/-- What setting the timer comes to: the flag is set if the old compare time came after it was cleared and before the register
was written, if the new one came afterwards, or if the new one had come when the counter was read. -/
theorem regArm_spec (n : ArmTicks) (t : Time) (s : RegTimer α) :
    (regArm n t s).q = s.q ∧ (regArm n t s).ccr = t ∧ (regArm n t s).ie = true ∧
      (regArm n t s).now = s.now + BitVec.ofNat 32 n.total ∧
      ((regArm n t s).flag = true ↔
        (∃ k, 0 < k ∧ k ≤ n.b ∧ s.ccr = s.now + BitVec.ofNat 32 (n.a + k)) ∨
        (∃ k, 0 < k ∧ k ≤ n.c + n.d + n.e ∧ t = s.now + BitVec.ofNat 32 (n.a + n.b + k)) ∨
        timeBeforeOrEqual t (s.now + BitVec.ofNat 32 (n.a + n.b + n.c + n.d)) = true) := by
  obtain ⟨a1, a2, a3, a4, -⟩ := regTicks_spec n.a { s with ie := false }
  unfold regArm
  dsimp only
  generalize regTicks n.a { s with ie := false } = s1 at *
  obtain ⟨b1, b2, b3, b4, b5⟩ := regTicks_spec n.b { s1 with flag := false }
  generalize regTicks n.b { s1 with flag := false } = s2 at *
  obtain ⟨c1, c2, c3, c4, c5⟩ := regTicks_spec n.c { s2 with ccr := t }
  generalize regTicks n.c { s2 with ccr := t } = s3 at *
  obtain ⟨d1, d2, d3, d4, d5⟩ := regTicks_spec n.d { s3 with ie := true }
  generalize regTicks n.d { s3 with ie := true } = s4 at *
  obtain ⟨e1, e2, e3, e4, e5⟩ := regTicks_spec n.e s4
  generalize regTicks n.e s4 = s5 at *
  dsimp only at *
  have hn2 : s2.now = s.now + BitVec.ofNat 32 (n.a + n.b) := by rw [b4, a4, ofNat_add32]
  have hn3 : s3.now = s.now + BitVec.ofNat 32 (n.a + n.b + n.c) := by rw [c4, hn2, ofNat_add32]
  have hn4 : s4.now = s.now + BitVec.ofNat 32 (n.a + n.b + n.c + n.d) := by rw [d4, hn3, ofNat_add32]
  have hn5 : s5.now = s.now + BitVec.ofNat 32 n.total := by rw [e4, hn4, ofNat_add32]; rfl
  have hq : s5.q = s.q := by rw [e1, d1, c1, b1, a1]
  have hc : s5.ccr = t := by rw [e2, d2, c2]
  have hie : s5.ie = true := by rw [e3, d3]
  have hfl : s5.flag = true ↔ (∃ k, 0 < k ∧ k ≤ n.b ∧ s.ccr = s.now + BitVec.ofNat 32 (n.a + k)) ∨
      (∃ k, 0 < k ∧ k ≤ n.c + n.d + n.e ∧ t = s.now + BitVec.ofNat 32 (n.a + n.b + k)) := by
    rw [e5, d5, c5, b5]
    simp only [Bool.false_eq_true, false_or, d2, c2, hn2, hn3, hn4, a2, a4, ofNat_add32]
    constructor
    · rintro (((h | ⟨k, k1, k2, k3⟩) | ⟨k, k1, k2, k3⟩) | ⟨k, k1, k2, k3⟩)
      · exact .inl h
      · exact .inr ⟨k, k1, by omega, k3⟩
      · exact .inr ⟨n.c + k, by omega, by omega, by rw [k3]; congr 2; omega⟩
      · exact .inr ⟨n.c + n.d + k, by omega, by omega, by rw [k3]; congr 2; omega⟩
    · rintro (h | ⟨k, k1, k2, k3⟩)
      · exact .inl (.inl (.inl h))
      · by_cases h1 : k ≤ n.c
        · exact .inl (.inl (.inr ⟨k, k1, h1, k3⟩))
        by_cases h2 : k ≤ n.c + n.d
        · exact .inl (.inr ⟨k - n.c, by omega, by omega, by rw [k3]; congr 2; omega⟩)
        · exact .inr ⟨k - n.c - n.d, by omega, by omega, by rw [k3]; congr 2; omega⟩
  rw [hn4]
  split
  · rename_i hb
    exact ⟨hq, hc, hie, hn5, by simp [hb]⟩
  · rename_i hb
    refine ⟨hq, hc, hie, hn5, ?_⟩
    rw [hfl]
    simp [hb]

/-- A time that has come has been noticed. -/
theorem regArm_due (n : ArmTicks) (t : Time) (s : RegTimer α)
    (h : timeBeforeOrEqual t (regArm n t s).now = true) : (regArm n t s).flag = true := by
  obtain ⟨-, -, -, h4, h5⟩ := regArm_spec n t s
  rw [h5]
  rw [h4] at h
  by_cases hb : timeBeforeOrEqual t (s.now + BitVec.ofNat 32 (n.a + n.b + n.c + n.d)) = true
  · exact .inr (.inr hb)
  · right; left
    generalize hr : s.now + BitVec.ofNat 32 (n.a + n.b + n.c + n.d) = r at *
    have hr' : s.now + BitVec.ofNat 32 n.total = r + BitVec.ofNat 32 n.e := by
      rw [← hr, ofNat_add32]; rfl
    rw [hr'] at h
    unfold timeBeforeOrEqual at h hb
    simp only [decide_eq_true_eq] at h hb
    have hm : (t - r).toNat ≤ n.e := by
      by_contra hlt
      have hI : (t - r).toInt = (t - r).toNat := by
        rw [BitVec.toInt_eq_toNat_cond]
        rw [BitVec.toInt_eq_toNat_cond] at hb
        split at hb
        · rw [if_pos (by assumption)]
        · have := (t - r).isLt; omega
      have hlt' : (t - r).toNat < 2 ^ 31 := by
        rw [BitVec.toInt_eq_toNat_cond] at hI
        split at hI <;> omega
      have he : t - (r + BitVec.ofNat 32 n.e) = BitVec.ofNat 32 ((t - r).toNat - n.e) := by
        have hw : (BitVec.ofNat 32 n.e).toNat = n.e := by rw [BitVec.toNat_ofNat]; omega
        have hw2 : (BitVec.ofNat 32 ((t - r).toNat - n.e)).toNat = (t - r).toNat - n.e := by
          rw [BitVec.toNat_ofNat]; omega
        apply BitVec.eq_of_toNat_eq
        rw [hw2]
        generalize BitVec.ofNat 32 n.e = w at *
        bv_omega
      rw [he, BitVec.toInt_eq_toNat_cond] at h
      simp only [BitVec.toNat_ofNat] at h
      split at h <;> omega
    have hpos : 0 < (t - r).toNat := by
      rcases Nat.eq_zero_or_pos (t - r).toNat with h0 | h0
      · exfalso
        apply hb
        rw [BitVec.toInt_eq_toNat_cond, h0]
        simp
      · exact h0
    refine ⟨n.c + n.d + (t - r).toNat, by omega, by omega, ?_⟩
    have : s.now + BitVec.ofNat 32 (n.a + n.b + (n.c + n.d + (t - r).toNat)) = r + BitVec.ofNat 32 (t - r).toNat := by
      rw [← hr, ofNat_add32]
      congr 2
      omega
    rw [this]
    simp [-BitVec.toNat_sub]
    bv_omega

theorem regTick_due {s : RegTimer α} (h : timeBeforeOrEqual s.ccr s.now = true → s.flag = true)
    (hd : timeBeforeOrEqual s.ccr (s.now + 1) = true) : (regTick s).flag = true := by
  simp only [regTick, Bool.or_eq_true, beq_iff_eq]
  by_cases hf : s.flag = true
  · exact .inl hf
  · right
    have hb : ¬timeBeforeOrEqual s.ccr s.now = true := fun hb => hf (h hb)
    unfold timeBeforeOrEqual at hd hb
    simp only [decide_eq_true_eq] at hd hb
    generalize s.ccr = x at *
    generalize s.now = y at *
    have : (x - (y + 1)).toNat = if (x - y).toNat = 0 then 2 ^ 32 - 1 else (x - y).toNat - 1 := by
      split <;> bv_omega
    have hlt := (x - y).isLt
    have h0 : (x - y).toNat ≠ 0 := by
      intro h0
      apply hb
      rw [BitVec.toInt_eq_toNat_cond, h0]
      simp
    rw [if_neg h0] at this
    rw [BitVec.toInt_eq_toNat_cond] at hd hb
    have h1 : (x - y).toNat = 1 := by
      split at hd <;> split at hb <;> omega
    bv_omega

theorem stamp_ofNat (T : Int) (n : Nat) : stamp T + BitVec.ofNat 32 n = stamp (T + n) := by
  rw [← stamp_add]
  congr 1

variable [DecidableEq α] [Fintype α]

omit [Fintype α] in
/-- Without assertions the head is removed all the same. -/
theorem takeNdebug {q q' : CbQ α} {c : α} (h0 : rd q.arr 0 = .ok (some c)) (h : callbackRemove q c = .ok q') :
    executeTakeNdebug q = .ok (some c, q') := by
  unfold callbackRemove at h
  unfold executeTakeNdebug
  rw [bind_eq_ok] at h
  obtain ⟨pos, h1, h⟩ := h
  rw [bind_eq_ok] at h
  obtain ⟨u, h2, h⟩ := h
  rw [bind_eq_ok] at h
  obtain ⟨arr, h3, h⟩ := h
  rw [bind_eq_ok] at h
  obtain ⟨arr', h4, h⟩ := h
  rw [h0, except_bind_ok, h1, except_bind_ok, h3, except_bind_ok, h4, except_bind_ok]
  dsimp only
  cases h
  rfl

omit [Fintype α] in
theorem represents_inv {q : CbQ α} {p : TimerSpec α} {l : List α} (hr : Represents q p l) : QInv q l :=
  ⟨hr.array, hr.count, hr.nodup, fun c => by
    rw [hr.flag]
    rcases h : (p.pend c).isSome with _ | _
    · symm; rw [decide_eq_false_iff_not, hr.mem, h]; simp
    · symm; rw [decide_eq_true_eq, hr.mem, h]⟩

/-- What the handler takes. -/
theorem take_head (hcard : Fintype.card α ≤ maxCallbacks) {q : CbQ α} {l : List α} (hq : QInv q l) :
    match l with
    | [] => ∀ c q', executeTakeNdebug q ≠ .ok (some c, q')
    | a :: _ => ∃ q', executeTakeNdebug q = .ok (some a, q') ∧ executeTake q (q.time a) = .ok (a, q') := by
  cases l with
  | nil =>
    intro c q' h
    have h0 : rd q.arr 0 = .ok none := by
      have h0 := rd_ok q.arr 0 (by decide)
      rw [hq.array 0 (by decide)] at h0
      exact h0
    unfold executeTakeNdebug at h
    rw [h0, hq.count] at h
    cases h
  | cons a l' =>
    have h0 : rd q.arr 0 = .ok (some a) := by
      have h0 := rd_ok q.arr 0 (by decide)
      rw [hq.array 0 (by decide)] at h0
      exact h0
    obtain ⟨l1, l2, q1, h1, h2, h3, -⟩ :=
      callbackRemove_spec hq.array hq.count (hq.len hcard) (show a ∈ a :: l' by simp)
    have hn : q.n > 0 := by rw [hq.count]; simp
    refine ⟨q1, takeNdebug h0 h3, ?_⟩
    unfold executeTake
    rw [headTime_ok hq.array, decide_eq_true hn, cassert_true, except_bind_ok, except_bind_ok,
      show timeBeforeOrEqual (q.time a) (q.time a) = true by simp [timeBeforeOrEqual], cassert_true, except_bind_ok, h0,
      except_bind_ok]
    dsimp only
    rw [h3]; rfl

omit [Fintype α] in
theorem regRequest_ok {n : ArmTicks} {c : α} {t : Time} {s s' : RegTimer α} (h : regRequest n c t s = .ok s') :
    ∃ q hd, scheduleCallback s.q c t = .ok q ∧ headTime q = .ok hd ∧ s' = regArm n hd { s with q := q } := by
  unfold regRequest at h
  split at h
  · cases h
  · rename_i q hq
    split at h
    · cases h
    · rename_i hd hh
      cases h
      exact ⟨q, hd, hq, hh, rfl⟩

omit [DecidableEq α] [Fintype α] in
theorem regRearm_ok {n : ArmTicks} {s s' : RegTimer α} (h : regRearm n s = .ok s') :
    (s.q.n = 0 ∧ s' = s) ∨ ∃ hd, 0 < s.q.n ∧ headTime s.q = .ok hd ∧
      s' = regArm n hd { s with q := { s.q with timer := some hd } } := by
  unfold regRearm at h
  split at h
  · rename_i hn
    split at h
    · cases h
    · rename_i hd hh
      cases h
      exact .inr ⟨hd, hn, hh, rfl⟩
  · cases h
    exact .inl ⟨by omega, rfl⟩

variable {ok : RegTimer α → Time → ArmTicks → Prop}

/-- A history of the registers is a history of the queue. -/
theorem reg_queue (hcard : Fintype.card α ≤ maxCallbacks) {s : RegTimer α} {p : TimerSpec α} {T : Int} {b : Bool}
    (h : RegReach ok s p T b) : QReach s.q p b ∧ s.now = stamp T := by
  induction h with
  | init T => exact ⟨.init, rfl⟩
  | tick _ ih => exact ⟨ih.1, by rw [← stamp_add, ← ih.2]; rfl⟩
  | @request s s' p T b c due n _ hn _ _ e ih =>
    obtain ⟨q, hd, h1, h2, rfl⟩ := regRequest_ok e
    obtain ⟨a1, -, -, a4, -⟩ := regArm_spec n hd { s with q := q }
    rw [a1, a4]
    exact ⟨.request c due ih.1 hn h1, by rw [← stamp_ofNat, ← ih.2]⟩
  | @take s s' p T c _ hf e ih =>
    obtain ⟨l, hr, -⟩ := C08_queue hcard _ _ _ ih.1
    have hq := represents_inv hr
    have ht := take_head hcard hq
    unfold regTake at e
    cases l with
    | nil =>
      exfalso
      split at e
      · cases e
      · rename_i c' q' h1
        cases e
        exact ht c q' h1
    | cons a l' =>
      obtain ⟨q', h1, h2⟩ := ht
      rw [h1] at e
      cases e
      exact ⟨.take _ _ ih.1 h2, ih.2⟩
  | @rearm s s' p T n _ _ e ih =>
    rcases regRearm_ok e with ⟨h0, rfl⟩ | ⟨hd, h0, h1, rfl⟩
    · rw [if_neg (by omega)]
      refine ⟨.rearm ih.1 ?_, ih.2⟩
      unfold executeRearm
      rw [if_neg (by omega)]
      rfl
    · rw [if_pos h0]
      obtain ⟨a1, -, -, a4, -⟩ := regArm_spec n hd { s with q := { s.q with timer := some hd } }
      rw [a1, a4]
      refine ⟨.rearm ih.1 ?_, by rw [← stamp_ofNat, ← ih.2]⟩
      unfold executeRearm
      rw [if_pos h0, h1]
      rfl

omit [Fintype α] in
theorem headTime_nil {q : CbQ α} (hq : QInv q []) (hd : Time) : headTime q ≠ .ok hd := by
  intro h
  have h0 : rd q.arr 0 = .ok none := by
    have h0 := rd_ok q.arr 0 (by decide)
    rw [hq.array 0 (by decide)] at h0
    exact h0
  unfold headTime at h
  rw [h0] at h
  cases h

/-- Outside the interrupt the timer is set to the first pending time, its interrupt is enabled, and if that time has come the
flag is set. -/
theorem reg_armed (hcard : Fintype.card α ≤ maxCallbacks) {s : RegTimer α} {p : TimerSpec α} {T : Int} {b : Bool}
    (h : RegReach ok s p T b) : b = false → ∀ hd, headTime s.q = .ok hd →
      s.ccr = hd ∧ s.ie = true ∧ (timeBeforeOrEqual s.ccr s.now = true → s.flag = true) := by
  have harm : ∀ (n : ArmTicks) (hd : Time) (s : RegTimer α), headTime s.q = .ok hd → ∀ hd',
      headTime (regArm n hd s).q = .ok hd' → (regArm n hd s).ccr = hd' ∧ (regArm n hd s).ie = true ∧
        (timeBeforeOrEqual (regArm n hd s).ccr (regArm n hd s).now = true → (regArm n hd s).flag = true) := by
    intro n hd s h1 hd' h2
    obtain ⟨a1, a2, a3, -⟩ := regArm_spec n hd s
    rw [a1, h1] at h2
    cases h2
    refine ⟨a2, a3, fun hdue => ?_⟩
    rw [a2] at hdue
    exact regArm_due n _ s hdue
  induction h with
  | init T => intro _ hd h; cases h
  | tick _ ih =>
    intro hb hd hh
    obtain ⟨h1, h2, h3⟩ := ih hb hd hh
    exact ⟨h1, h2, fun hdue => regTick_due h3 hdue⟩
  | @request s s' p T b c due n _ _ _ _ e _ =>
    obtain ⟨q, hd, h1, h2, rfl⟩ := regRequest_ok e
    exact fun _ => harm n hd { s with q := q } h2
  | take => intro hb; cases hb
  | @rearm s s' p T n hs _ e _ =>
    rcases regRearm_ok e with ⟨h0, rfl⟩ | ⟨hd, h0, h1, rfl⟩
    · intro _ hd hh
      obtain ⟨l, hr, -⟩ := C08_queue hcard _ _ _ (reg_queue hcard hs).1
      have hq := represents_inv hr
      have hl : l = [] := by
        have := hq.count
        rw [h0] at this
        exact List.length_eq_zero_iff.mp this.symm
      subst hl
      exact absurd hh (headTime_nil hq hd)
    · intro _
      exact harm n hd { s with q := { s.q with timer := some hd } } h1

omit [DecidableEq α] [Fintype α] in
theorem reg_first {q : CbQ α} {p : TimerSpec α} {c : α} {l : List α} (hr : Represents q p (c :: l)) : p.First c := by
  obtain ⟨r, hrc⟩ := Option.isSome_iff_exists.mp ((hr.mem c).mp (by simp))
  refine ⟨r, hrc, fun d r' hd hne => ?_⟩
  have : d ∈ l := by
    have := (hr.mem d).mpr (by rw [hd]; rfl)
    simpa [hne] using this
  exact (List.pairwise_cons.mp hr.sorted).1 d this r r' hrc hd

/-- C91, no callback is forgotten: wherever the clock ticked while the timer was set, whenever the time of some pending
callback has come (and none is overdue by nine minutes), the interrupt is pending and enabled, and its handler runs
the first pending callback. -/
theorem C91_never_forgotten (hcard : Fintype.card α ≤ maxCallbacks) {s : RegTimer α} {p : TimerSpec α} {T : Int}
    (h : RegReach ok s p T false) (hover : ∀ c r, p.pend c = some r → T - r.due < 2 ^ 31)
    {c : α} {r : Req} (hc : p.pend c = some r) (hd : r.due ≤ T) :
    s.flag = true ∧ s.ie = true ∧ ∃ c' s', regTake s = .ok (some c', s') ∧ p.First c' := by
  obtain ⟨h1, h2⟩ := reg_queue hcard h
  obtain ⟨l, hr, -, -, hnear⟩ := C08_queue hcard _ _ _ h1
  have hq := represents_inv hr
  have hcl := (hr.mem c).mpr (by rw [hc]; rfl)
  cases l with
  | nil => cases hcl
  | cons a l' =>
    obtain ⟨a1, a2, a3⟩ := reg_armed hcard h rfl _ (headTime_ok hq.array)
    obtain ⟨ra, hra⟩ := Option.isSome_iff_exists.mp ((hr.mem a).mp (by simp))
    obtain ⟨q', hq', -⟩ := take_head hcard hq
    have hle : ra.due ≤ r.due := by
      by_cases hac : c = a
      · subst hac; rw [hc] at hra; cases hra; exact le_rfl
      · obtain ⟨r0, h0, h3⟩ := reg_first hr
        rw [hra] at h0
        cases h0
        rcases h3 c r hc hac with h | h
        · exact h.le
        · exact h.1.le
    refine ⟨a3 ?_, a2, a, { s with q := q', flag := false }, by unfold regTake; rw [hq'], reg_first hr⟩
    rw [a1, h2, hr.time a ra hra]
    unfold timeBeforeOrEqual
    have := hover a ra hra
    rw [stamp_sub, stamp_toInt (by rw [abs_lt]; constructor <;> omega)]
    simp
    omega

/-- C91 in full: whenever the interrupt handler finds the flag set, a callback is pending, and the one it runs is due. -/
def C91_full : Prop :=
  ∀ (s : RegTimer CbId) (p : TimerSpec CbId) (T : Int), RegReach (fun _ _ _ => True) s p T false → s.flag = true →
    ∃ c s' r, regTake s = .ok (some c, s') ∧ p.pend c = some r ∧ r.due ≤ T

omit [Fintype α] in
/-- No pending request is nine minutes or more ahead. -/
theorem reg_far {s : RegTimer α} {p : TimerSpec α} {T : Int} {b : Bool} (h : RegReach ok s p T b) :
    ∀ c r, p.pend c = some r → r.due < T + 2 ^ 31 := by
  induction h with
  | init T => intro c r h; cases h
  | tick _ ih => intro c r h; have := ih c r h; omega
  | @request s s' p T b c due n _ _ hfar _ e ih =>
    intro d r hd
    simp only [TimerSpec.request] at hd
    split at hd
    · cases hd; dsimp only; omega
    · have := ih d r hd; omega
  | @take s s' p T c _ _ _ ih =>
    intro d r hd
    simp only [TimerSpec.served] at hd
    split at hd
    · cases hd
    · exact ih d r hd
  | rearm n _ _ _ ih =>
    intro c r h
    have := ih c r h
    split <;> omega

theorem due_of_equal {d T : Int} (hfar : d < T + 2 ^ 31) (h : stamp d = stamp T) : d ≤ T := by
  by_contra hlt
  have := stamp_inj (a := d) (b := T) (by rw [abs_lt]; constructor <;> omega) h
  omega

theorem due_of_before {d T : Int} (hfar : d < T + 2 ^ 31) (h : timeBeforeOrEqual (stamp d) (stamp T) = true) : d ≤ T := by
  by_contra hlt
  unfold timeBeforeOrEqual at h
  rw [stamp_sub, stamp_toInt (by rw [abs_lt]; constructor <;> omega)] at h
  simp only [decide_eq_true_eq] at h
  omega

/-- With the timer set without the race, the flag is set only when the first pending time has come. -/
theorem reg_due (hcard : Fintype.card α ≤ maxCallbacks) {s : RegTimer α} {p : TimerSpec α} {T : Int} {b : Bool}
    (h : RegReach NoRace s p T b) : b = false → s.flag = true → ∀ c r, s.q.arr 0 = some c → p.pend c = some r → r.due ≤ T := by
  have harm : ∀ (n : ArmTicks) (hd : Time) (s : RegTimer α) (T d : Int), s.now = stamp T → NoRace s hd n → hd = stamp d →
      d < T + 2 ^ 31 → (regArm n hd s).flag = true → d ≤ T + n.total := by
    intro n hd s T d h1 h2 h3 h4 hf
    obtain ⟨-, -, -, -, a5⟩ := regArm_spec n hd s
    rcases a5.mp hf with ⟨k, k1, k2, k3⟩ | ⟨k, k1, k2, k3⟩ | hb
    · have := h2 k k1 k2 k3
      rw [this, h1, h3, stamp_ofNat] at k3
      have := due_of_equal (by push_cast; omega) k3
      unfold ArmTicks.total
      push_cast at this ⊢
      omega
    · rw [h1, h3, stamp_ofNat] at k3
      have := due_of_equal (by push_cast; omega) k3
      unfold ArmTicks.total
      push_cast at this ⊢
      omega
    · rw [h1, h3, stamp_ofNat] at hb
      have := due_of_before (by push_cast; omega) hb
      unfold ArmTicks.total
      push_cast at this ⊢
      omega
  have hhead : ∀ {q : CbQ α} {c : α}, q.arr 0 = some c → headTime q = .ok (q.time c) := by
    intro q c hc
    unfold headTime
    have h0 := rd_ok q.arr 0 (by decide)
    rw [show (⟨0, by decide⟩ : Fin maxCallbacks) = 0 from rfl, hc] at h0
    have h0' : rd q.arr 0 = .ok (some c) := h0
    rw [h0']
    rfl
  induction h with
  | init T => intro _ hf; cases hf
  | @tick s p T b hs ih =>
    intro hb hf c r hc hr
    simp only [regTick, Bool.or_eq_true, beq_iff_eq] at hf
    rcases hf with hf | hf
    · have := ih hb hf c r hc hr; omega
    · subst hb
      obtain ⟨h1, h2⟩ := reg_queue hcard hs
      obtain ⟨l, hrep, -⟩ := C08_queue hcard _ _ _ h1
      have ha := reg_armed hcard hs rfl _ (hhead hc)
      rw [ha.1, hrep.time c r hr, h2, show stamp T + 1 = stamp (T + 1) by rw [← stamp_add]; rfl] at hf
      have := reg_far hs c r hr
      exact due_of_equal (by omega) hf
  | @request s s' p T b c due n hs hn hfar hok e ih =>
    have hnew := RegReach.request c due n hs hn hfar hok e
    obtain ⟨q, hd, h1, h2, rfl⟩ := regRequest_ok e
    intro hb hf d r hcd hr
    obtain ⟨a1, -⟩ := regArm_spec n hd { s with q := q }
    rw [a1] at hcd
    have hh := hhead hcd
    dsimp only at hh hcd
    rw [h2] at hh
    have hhd : hd = q.time d := by cases hh; rfl
    obtain ⟨g1, g2⟩ := reg_queue hcard hnew
    obtain ⟨l, hrep, -⟩ := C08_queue hcard _ _ _ g1
    rw [a1] at hrep
    have hfar' : r.due < T + 2 ^ 31 := by
      simp only [TimerSpec.request] at hr
      split at hr
      · cases hr; exact hfar
      · exact reg_far hs d r hr
    exact harm n hd { s with q := q } T r.due (reg_queue hcard hs).2 (hok q hd h1 h2) (hhd.trans (hrep.time d r hr)) hfar' hf
  | take => intro hb; cases hb
  | @rearm s s' p T n hs hok e ih =>
    rcases regRearm_ok e with ⟨h0, rfl⟩ | ⟨hd, h0, h1, rfl⟩
    · intro _ _ c r hc
      obtain ⟨l, hrep, -⟩ := C08_queue hcard _ _ _ (reg_queue hcard hs).1
      have hq := represents_inv hrep
      have hl : l = [] := by
        have := hq.count
        rw [h0] at this
        exact List.length_eq_zero_iff.mp this.symm
      subst hl
      exact absurd (hhead hc) (headTime_nil hq _)
    · intro _ hf d r hcd hr
      obtain ⟨a1, -⟩ := regArm_spec n hd { s with q := { s.q with timer := some hd } }
      rw [a1] at hcd
      have hh := hhead (q := s.q) hcd
      rw [h1] at hh
      have hhd : hd = s.q.time d := by cases hh; rfl
      obtain ⟨l, hrep, -⟩ := C08_queue hcard _ _ _ (reg_queue hcard hs).1
      rw [if_pos h0]
      exact harm n hd { s with q := { s.q with timer := some hd } } T r.due (reg_queue hcard hs).2 (hok hd h1)
        (hhd.trans (hrep.time d r hr)) (reg_far hs d r hr) hf

/-- C91, no callback is run early, if the old compare time never comes in the moment between the clearing of the flag and
the writing of the compare register: what the handler runs is the first pending callback, and its time has come. -/
theorem C91_not_early_partial (hcard : Fintype.card α ≤ maxCallbacks) {s s' : RegTimer α} {p : TimerSpec α} {T : Int} {c : α}
    (h : RegReach NoRace s p T false) (hf : s.flag = true) (ht : regTake s = .ok (some c, s')) :
    p.First c ∧ ∃ r, p.pend c = some r ∧ r.due ≤ T := by
  obtain ⟨h1, h2⟩ := reg_queue hcard h
  obtain ⟨l, hr, -⟩ := C08_queue hcard _ _ _ h1
  have hq := represents_inv hr
  have hth := take_head hcard hq
  unfold regTake at ht
  cases l with
  | nil =>
    exfalso
    split at ht
    · cases ht
    · rename_i c' q' h1
      cases ht
      exact hth c q' h1
  | cons a l' =>
    obtain ⟨q', h3, -⟩ := hth
    rw [h3] at ht
    cases ht
    obtain ⟨r, hra⟩ := Option.isSome_iff_exists.mp ((hr.mem c).mp (by simp))
    have ha0 : s.q.arr 0 = some c := hq.array 0 (by decide)
    exact ⟨reg_first hr, r, hra, reg_due hcard h rfl hf c r ha0 hra⟩

end

/-- No ticks while the timer is set. -/
def noTicks : ArmTicks := ⟨0, 0, 0, 0, 0⟩

/-- The timeout of the decoder is set to time 1000 at time 998, and at time 999 put off to 5000: the clock reaches 1000 after
the flag has been cleared, before the compare register is written. -/
theorem race_history (ok : RegTimer CbId → Time → ArmTicks → Prop) (hok : ∀ s h n, ok s h n) :
    ∃ s, RegReach ok s ((((TimerSpec.empty CbId).request .expire 1000)).request .expire 5000) 1000 false ∧
      s.flag = true ∧ ∃ s', regTake s = .ok (some .expire, s') := by
  have h1 : ∃ s1, regRequest noTicks CbId.expire (stamp 1000)
      { q := CbQ.init CbId, now := stamp 998, ccr := 0, ie := false, flag := false } = .ok s1 ∧
      ∃ s2, regRequest ⟨0, 1, 0, 0, 0⟩ CbId.expire (stamp 5000) (regTick s1) = .ok s2 ∧ s2.flag = true ∧
        ∃ s3, regTake s2 = .ok (some .expire, s3) := by
    refine ⟨_, rfl, _, rfl, ?_, _, rfl⟩
    decide +kernel
  obtain ⟨s1, e1, s2, e2, hf, s3, e3⟩ := h1
  refine ⟨s2, ?_, hf, s3, e3⟩
  have r1 : RegReach ok s1 ((TimerSpec.empty CbId).request .expire 1000) 998 false :=
    by
    have r := RegReach.request (ok := ok) .expire 1000 noTicks (.init 998) (by intro d r _ h; cases h) (by norm_num)
      (fun _ _ _ _ => hok _ _ _) e1
    simpa [ArmTicks.total, noTicks] using r
  have hn : ((TimerSpec.empty CbId).request .expire 1000).Near .expire 5000 := by
    intro d r hd h
    simp [TimerSpec.request, TimerSpec.empty, hd] at h
  have r2 := RegReach.request (ok := ok) .expire 5000 ⟨0, 1, 0, 0, 0⟩ (.tick r1) hn (by norm_num)
    (fun _ _ _ _ => hok _ _ _) e2
  simpa [ArmTicks.total] using r2

/-- C91 fails: the handler runs a callback that is put off at the moment it was due, long before its new time.  In the
history above the timeout of the decoder runs 4000 ticks early. -/
theorem C91_full_false : ¬C91_full := by
  intro h
  obtain ⟨s, hs, hf, s', ht⟩ := race_history (fun _ _ _ => True) (fun _ _ _ => trivial)
  obtain ⟨c, s'', r, ht', hp, hd⟩ := h s _ _ hs hf
  rw [ht] at ht'
  cases ht'
  simp [TimerSpec.request] at hp
  subst hp
  simp at hd

theorem ticks_regReach {ok : RegTimer CbId → Time → ArmTicks → Prop} : ∀ (n : Nat) {s : RegTimer CbId} {p : TimerSpec CbId} {T : Int}
    {b : Bool}, RegReach ok s p T b → RegReach ok (regTicks n s) p (T + n) b
  | 0, s, p, T, b, h => by simpa [regTicks] using h
  | n + 1, s, p, T, b, h => by
    have := ticks_regReach n (.tick h)
    rw [regTicks]
    rwa [show T + 1 + (n : Int) = T + ((n + 1 : Nat) : Int) by push_cast; ring] at this

/-- C91 fails in another way: if for 18 minutes (2^32 ticks) from power-on no callback was requested, because the engine did
not turn, then the flag is set although the interrupt is not enabled.  The handler that then runs for the first edge on
a trigger input finds it, and writes in front of the callback array. -/
theorem C91_idle_full_false : ∃ (s : RegTimer CbId) (T : Int), RegReach (fun _ _ _ => True) s (TimerSpec.empty CbId) T false ∧
    s.flag = true ∧ s.ie = false ∧ regTake s = .error .oob := by
  have h0 : RegReach (fun _ _ _ => True) { q := CbQ.init CbId, now := stamp 0, ccr := 0, ie := false, flag := false }
      (TimerSpec.empty CbId) 0 false := .init 0
  obtain ⟨n, hn⟩ : ∃ n : Nat, n = 2 ^ 32 := ⟨_, rfl⟩
  refine ⟨_, _, ticks_regReach n h0, ?_⟩
  obtain ⟨a1, -, a3, -, a5⟩ := regTicks_spec n
    ({ q := CbQ.init CbId, now := stamp 0, ccr := 0, ie := false, flag := false } : RegTimer CbId)
  refine ⟨a5.mpr (.inr ⟨n, by omega, le_rfl, ?_⟩), a3, ?_⟩
  · apply BitVec.eq_of_toNat_eq
    simp [stamp, hn]
  unfold regTake
  rw [a1, C10_empty_queue_writes_oob _ rfl (fun _ => rfl)]

theorem quiet_states : ∃ s1, regRequest noTicks CbId.expire (stamp 1000)
    { q := CbQ.init CbId, now := stamp 998, ccr := 0, ie := false, flag := false } = .ok s1 ∧
    s1.ccr = 1000 ∧ s1.now = 998 ∧
    ∃ s2, regRequest ⟨0, 1, 1, 1, 1⟩ CbId.expire (stamp 1001) s1 = .ok s2 ∧ s2.flag = true ∧
      ∃ s3, regTake s2 = .ok (some .expire, s3) := by
  refine ⟨_, rfl, rfl, by decide +kernel, _, rfl, ?_, _, rfl⟩
  decide +kernel

/-- A history without the race, in which the callback is due and the handler runs it. -/
example : ∃ s p s', RegReach NoRace s p 1002 false ∧ s.flag = true ∧ p.pend .expire = some ⟨1001, 1⟩ ∧
    regTake s = .ok (some CbId.expire, s') := by
  obtain ⟨s1, e1, hc, hn, s2, e2, hf, s3, e3⟩ := quiet_states
  refine ⟨s2, ((TimerSpec.empty CbId).request .expire 1000).request .expire 1001, s3, ?_, hf, ?_, e3⟩
  swap
  · simp [TimerSpec.request, TimerSpec.empty]
  have hn0 : (TimerSpec.empty CbId).Near .expire 1000 := by
    intro d r _ h
    cases h
  have hr0 : ∀ (s : RegTimer CbId) h, NoRace s h noTicks := by
    intro s h k k1 k2
    simp [noTicks] at k2
    omega
  have r1 : RegReach NoRace s1 ((TimerSpec.empty CbId).request .expire 1000) 998 false := by
    have r0 : RegReach NoRace { q := CbQ.init CbId, now := stamp 998, ccr := 0, ie := false, flag := false }
        (TimerSpec.empty CbId) 998 false := .init 998
    generalize hs : RegTimer.mk (CbQ.init CbId) (stamp 998) 0 false false = s0 at r0 e1
    have r := r0.request .expire 1000 noTicks hn0 (by norm_num) (fun q h _ _ => hr0 _ h) e1
    simpa [ArmTicks.total, noTicks] using r
  have hn' : ((TimerSpec.empty CbId).request .expire 1000).Near .expire 1001 := by
    intro d r hd h
    simp [TimerSpec.request, TimerSpec.empty, hd] at h
  have hr1 : ∀ h, NoRace s1 h ⟨0, 1, 1, 1, 1⟩ := by
    intro h k k1 k2 k3
    dsimp only at k2 k3
    have : k = 1 := by omega
    subst this
    rw [hc, hn] at k3
    exact absurd k3 (by decide)
  have r2 := r1.request .expire 1001 ⟨0, 1, 1, 1, 1⟩ hn' (by norm_num) (fun q h _ _ => hr1 h) e2
  simpa [ArmTicks.total] using r2

end Verif
