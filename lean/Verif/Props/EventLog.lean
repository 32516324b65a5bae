/-
C46: the event log is a bounded queue that shows every drop.
-/
import Verif.Proofs.EventLog

namespace Verif

/-- Any step keeps the invariant, and the list of accepted events changes only when a recording is published. -/
theorem log_step_inv {s : LogSys} {acc : List LogEvent} (h : LogInv s acc) (a : LogAct) :
    ∃ s' acc', logStep s a = .ok s' ∧ LogInv s' acc' ∧
      (acc' = acc ∨ ∃ wpos e, a = .recStep ∧ s.recPc = .publish wpos ∧ acc' = acc ++ [e] ∧
        ∃ st ev, s.started = st ++ [ev] ∧ e = { ev with seq := BitVec.ofNat 32 st.length }) := by
  cases a with
  | call ev =>
      refine ⟨_, acc, show logStep s (.call ev) = .ok (match s.recPc with
        | .idle => if s.log.enabled then { s with recPc := .fetchSeq ev } else s
        | _ => s) by unfold logStep; cases s.recPc <;> rfl, ?_, Or.inl rfl⟩
      cases hpc : s.recPc with
      | idle =>
          simp only
          split_ifs
          · have hrec := h.recI
            rw [hpc] at hrec
            refine ⟨h.rd, h.wr, h.le, h.cap, h.del, h.ev, h.seq, hrec, ?_⟩
            have := h.getI
            revert this
            show GetInv s acc s.getPc → GetInv _ acc s.getPc
            cases s.getPc <;> exact id
          · exact h
      | _ => exact h
  | recStep =>
      obtain ⟨s', acc', h1, h2, -, -, h3⟩ := rec_inv h
      refine ⟨s', acc', h1, h2, ?_⟩
      rcases h3 with h3 | ⟨w, e, h3, h4, h5⟩
      · exact Or.inl h3
      · exact Or.inr ⟨w, e, rfl, h3, h4, h5⟩
  | get =>
      refine ⟨_, acc, show logStep s .get = .ok (match s.getPc with
        | .idle => { s with getPc := .loadRead }
        | _ => s) by unfold logStep; cases s.getPc <;> rfl, ?_, Or.inl rfl⟩
      cases hpc : s.getPc with
      | idle => exact ⟨h.rd, h.wr, h.le, h.cap, h.del, h.ev, h.seq, recInv_get (k := s.nothing) h.recI, trivial⟩
      | _ => exact h
  | getStep =>
      obtain ⟨s', h1, h2, -⟩ := get_inv h
      exact ⟨s', acc, h1, h2, Or.inl rfl⟩
  | enable b =>
      refine ⟨_, acc, show logStep s (.enable b) = .ok (match s.getPc with
        | .idle => { s with log := { s.log with enabled := b } }
        | _ => s) by unfold logStep; cases s.getPc <;> rfl, ?_, Or.inl rfl⟩
      cases hpc : s.getPc with
      | idle =>
          have hrec := h.recI
          refine ⟨h.rd, h.wr, h.le, h.cap, h.del, h.ev, h.seq, ?_, ?_⟩
          · revert hrec
            show RecInv s acc s.recPc → RecInv _ acc s.recPc
            cases s.recPc <;> exact id
          · trivial
      | _ => exact h

theorem log_run_inv {s : LogSys} {acc : List LogEvent} (h : LogInv s acc) (as : List LogAct) :
    ∃ s' acc', logRun s as = .ok s' ∧ LogInv s' acc' ∧ acc <+: acc' := by
  induction as generalizing s acc with
  | nil => exact ⟨s, acc, rfl, h, List.prefix_rfl⟩
  | cons a as ih =>
      obtain ⟨s1, acc1, h1, h2, h3⟩ := log_step_inv h a
      obtain ⟨s', acc', h4, h5, h6⟩ := ih h2
      refine ⟨s', acc', by rw [logRun, h1, except_bind_ok, h4], h5, List.IsPrefix.trans ?_ h6⟩
      rcases h3 with rfl | ⟨_, e, -, -, rfl, -⟩
      · exact List.prefix_rfl
      · exact List.prefix_append _ _

theorem boot_inv : LogInv logBoot [] :=
  ⟨rfl, rfl, le_refl _, Nat.zero_le _, rfl, fun j e _ he => by simp at he, rfl, List.Sublist.refl _, trivial⟩

theorem recInv_sub {s : LogSys} {acc : List LogEvent} (h : RecInv s acc s.recPc) : acc.Sublist (numbered s.started) := by
  have key : ∀ ev : LogEvent, (∃ st, s.started = st ++ [ev] ∧ acc.Sublist (numbered st)) →
      acc.Sublist (numbered s.started) := by
    rintro ev ⟨st, h1, h2⟩
    rw [h1, numbered_append]
    exact h2.trans (List.sublist_append_left _ _)
  revert h
  cases s.recPc with
  | idle => exact id
  | fetchSeq ev => exact id
  | loadRead ev q => rintro ⟨st, h1, -, h2⟩; exact key ev ⟨st, h1, h2⟩
  | loadWrite ev q r => rintro ⟨⟨st, h1, -, h2⟩, -⟩; exact key ev ⟨st, h1, h2⟩
  | store ev q r => rintro ⟨⟨st, h1, -, h2⟩, -⟩; exact key ev ⟨st, h1, h2⟩
  | storeSeq q r => rintro ⟨ev, ⟨st, h1, -, h2⟩, -⟩; exact key ev ⟨st, h1, h2⟩
  | publish r => rintro ⟨ev, q, ⟨st, h1, -, h2⟩, -⟩; exact key ev ⟨st, h1, h2⟩

/-- C46: whatever the interleaving of recording and taking out, no access is out of bounds, at most 31 events are
waiting, and the events handed to the client, followed by those waiting, are some of the events whose recording began, in
order, each at most once, unchanged and numbered by its position among all of them. -/
theorem C46_fifo (as : List LogAct) :
    ∃ s, logRun logBoot as = .ok s ∧ (s.delivered ++ waiting s.log).Sublist (numbered s.started) ∧
      (waiting s.log).length ≤ 31 := by
  obtain ⟨s, acc, h1, h2, -⟩ := log_run_inv boot_inv as
  refine ⟨s, h1, ?_, ?_⟩
  · have : s.delivered ++ waiting s.log = acc := inv_kept h2
    rw [this]
    exact recInv_sub h2.recI
  · rw [inv_waiting h2, List.length_drop]
    have := h2.cap
    omega

/-- C46: an event is numbered by the count of all events before it, so that a gap in the numbers of the delivered events
is a drop: events delivered one after the other with consecutive numbers had nothing between them. -/
theorem C46_position (l : List LogEvent) (i : ℕ) :
    (numbered l)[i]? = l[i]?.map fun e => { e with seq := BitVec.ofNat 32 i } := by
  unfold numbered
  rw [List.getElem?_mapIdx]

/-- C46: a waiting event is never lost: what the client has got or will get only grows at its end. -/
theorem C46_not_lost (as bs : List LogAct) {s s' : LogSys} (h : logRun logBoot as = .ok s) (h' : logRun s bs = .ok s') :
    s.delivered ++ waiting s.log <+: s'.delivered ++ waiting s'.log := by
  obtain ⟨s1, acc, h1, h2, -⟩ := log_run_inv boot_inv as
  rw [h] at h1
  cases h1
  obtain ⟨s2, acc', h3, h4, h5⟩ := log_run_inv h2 bs
  rw [h'] at h3
  cases h3
  have e1 : s.delivered ++ waiting s.log = acc := inv_kept h2
  have e2 : s'.delivered ++ waiting s'.log = acc' := inv_kept h4
  rw [e1, e2]
  exact h5

/-- Where the recording of `ev` is, after the `read` index was loaded with `K` kept. -/
def RecPhase (K : List LogEvent) (full : Bool) (ev : LogEvent) (q : BitVec 32) (s : LogSys) (acc : List LogEvent) : Prop :=
  match s.recPc with
  | .idle => acc = if full then K else K ++ [{ ev with seq := q }]
  | .fetchSeq _ => False
  | .loadRead _ _ => False
  | .loadWrite ev' q' rpos => ev' = ev ∧ q' = q ∧ acc = K ∧ (logNext s.log.write = rpos ↔ full = true)
  | .store ev' q' _ => ev' = ev ∧ q' = q ∧ acc = K ∧ full = false
  | .storeSeq _ _ => acc = K ∧ full = false ∧ ∃ st, s.started = st ++ [ev] ∧ q = BitVec.ofNat 32 st.length
  | .publish _ => acc = K ∧ full = false ∧ ∃ st, s.started = st ++ [ev] ∧ q = BitVec.ofNat 32 st.length

/-- Is this a new call to record? -/
def LogAct.isCall : LogAct → Bool
  | .call _ => true
  | _ => false

theorem phase_congr {K : List LogEvent} {full : Bool} {ev : LogEvent} {q : BitVec 32} {s s' : LogSys}
    {acc : List LogEvent} (h1 : s'.recPc = s.recPc) (h2 : s'.log.write = s.log.write) (h3 : s'.started = s.started)
    (h : RecPhase K full ev q s acc) : RecPhase K full ev q s' acc := by
  unfold RecPhase at *
  rw [h1, h2, h3]
  exact h

theorem phase_step {K : List LogEvent} {full : Bool} {ev : LogEvent} {q : BitVec 32} {s s' : LogSys}
    {acc : List LogEvent} {a : LogAct} (hi : LogInv s acc) (hp : RecPhase K full ev q s acc) (ha : a.isCall = false)
    (h : logStep s a = .ok s') : ∃ acc', LogInv s' acc' ∧ RecPhase K full ev q s' acc' := by
  cases a with
  | call ev => cases ha
  | get =>
      obtain ⟨s1, acc', h1, h2, h3⟩ := log_step_inv hi .get
      rw [h] at h1
      cases h1
      rcases h3 with rfl | ⟨_, _, h3, -⟩
      · refine ⟨_, h2, ?_⟩
        have : s' = match s.getPc with
            | .idle => { s with getPc := .loadRead }
            | _ => s := by
          unfold logStep at h
          cases hg : s.getPc <;> rw [hg] at h <;> exact (Except.ok.inj h).symm
        rw [this]
        cases s.getPc <;> exact phase_congr rfl rfl rfl hp
      · cases h3
  | enable b =>
      obtain ⟨s1, acc', h1, h2, h3⟩ := log_step_inv hi (.enable b)
      rw [h] at h1
      cases h1
      rcases h3 with rfl | ⟨_, _, h3, -⟩
      · refine ⟨_, h2, ?_⟩
        have : s' = match s.getPc with
            | .idle => { s with log := { s.log with enabled := b } }
            | _ => s := by
          unfold logStep at h
          cases hg : s.getPc <;> rw [hg] at h <;> exact (Except.ok.inj h).symm
        rw [this]
        cases s.getPc <;> exact phase_congr rfl rfl rfl hp
      · cases h3
  | getStep =>
      obtain ⟨s1, h1, h2, h3, h4, h5, -⟩ := get_inv hi
      have : getStep s = .ok s' := h
      rw [this] at h1
      cases h1
      exact ⟨acc, h2, phase_congr h3 h5 h4 hp⟩
  | recStep =>
      obtain ⟨s1, acc', h1, h2, -, -, h3⟩ := rec_inv hi
      have hh : recStep s = .ok s' := h
      rw [hh] at h1
      cases h1
      refine ⟨acc', h2, ?_⟩
      have hrec := hi.recI
      unfold RecPhase at hp
      unfold recStep at hh
      cases hpc : s.recPc with
      | idle =>
          rw [hpc] at hp hh h3
          cases hh
          rcases h3 with rfl | ⟨w, e, h3, -⟩
          · unfold RecPhase
            rw [hpc]; exact hp
          · cases h3
      | fetchSeq e => rw [hpc] at hp; exact hp.elim
      | loadRead e q => rw [hpc] at hp; exact hp.elim
      | loadWrite ev' q' rpos =>
          rw [hpc] at hp hh h3
          obtain ⟨p1, p2, p3, p4⟩ := hp
          have hh' := Except.ok.inj hh
          rcases h3 with rfl | ⟨w, e, h3, -⟩
          · by_cases hne : logNext s.log.write = rpos
            · have : s'.recPc = .idle := by rw [← hh']; exact if_neg (fun h => h hne)
              unfold RecPhase
              rw [this]
              simp only
              rw [p4.mp hne, if_pos rfl]; exact p3
            · have : s'.recPc = .store ev' q' s.log.write := by rw [← hh']; exact if_pos hne
              unfold RecPhase
              rw [this]
              refine ⟨p1, p2, p3, ?_⟩
              cases full
              · rfl
              · exact absurd (p4.mpr rfl) hne
          · cases h3
      | store ev' q' wpos =>
          rw [hpc] at hp hh h3 hrec
          obtain ⟨p1, p2, p3, p4⟩ := hp
          simp only [bind_eq_ok] at hh
          obtain ⟨es, -, hh⟩ := hh
          have hh' := Except.ok.inj hh
          obtain ⟨⟨st, r1, r2, -⟩, -⟩ := hrec
          rcases h3 with rfl | ⟨w, e, h3, -⟩
          · have e1 : s'.recPc = .storeSeq q' wpos := by rw [← hh']
            have e2 : s'.started = s.started := by rw [← hh']
            unfold RecPhase
            rw [e1]
            exact ⟨p3, p4, st, by rw [e2, r1, p1], by rw [← p2, r2]⟩
          · cases h3
      | storeSeq q' wpos =>
          rw [hpc] at hp hh h3
          simp only [bind_eq_ok] at hh
          obtain ⟨e, -, es, -, hh⟩ := hh
          have hh' := Except.ok.inj hh
          rcases h3 with rfl | ⟨w, e, h3, -⟩
          · have e1 : s'.recPc = .publish wpos := by rw [← hh']
            have e2 : s'.started = s.started := by rw [← hh']
            unfold RecPhase
            rw [e1]
            simp only
            rw [e2]
            exact hp
          · cases h3
      | publish wpos =>
          rw [hpc] at hp hh h3 hrec
          obtain ⟨p3, p4, st, p5, p6⟩ := hp
          have hh' := Except.ok.inj hh
          have e1 : s'.recPc = .idle := by rw [← hh']
          unfold RecPhase
          rw [e1]
          simp only
          rw [p4, if_neg (by decide)]
          obtain ⟨ev', q', ⟨st', r1, r2, -⟩, r3, r4, r5⟩ := hrec
          rcases h3 with rfl | ⟨w, e, h3, h4, st2, ev2, h5, h6⟩
          · -- the list cannot stay the same
            have hw := h2.wr
            have hw2 : s'.log.write = logNext wpos := by rw [← hh']
            rw [hw2, logNext_toNat r4] at hw
            omega
          · rw [h4, p3, h6]
            rw [p5] at h5
            obtain ⟨x1, x2⟩ := List.append_inj' h5 rfl
            cases x2
            rw [p6, x1]

/-- C46: once the recording of an event has looked at the `read` index, it ends with the event appended, with its
number, to what the client has got or will get, exactly if fewer than 31 events were waiting at that moment, whatever the
reader does meanwhile; with 31 waiting it is dropped and nothing else changes. -/
theorem C46_dropped_only_when_full (as bs : List LogAct) {s s' : LogSys} {ev : LogEvent} {q : BitVec 32}
    (h : logRun logBoot as = .ok s) (hs : s.recPc = .loadRead ev q) (hb : ∀ b ∈ bs, b.isCall = false)
    (h' : logRun s (.recStep :: bs) = .ok s') (hd : s'.recPc = .idle) :
    s'.delivered ++ waiting s'.log =
      if (waiting s.log).length < 31 then s.delivered ++ waiting s.log ++ [{ ev with seq := q }]
      else s.delivered ++ waiting s.log := by
  obtain ⟨s1, acc, h1, hi, -⟩ := log_run_inv boot_inv as
  rw [h] at h1
  cases h1
  have hK : s.delivered ++ waiting s.log = acc := inv_kept hi
  have hlen : (waiting s.log).length = acc.length - s.delivered.length := by rw [inv_waiting hi, List.length_drop]
  obtain ⟨s2, acc2, h2, hi2, -, -, hacc⟩ := rec_inv hi
  rw [logRun, show logStep s .recStep = recStep s from rfl, h2, except_bind_ok] at h'
  have hs2 : s2 = { s with recPc := .loadWrite ev q s.log.read } := by
    unfold recStep at h2
    rw [hs] at h2
    exact (Except.ok.inj h2).symm
  have hacc2 : acc2 = acc := by
    rcases hacc with h | ⟨w, e, h, -⟩
    · exact h
    · rw [hs] at h; cases h
  subst hacc2
  have hph : RecPhase acc2 (decide (¬ (waiting s.log).length < 31)) ev q s2 acc2 := by
    rw [hs2]
    refine ⟨rfl, rfl, rfl, ?_⟩
    rw [decide_eq_true_eq, hlen]
    show logNext s.log.write = s.log.read ↔ _
    have e1 := logNext_toNat hi.wr
    have e2 := hi.rd
    have e3 := hi.le
    have e4 := hi.cap
    constructor
    · intro he
      rw [he] at e1
      omega
    · intro he
      apply BitVec.eq_of_toNat_eq
      omega
  have key : ∀ (K : List LogEvent) (bs : List LogAct) (s2 : LogSys) (acc2 : List LogEvent), (∀ b ∈ bs, b.isCall = false) → LogInv s2 acc2 →
      RecPhase K (decide (¬ (waiting s.log).length < 31)) ev q s2 acc2 → logRun s2 bs = .ok s' →
      ∃ acc3, LogInv s' acc3 ∧ RecPhase K (decide (¬ (waiting s.log).length < 31)) ev q s' acc3 := by
    intro K bs
    induction bs with
    | nil => intro s2 acc2 _ hi hp h; cases h; exact ⟨acc2, hi, hp⟩
    | cons b bs ih =>
        intro s2 acc2 hb hi hp h
        rw [logRun, bind_eq_ok] at h
        obtain ⟨s3, h3, h⟩ := h
        obtain ⟨acc3, hi3, hp3⟩ := phase_step hi hp (hb b (by simp)) h3
        exact ih s3 acc3 (fun b hb' => hb b (by simp [hb'])) hi3 hp3 h
  obtain ⟨acc3, hi3, hp3⟩ := key acc2 bs s2 acc2 hb hi2 hph h'
  have hK3 : s'.delivered ++ waiting s'.log = acc3 := inv_kept hi3
  unfold RecPhase at hp3
  rw [hd] at hp3
  simp only at hp3
  rw [hK3, hK, hp3]
  by_cases hl : (waiting s.log).length < 31
  · rw [if_pos hl, decide_eq_false (by simpa using hl)]; rfl
  · rw [if_neg hl, decide_eq_true hl]; rfl

/-- C46: the reader is told that there is nothing only when nothing is waiting at the moment it looks at the `write` index,
or when logging is switched off. -/
theorem C46_nothing_only_when_empty (as : List LogAct) {s s' : LogSys} (h : logRun logBoot as = .ok s)
    (h' : logStep s .getStep = .ok s') (hn : s'.nothing ≠ s.nothing) :
    waiting s.log = [] ∨ s.log.enabled = false := by
  obtain ⟨s1, acc, h1, hi, -⟩ := log_run_inv boot_inv as
  rw [h] at h1
  cases h1
  have hg := hi.getI
  have h'' : getStep s = .ok s' := h'
  unfold getStep at h''
  cases hpc : s.getPc with
  | loadWrite rpos =>
      rw [hpc] at h'' hg
      simp only at h''
      split_ifs at h'' with hc
      · rcases hc with hc | hc
        · exact Or.inr hc
        · left
          rw [inv_waiting hi, List.drop_eq_nil_iff]
          have h1 : rpos.toNat = s.delivered.length % 32 := hg
          rw [hc, hi.wr] at h1
          have := hi.cap
          omega
      · cases h''; exact absurd rfl hn
  | idle => rw [hpc] at h''; cases h''; exact absurd rfl hn
  | loadRead => rw [hpc] at h''; cases h''; exact absurd rfl hn
  | storeRead r e => rw [hpc] at h''; cases h''; exact absurd rfl hn
  | copyTime r => rw [hpc] at h''; simp only [bind_eq_ok] at h''; obtain ⟨e, -, h''⟩ := h''; cases h''; exact absurd rfl hn
  | copySeq r t => rw [hpc] at h''; simp only [bind_eq_ok] at h''; obtain ⟨e, -, h''⟩ := h''; cases h''; exact absurd rfl hn
  | copyType r t q => rw [hpc] at h''; simp only [bind_eq_ok] at h''; obtain ⟨e, -, h''⟩ := h''; cases h''; exact absurd rfl hn
  | copyValue r t q y => rw [hpc] at h''; simp only [bind_eq_ok] at h''; obtain ⟨e, -, h''⟩ := h''; cases h''; exact absurd rfl hn

/-- C46: while logging is on, a call that takes an event out, undisturbed, gets the oldest one that is waiting. -/
theorem C46_delivers_oldest (as : List LogAct) {s : LogSys} {e : LogEvent} {es : List LogEvent}
    (h : logRun logBoot as = .ok s) (hidle : s.getPc = .idle) (hon : s.log.enabled = true) (hw : waiting s.log = e :: es) :
    ∃ s', logRun s (.get :: List.replicate 7 .getStep) = .ok s' ∧ s'.delivered = s.delivered ++ [e] ∧
      waiting s'.log = es ∧ s'.getPc = .idle := by
  obtain ⟨s1, acc, h1, hi, -⟩ := log_run_inv boot_inv as
  rw [h] at h1
  cases h1
  have hlen := congrArg List.length hw
  rw [inv_waiting hi, List.length_drop, List.length_cons] at hlen
  have hget : acc[s.delivered.length]? = some e := by
    have := congrArg (fun l => l[0]?) hw
    rw [inv_waiting hi] at this
    simpa using this
  have hr : s.log.read.toNat < 32 := by have := hi.rd; omega
  have hread : rd s.log.events (s.log.read.toNat : Nat) = .ok e := by
    rw [rd_ok _ _ hr, ← hi.ev s.delivered.length e (le_refl _) hget]
    congr 3
    exact hi.rd
  have hne : s.log.read ≠ s.log.write := by
    intro he
    have h1 := hi.rd
    have h2 := hi.wr
    have h3 := hi.cap
    rw [he] at h1
    omega
  have hrun : logRun s (.get :: List.replicate 7 .getStep) =
      .ok { s with log := { s.log with read := logNext s.log.read }, getPc := .idle, delivered := s.delivered ++ [e] } := by
    simp only [List.replicate, logRun, logStep, hidle, except_bind_ok, getStep, hon, hne, hread, except_pure, or_self,
      if_false, Bool.true_eq_false]
  refine ⟨_, hrun, rfl, ?_, rfl⟩
  obtain ⟨s2, acc', h3, hi2, hpre⟩ := log_run_inv hi (.get :: List.replicate 7 .getStep)
  rw [hrun] at h3
  cases h3
  have hK : s.delivered ++ waiting s.log = acc := inv_kept hi
  have hK' := inv_kept hi2
  unfold kept at hK'
  simp only at hK'
  obtain ⟨t, ht⟩ := hpre
  have hl2 : acc'.length = acc.length := by
    have h1 := hi2.wr
    have h2 := hi.wr
    have h3 := hi2.cap
    have h4 := hi2.le
    have h5 := hi.le
    have h6 := hi.cap
    have h7 := congrArg List.length ht
    rw [List.length_append] at h7
    simp only [List.length_append, List.length_singleton] at h1 h3 h4
    change s.log.write.toNat = _ at h1
    omega
  have ht0 : t = [] := by
    apply List.eq_nil_of_length_eq_zero
    have h7 := congrArg List.length ht
    rw [List.length_append] at h7
    omega
  rw [ht0, List.append_nil] at ht
  rw [← ht, ← hK, hw, List.append_assoc] at hK'
  have := List.append_cancel_left hK'
  simpa using this

/-- A run in which the reader copies an event while another is being recorded: both are delivered, in order, numbered. -/
example :
    (logRun logBoot ([.call ⟨5, 0, .trigger, 0⟩] ++ List.replicate 6 .recStep ++ [.get, .getStep, .getStep, .getStep,
        .call ⟨9, 0, .output, 3⟩, .recStep, .recStep, .getStep, .recStep, .recStep, .getStep, .recStep, .getStep, .getStep,
        .recStep] ++ [.get] ++ List.replicate 7 .getStep)).map LogSys.delivered =
      .ok [⟨5, 0, .trigger, 0⟩, ⟨9, 1, .output, 3⟩] := by
  decide +kernel

/-- The log fills up, drops two events and shows the gap: the event after the drop is numbered 33. -/
example :
    (logRun logBoot ((List.replicate 33 (.call ⟨5, 0, .trigger, 0⟩ :: List.replicate 6 .recStep)).flatten ++
        .get :: List.replicate 7 .getStep ++ .call ⟨9, 0, .output, 3⟩ :: List.replicate 6 .recStep)).map
      (fun s => ((waiting s.log).length, (waiting s.log)[29]?, (waiting s.log)[30]?)) =
      .ok (31, some ⟨5, 30, .trigger, 0⟩, some ⟨9, 33, .output, 3⟩) := by
  decide +kernel

end Verif
