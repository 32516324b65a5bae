/-
The invariant of the event log.
-/
import Verif.Spec.EventLog
import Mathlib.Tactic.Ring
import Mathlib.Data.List.Basic

namespace Verif

theorem logNext_toNat {i : BitVec 32} {n : ℕ} (h : i.toNat = n % 32) : (logNext i).toNat = (n + 1) % 32 := by
  unfold logNext
  have h1 : (i + 1).toNat = n % 32 + 1 := by bv_omega
  split_ifs with hc
  · rw [h1] at hc
    show 0 = _
    have : logSize = 32 := rfl
    omega
  · rw [h1] at hc
    rw [h1]
    have : logSize = 32 := rfl
    omega

/-- What holds of the recorder. -/
def RecInv (s : LogSys) (acc : List LogEvent) : RecPc → Prop
  | .idle => acc.Sublist (numbered s.started)
  | .fetchSeq _ => acc.Sublist (numbered s.started)
  | .loadRead ev q => ∃ st, s.started = st ++ [ev] ∧ q = BitVec.ofNat 32 st.length ∧ acc.Sublist (numbered st)
  | .loadWrite ev q rpos => (∃ st, s.started = st ++ [ev] ∧ q = BitVec.ofNat 32 st.length ∧ acc.Sublist (numbered st)) ∧
      ∃ nd', nd' ≤ s.delivered.length ∧ acc.length ≤ nd' + 31 ∧ rpos.toNat = nd' % 32
  | .store ev q wpos => (∃ st, s.started = st ++ [ev] ∧ q = BitVec.ofNat 32 st.length ∧ acc.Sublist (numbered st)) ∧
      acc.length < s.delivered.length + 31 ∧ wpos.toNat = acc.length % 32
  | .storeSeq q wpos => ∃ ev, (∃ st, s.started = st ++ [ev] ∧ q = BitVec.ofNat 32 st.length ∧ acc.Sublist (numbered st)) ∧
      acc.length < s.delivered.length + 31 ∧ wpos.toNat = acc.length % 32 ∧
      s.log.events ⟨acc.length % 32, Nat.mod_lt _ (by decide)⟩ = ev
  | .publish wpos => ∃ ev q, (∃ st, s.started = st ++ [ev] ∧ q = BitVec.ofNat 32 st.length ∧ acc.Sublist (numbered st)) ∧
      acc.length < s.delivered.length + 31 ∧ wpos.toNat = acc.length % 32 ∧
      s.log.events ⟨acc.length % 32, Nat.mod_lt _ (by decide)⟩ = { ev with seq := q }

/-- What holds of the reader. -/
def GetInv (s : LogSys) (acc : List LogEvent) : GetPc → Prop
  | .idle => True
  | .loadRead => True
  | .loadWrite rpos => rpos.toNat = s.delivered.length % 32
  | .copyTime rpos => rpos.toNat = s.delivered.length % 32 ∧ ∃ e, acc[s.delivered.length]? = some e
  | .copySeq rpos t => rpos.toNat = s.delivered.length % 32 ∧ ∃ e, acc[s.delivered.length]? = some e ∧ e.time = t
  | .copyType rpos t q => rpos.toNat = s.delivered.length % 32 ∧
      ∃ e, acc[s.delivered.length]? = some e ∧ e.time = t ∧ e.seq = q
  | .copyValue rpos t q y => rpos.toNat = s.delivered.length % 32 ∧
      ∃ e, acc[s.delivered.length]? = some e ∧ e.time = t ∧ e.seq = q ∧ e.type = y
  | .storeRead rpos e => rpos.toNat = s.delivered.length % 32 ∧ acc[s.delivered.length]? = some e

/-- The invariant: `acc` is the list of events accepted so far. -/
structure LogInv (s : LogSys) (acc : List LogEvent) : Prop where
  rd : s.log.read.toNat = s.delivered.length % 32
  wr : s.log.write.toNat = acc.length % 32
  le : s.delivered.length ≤ acc.length
  cap : acc.length ≤ s.delivered.length + 31
  del : s.delivered = acc.take s.delivered.length
  ev : ∀ j e, s.delivered.length ≤ j → acc[j]? = some e → s.log.events ⟨j % 32, Nat.mod_lt _ (by decide)⟩ = e
  seq : s.log.seq = BitVec.ofNat 32 s.started.length
  recI : RecInv s acc s.recPc
  getI : GetInv s acc s.getPc

theorem inv_waiting {s : LogSys} {acc : List LogEvent} (h : LogInv s acc) :
    waiting s.log = acc.drop s.delivered.length := by
  have h1 := h.rd
  have h2 := h.wr
  have h3 := h.le
  have h4 := h.cap
  apply List.ext_getElem?
  intro j
  unfold waiting
  have hlen : (s.log.write.toNat + logSize - s.log.read.toNat) % logSize = acc.length - s.delivered.length := by
    show (s.log.write.toNat + 32 - s.log.read.toNat) % 32 = _
    omega
  rw [hlen, List.getElem?_map, List.getElem?_drop]
  rcases Nat.lt_or_ge j (acc.length - s.delivered.length) with hj | hj
  · rw [List.getElem?_range hj]
    obtain ⟨e, he⟩ : ∃ e, acc[s.delivered.length + j]? = some e :=
      ⟨_, List.getElem?_eq_getElem (by omega)⟩
    rw [he, ← h.ev (s.delivered.length + j) e (by omega) he]
    simp only [Option.map_some, Option.some.injEq]
    congr 1
    apply Fin.ext
    show (s.log.read.toNat + j) % 32 = (s.delivered.length + j) % 32
    omega
  · rw [List.getElem?_eq_none (l := acc) (by omega), List.getElem?_eq_none (l := List.range _) (by simp; omega)]
    rfl

theorem inv_kept {s : LogSys} {acc : List LogEvent} (h : LogInv s acc) : kept s = acc := by
  unfold kept
  rw [inv_waiting h]
  conv_lhs => rw [h.del]
  rw [List.length_take, Nat.min_eq_left h.le, List.take_append_drop]

theorem numbered_append (l : List LogEvent) (e : LogEvent) :
    numbered (l ++ [e]) = numbered l ++ [{ e with seq := BitVec.ofNat 32 l.length }] := by
  unfold numbered
  rw [List.mapIdx_append]
  simp

theorem ofNat_succ (n : ℕ) : BitVec.ofNat 32 n + 1 = BitVec.ofNat 32 (n + 1) := by
  apply BitVec.eq_of_toNat_eq
  simp

/-- The recorder's next access. -/
theorem rec_inv {s : LogSys} {acc : List LogEvent} (h : LogInv s acc) :
    ∃ s' acc', recStep s = .ok s' ∧ LogInv s' acc' ∧ s'.delivered = s.delivered ∧ s'.getPc = s.getPc ∧
      (acc' = acc ∨ ∃ wpos e, s.recPc = .publish wpos ∧ acc' = acc ++ [e] ∧
        ∃ st ev, s.started = st ++ [ev] ∧ e = { ev with seq := BitVec.ofNat 32 st.length }) := by
  have hrec := h.recI
  have h3 := h.le
  have h4 := h.cap
  unfold recStep
  cases hpc : s.recPc with
  | idle => exact ⟨s, acc, rfl, h, rfl, rfl, Or.inl rfl⟩
  | fetchSeq ev =>
      rw [hpc] at hrec
      refine ⟨_, acc, rfl, ⟨h.rd, h.wr, h.le, h.cap, h.del, h.ev, ?_, ⟨s.started, rfl, h.seq, hrec⟩, ?_⟩, rfl, rfl, Or.inl rfl⟩
      · show s.log.seq + 1 = _
        rw [h.seq, ofNat_succ]
        simp
      · have := h.getI
        revert this
        show GetInv s acc s.getPc → GetInv _ acc s.getPc
        cases s.getPc <;> exact id
  | loadRead ev q =>
      rw [hpc] at hrec
      refine ⟨_, acc, rfl, ⟨h.rd, h.wr, h.le, h.cap, h.del, h.ev, h.seq,
        ⟨hrec, s.delivered.length, le_refl _, h4, h.rd⟩, ?_⟩, rfl, rfl, Or.inl rfl⟩
      have := h.getI
      revert this
      show GetInv s acc s.getPc → GetInv _ acc s.getPc
      cases s.getPc <;> exact id
  | loadWrite ev q rpos =>
      rw [hpc] at hrec
      obtain ⟨hst, nd', hn1, hn2, hn3⟩ := hrec
      have hnext := logNext_toNat h.wr
      refine ⟨_, acc, rfl, ⟨h.rd, h.wr, h.le, h.cap, h.del, h.ev, h.seq, ?_, ?_⟩, rfl, rfl, Or.inl rfl⟩
      · show RecInv _ acc (if logNext s.log.write ≠ rpos then RecPc.store ev q s.log.write else RecPc.idle)
        split_ifs with hne
        · refine ⟨hst, ?_, h.wr⟩
          have : (logNext s.log.write).toNat ≠ rpos.toNat := fun he => hne (BitVec.eq_of_toNat_eq he)
          show acc.length < s.delivered.length + 31
          omega
        · obtain ⟨st, hs1, hs2, hs3⟩ := hst
          show acc.Sublist (numbered s.started)
          rw [hs1, numbered_append]
          exact hs3.trans (List.sublist_append_left _ _)
      · have := h.getI
        revert this
        show GetInv s acc s.getPc → GetInv _ acc s.getPc
        cases s.getPc <;> exact id
  | store ev q wpos =>
      rw [hpc] at hrec
      obtain ⟨hst, hr1, hr2⟩ := hrec
      have hlt : wpos.toNat < 32 := by omega
      have hwr : wr s.log.events (wpos.toNat : Nat) ev = .ok (fun j => if j = ⟨wpos.toNat, hlt⟩ then ev else s.log.events j) := by
        unfold wr
        rw [dif_pos (by constructor; omega; show (wpos.toNat : ℤ) < 32; omega)]
        simp
      simp only [hwr, except_bind_ok, except_pure]
      refine ⟨_, acc, rfl, ⟨h.rd, h.wr, h.le, h.cap, h.del, ?_, h.seq, ⟨ev, hst, hr1, hr2, ?_⟩, ?_⟩, rfl, rfl, Or.inl rfl⟩
      · intro j e hj he
        have hjl : j < acc.length := by
          by_contra hc
          rw [List.getElem?_eq_none (by omega)] at he
          cases he
        show (if (⟨j % 32, _⟩ : Fin 32) = ⟨wpos.toNat, hlt⟩ then ev else s.log.events _) = e
        rw [if_neg (by
          rw [Fin.mk.injEq, hr2]
          change s.delivered.length ≤ j at hj
          omega)]
        exact h.ev j e hj he
      · show (if (⟨acc.length % 32, _⟩ : Fin 32) = ⟨wpos.toNat, hlt⟩ then ev else s.log.events _) = ev
        rw [if_pos (by rw [Fin.mk.injEq, hr2])]
      · have := h.getI
        revert this
        show GetInv s acc s.getPc → GetInv _ acc s.getPc
        cases s.getPc <;> exact id
  | storeSeq q wpos =>
      rw [hpc] at hrec
      obtain ⟨ev, hst, hr1, hr2, hr3⟩ := hrec
      have hlt : wpos.toNat < 32 := by omega
      have hrd : rd s.log.events (wpos.toNat : Nat) = .ok ev := by
        rw [rd_ok _ _ hlt, ← hr3]
        congr 3
      have hwr : wr s.log.events (wpos.toNat : Nat) { ev with seq := q } =
          .ok (fun j => if j = ⟨wpos.toNat, hlt⟩ then { ev with seq := q } else s.log.events j) := by
        unfold wr
        rw [dif_pos (by constructor; omega; show (wpos.toNat : ℤ) < 32; omega)]
        simp
      simp only [hrd, except_bind_ok, hwr, except_pure]
      refine ⟨_, acc, rfl, ⟨h.rd, h.wr, h.le, h.cap, h.del, ?_, h.seq, ⟨ev, q, hst, hr1, hr2, ?_⟩, ?_⟩, rfl, rfl, Or.inl rfl⟩
      · intro j e hj he
        have hjl : j < acc.length := by
          by_contra hc
          rw [List.getElem?_eq_none (by omega)] at he
          cases he
        show (if (⟨j % 32, _⟩ : Fin 32) = ⟨wpos.toNat, hlt⟩ then { ev with seq := q } else s.log.events _) = e
        rw [if_neg (by
          rw [Fin.mk.injEq, hr2]
          change s.delivered.length ≤ j at hj
          omega)]
        exact h.ev j e hj he
      · show (if (⟨acc.length % 32, _⟩ : Fin 32) = ⟨wpos.toNat, hlt⟩ then { ev with seq := q } else s.log.events _) = _
        rw [if_pos (by rw [Fin.mk.injEq, hr2])]
      · have := h.getI
        revert this
        show GetInv s acc s.getPc → GetInv _ acc s.getPc
        cases s.getPc <;> exact id
  | publish wpos =>
      rw [hpc] at hrec
      obtain ⟨ev, q, ⟨st, hs1, hs2, hs3⟩, hr1, hr2, hr3⟩ := hrec
      refine ⟨_, acc ++ [{ ev with seq := q }], rfl, ⟨h.rd, ?_, ?_, ?_, ?_, ?_, h.seq, ?_, ?_⟩, rfl, rfl,
        Or.inr ⟨wpos, _, rfl, rfl, st, ev, hs1, by rw [hs2]⟩⟩
      · show (logNext wpos).toNat = _
        rw [logNext_toNat hr2, List.length_append]
        rfl
      · show s.delivered.length ≤ _
        rw [List.length_append]; omega
      · show _ ≤ s.delivered.length + 31
        rw [List.length_append]
        simp only [List.length_cons, List.length_nil]
        omega
      · show s.delivered = List.take s.delivered.length _
        rw [List.take_append_of_le_length h3]
        exact h.del
      · intro j e hj he
        rcases Nat.lt_trichotomy j acc.length with hlt | heq | hgt
        · rw [List.getElem?_append_left hlt] at he
          exact h.ev j e hj he
        · subst heq
          rw [List.getElem?_append_right (le_refl _), Nat.sub_self] at he
          simp only [List.getElem?_cons_zero, Option.some.injEq] at he
          rw [← he]
          exact hr3
        · rw [List.getElem?_eq_none (by simp; omega)] at he
          cases he
      · show (acc ++ [_]).Sublist (numbered s.started)
        rw [hs1, numbered_append, hs2]
        exact hs3.append (List.Sublist.refl _)
      · have := h.getI
        revert this
        have happ : ∀ e, acc[s.delivered.length]? = some e →
            (acc ++ [{ ev with seq := q }])[s.delivered.length]? = some e := by
          intro e he
          have hlt : s.delivered.length < acc.length := by
            by_contra hc
            rw [List.getElem?_eq_none (by omega)] at he
            cases he
          rw [List.getElem?_append_left hlt]; exact he
        show GetInv s acc s.getPc → GetInv _ (acc ++ [{ ev with seq := q }]) s.getPc
        cases s.getPc with
        | idle => exact id
        | loadRead => exact id
        | loadWrite r => exact id
        | copyTime r => rintro ⟨h1, e, h2⟩; exact ⟨h1, e, happ e h2⟩
        | copySeq r t => rintro ⟨h1, e, h2, h3⟩; exact ⟨h1, e, happ e h2, h3⟩
        | copyType r t q => rintro ⟨h1, e, h2, h3⟩; exact ⟨h1, e, happ e h2, h3⟩
        | copyValue r t q y => rintro ⟨h1, e, h2, h3⟩; exact ⟨h1, e, happ e h2, h3⟩
        | storeRead r e => rintro ⟨h1, h2⟩; exact ⟨h1, happ e h2⟩

/-- The recorder's facts survive a change of the reader's place. -/
theorem recInv_get {s : LogSys} {acc : List LogEvent} {g : GetPc} {k : ℕ} (h : RecInv s acc s.recPc) :
    RecInv { s with getPc := g, nothing := k } acc s.recPc := by
  revert h
  generalize s.recPc = p
  cases p <;> exact id

/-- The reader's next access. -/
theorem get_inv {s : LogSys} {acc : List LogEvent} (h : LogInv s acc) :
    ∃ s', getStep s = .ok s' ∧ LogInv s' acc ∧ s'.recPc = s.recPc ∧ s'.started = s.started ∧ s'.log.write = s.log.write ∧
      (s'.delivered = s.delivered ∨ ∃ e, s'.delivered = s.delivered ++ [e] ∧ acc[s.delivered.length]? = some e) := by
  have hget := h.getI
  have h3 := h.le
  have h4 := h.cap
  have hread : ∀ (rpos : BitVec 32) (e : LogEvent), rpos.toNat = s.delivered.length % 32 →
      acc[s.delivered.length]? = some e → rd s.log.events (rpos.toNat : Nat) = .ok e := by
    intro rpos e hr he
    have hlt : rpos.toNat < 32 := by omega
    rw [rd_ok _ _ hlt, ← h.ev s.delivered.length e (le_refl _) he]
    congr 3
  unfold getStep
  cases hpc : s.getPc with
  | idle => exact ⟨s, rfl, h, rfl, rfl, rfl, Or.inl rfl⟩
  | loadRead =>
      exact ⟨_, rfl, ⟨h.rd, h.wr, h.le, h.cap, h.del, h.ev, h.seq, recInv_get (k := s.nothing) h.recI, h.rd⟩, rfl, rfl, rfl, Or.inl rfl⟩
  | loadWrite rpos =>
      rw [hpc] at hget
      simp only
      split_ifs with hc
      · exact ⟨_, rfl, ⟨h.rd, h.wr, h.le, h.cap, h.del, h.ev, h.seq, recInv_get h.recI, trivial⟩, rfl, rfl, rfl, Or.inl rfl⟩
      · have hne : s.delivered.length < acc.length := by
          rcases Nat.lt_or_ge s.delivered.length acc.length with hl | hl
          · exact hl
          · exfalso
            apply hc
            right
            apply BitVec.eq_of_toNat_eq
            have h1 : rpos.toNat = s.delivered.length % 32 := hget
            rw [h1, h.wr]
            congr 1
            omega
        exact ⟨_, rfl, ⟨h.rd, h.wr, h.le, h.cap, h.del, h.ev, h.seq, recInv_get (k := s.nothing) h.recI,
          ⟨hget, _, List.getElem?_eq_getElem hne⟩⟩, rfl, rfl, rfl, Or.inl rfl⟩
  | copyTime rpos =>
      rw [hpc] at hget
      obtain ⟨hr, e, he⟩ := hget
      simp only [hread rpos e hr he, except_bind_ok]
      exact ⟨_, rfl, ⟨h.rd, h.wr, h.le, h.cap, h.del, h.ev, h.seq, recInv_get (k := s.nothing) h.recI, ⟨hr, e, he, rfl⟩⟩,
        rfl, rfl, rfl, Or.inl rfl⟩
  | copySeq rpos t =>
      rw [hpc] at hget
      obtain ⟨hr, e, he, h1⟩ := hget
      simp only [hread rpos e hr he, except_bind_ok]
      exact ⟨_, rfl, ⟨h.rd, h.wr, h.le, h.cap, h.del, h.ev, h.seq, recInv_get (k := s.nothing) h.recI, ⟨hr, e, he, h1, rfl⟩⟩,
        rfl, rfl, rfl, Or.inl rfl⟩
  | copyType rpos t q =>
      rw [hpc] at hget
      obtain ⟨hr, e, he, h1, h2⟩ := hget
      simp only [hread rpos e hr he, except_bind_ok]
      exact ⟨_, rfl, ⟨h.rd, h.wr, h.le, h.cap, h.del, h.ev, h.seq, recInv_get (k := s.nothing) h.recI,
        ⟨hr, e, he, h1, h2, rfl⟩⟩, rfl, rfl, rfl, Or.inl rfl⟩
  | copyValue rpos t q y =>
      rw [hpc] at hget
      obtain ⟨hr, e, he, h1, h2, h3⟩ := hget
      simp only [hread rpos e hr he, except_bind_ok]
      refine ⟨_, rfl, ⟨h.rd, h.wr, h.le, h.cap, h.del, h.ev, h.seq, recInv_get (k := s.nothing) h.recI,
        ⟨hr, ?_⟩⟩, rfl, rfl, rfl, Or.inl rfl⟩
      show acc[s.delivered.length]? = _
      rw [he, ← h1, ← h2, ← h3]
  | storeRead rpos e =>
      rw [hpc] at hget
      obtain ⟨hr, he⟩ := hget
      have hlt : s.delivered.length < acc.length := by
        by_contra hc
        rw [List.getElem?_eq_none (by omega)] at he
        cases he
      refine ⟨_, rfl, ⟨?_, h.wr, ?_, ?_, ?_, ?_, h.seq, ?_, trivial⟩, rfl, rfl, rfl, Or.inr ⟨e, rfl, he⟩⟩
      · show (logNext rpos).toNat = _
        rw [logNext_toNat hr, List.length_append]; rfl
      · show (s.delivered ++ [e]).length ≤ _
        rw [List.length_append]; exact hlt
      · show _ ≤ (s.delivered ++ [e]).length + 31
        rw [List.length_append]; omega
      · show s.delivered ++ [e] = List.take (s.delivered ++ [e]).length acc
        rw [List.length_append, List.length_singleton, List.take_add_one, he, ← h.del]
        rfl
      · intro j e' hj he'
        change (s.delivered ++ [e]).length ≤ j at hj
        rw [List.length_append] at hj
        exact h.ev j e' (by omega) he'
      · have hrec := h.recI
        revert hrec
        show RecInv s acc s.recPc → RecInv _ acc s.recPc
        have hlen : (s.delivered ++ [e]).length = s.delivered.length + 1 := by simp
        cases s.recPc with
        | idle => exact id
        | fetchSeq ev => exact id
        | loadRead ev q => exact id
        | loadWrite ev q r =>
            rintro ⟨h1, nd', h2, h3⟩
            exact ⟨h1, nd', by show nd' ≤ (s.delivered ++ [e]).length; omega, h3⟩
        | store ev q w =>
            rintro ⟨h1, h2, h3⟩
            exact ⟨h1, by show _ < (s.delivered ++ [e]).length + 31; omega, h3⟩
        | storeSeq q w =>
            rintro ⟨ev, h1, h2, h3⟩
            exact ⟨ev, h1, by show _ < (s.delivered ++ [e]).length + 31; omega, h3⟩
        | publish w =>
            rintro ⟨ev, q, h1, h2, h3⟩
            exact ⟨ev, q, h1, by show _ < (s.delivered ++ [e]).length + 31; omega, h3⟩

end Verif
