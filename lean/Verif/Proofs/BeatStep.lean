/-
What one step of the firmware does to one output while the decoder is valid and nothing is cut.
-/
import Verif.Proofs.Beat
import Verif.Props.EngineWheel
import Verif.Spec.Firing

namespace Verif

variable [FloatFmt]

omit [FloatFmt] in
/-- Output `i` has had its turn since the last tooth was decoded. -/
def TurnOver (i : Fin maxEvents) (e : Engine) : Prop := ∀ i', e.pc = .loop i' → i.val < i'

/-- The output is scheduled. -/
def OutMove (e : Engine) (ev ev' : OEvent) : Prop :=
  ∃ env, EnvOf e env ∧ env.minFireUs = e.cfg.ignition.minFireUs ∧
    ((ev.type = .ignition ∧ scheduleIgnition env ev = .ok ev') ∨ (ev.type = .fuel ∧ ∃ cb, scheduleFuel env ev = .ok (ev', cb)))

theorem schedule_beat {e e' : Engine} {now : Time} {j : Fin maxEvents} (h : engSchedule e now j = .ok e')
    (hv : e.cfg.decoder.valid = true) (nc : NoCut e) (i : Fin maxEvents) (hi : (e.cfg.events i).type ≠ .disabled) :
    (j ≠ i ∧ e'.cfg.events i = e.cfg.events i) ∨ (j = i ∧ OutMove e (e.cfg.events i) (e'.cfg.events i)) := by
  unfold engSchedule at h
  split_ifs at h with hd
  · cases h
    left
    refine ⟨?_, rfl⟩
    rintro rfl
    exact hi hd
  · rw [bind_eq_ok] at h; obtain ⟨⟨cut, v⟩, h1, h⟩ := h
    obtain ⟨hv1, hv2, hv3⟩ := cut_vals h1
    obtain rfl : cut = false := nc _ h1
    simp only at h
    rw [bind_eq_ok] at h; obtain ⟨⟨evs, cb⟩, h2, h⟩ := h
    simp only at h
    rw [bind_eq_ok] at h; obtain ⟨q, -, h⟩ := h
    cases h
    show (j ≠ i ∧ evs i = e.cfg.events i) ∨ (j = i ∧ OutMove e (e.cfg.events i) (evs i))
    have henv : EnvOf e (engEnv { e with vals := v } now false) := ⟨rfl, rfl, hv1, hv2, hv3⟩
    have hmin : (engEnv { e with vals := v } now false).minFireUs = e.cfg.ignition.minFireUs := rfl
    have c1 : (engEnv { e with vals := v } now false).ignitionCut = false := rfl
    have c2 : (engEnv { e with vals := v } now false).fuelCut = false := rfl
    generalize hg : engEnv { e with vals := v } now false = env at h2 henv hmin c1 c2
    have hval : env.d.valid = true := by rw [henv.d]; exact hv
    unfold scheduleEvent at h2
    rw [c1, c2, hval] at h2
    cases ht : (e.cfg.events j).type with
    | disabled => exact absurd ht hd
    | ignition =>
        rw [ht] at h2
        simp only [Bool.not_true, Bool.or_self, Bool.false_eq_true, if_false] at h2
        rw [bind_eq_ok] at h2; obtain ⟨ev, h3, h2⟩ := h2
        cases h2
        unfold setEv
        by_cases hij : i = j
        · subst hij
          right
          rw [if_pos rfl]
          exact ⟨rfl, env, henv, hmin, .inl ⟨ht, h3⟩⟩
        · left
          rw [if_neg hij]
          exact ⟨fun h => hij h.symm, rfl⟩
    | fuel =>
        rw [ht] at h2
        simp only [Bool.not_true, Bool.or_self, Bool.false_eq_true, if_false] at h2
        rw [bind_eq_ok] at h2; obtain ⟨⟨ev, cb1⟩, h3, h2⟩ := h2
        cases h2
        unfold setEv
        by_cases hij : i = j
        · subst hij
          right
          rw [if_pos rfl]
          exact ⟨rfl, env, henv, hmin, .inr ⟨ht, cb1, h3⟩⟩
        · left
          rw [if_neg hij]
          exact ⟨fun h => hij h.symm, rfl⟩

theorem schedule_given {e e' : Engine} {now : Time} {j : Fin maxEvents} (h : engSchedule e now j = .ok e') :
    e'.given = e.given ∧ e'.pc = e.pc ∧ e'.cfg.decoder = e.cfg.decoder ∧ e'.cfg.ignition = e.cfg.ignition := by
  unfold engSchedule at h
  split_ifs at h
  · cases h; exact ⟨rfl, rfl, rfl, rfl⟩
  · simp only [bind_eq_ok, except_pure, Except.ok.injEq] at h
    obtain ⟨⟨cut, v⟩, h1, ⟨evs, cb⟩, h2, q, h3, rfl⟩ := h
    exact ⟨rfl, rfl, rfl, rfl⟩

omit [FloatFmt] in
theorem decoded_keep {k : ℕ} {e e' : Engine} (h : Decoded k e) (h1 : e'.given = e.given) (h2 : ∀ a b, e.pc ≠ .record a b)
    (h3 : ∀ a b, e'.pc ≠ .record a b) : Decoded k e' :=
  ⟨fun a b hp => absurd hp (h3 a b), fun _ => by rw [h1]; exact h.2 h2⟩

omit [FloatFmt] in
theorem decoded_same {k : ℕ} {e e' : Engine} (h : Decoded k e) (h1 : e'.given = e.given) (h2 : e'.pc = e.pc) : Decoded k e' := by
  unfold Decoded
  rw [h1, h2]
  exact h

omit [FloatFmt] in
theorem turn_pc {i : Fin maxEvents} {e e' : Engine} (h : e'.pc = e.pc) : TurnOver i e' ↔ TurnOver i e := by
  unfold TurnOver
  rw [h]

/-- What a step does: it leaves the tooth and, if it is the turn of output `i`, schedules it; or it decodes the next tooth. -/
structure BeatStep (k : ℕ) (i : Fin maxEvents) (e e' : Engine) : Prop where
  decoded : Decoded k e'
  move : e'.cfg.events i = e.cfg.events i ∨ OutMove e (e.cfg.events i) (e'.cfg.events i)
  over : TurnOver i e → TurnOver i e'
  turn : TurnOver i e' → TurnOver i e ∨ OutMove e (e.cfg.events i) (e'.cfg.events i)

omit [FloatFmt] in
theorem beat_quiet [FloatFmt] {k : ℕ} {i : Fin maxEvents} {e e' : Engine} (hk : Decoded k e) (h1 : e'.cfg.events i = e.cfg.events i)
    (h2 : e'.given = e.given) (h3 : e'.pc = e.pc) : BeatStep k i e e' :=
  ⟨decoded_same hk h2 h3, .inl h1, (turn_pc h3).mpr, fun h => .inl ((turn_pc h3).mp h)⟩

theorem work_beat {e e' : Engine} {now : Time} {i : Fin maxEvents} (h : engWork e now = .ok e')
    (hv : e.cfg.decoder.valid = true) (hv' : e'.cfg.decoder.valid = true) (nc : NoCut e) (hi : (e.cfg.events i).type ≠ .disabled)
    {k : ℕ} (hk : Decoded k e) :
    BeatStep k i e e' ∨ (Decoded (k + 1) e' ∧ e'.cfg.events i = e.cfg.events i ∧ TurnOver i e ∧ ¬ TurnOver i e') := by
  unfold engWork at h
  rcases hpc : e.pc with _ | ⟨a, t⟩ | j | _
  · rw [hpc] at h; cases h; exact .inl (beat_quiet hk rfl rfl rfl)
  · rw [hpc] at h
    simp only at h
    rcases hrec : e.log.recPc with _ | _ | _
    · right
      rw [hrec] at h
      simp only [bind_eq_ok] at h
      obtain ⟨e1, h1, h2⟩ := h
      have hg := hk.1 a t hpc
      obtain ⟨-, -, -, c4, c5, c6⟩ := engCalc_dma h2
      have hval : e1.cfg.decoder.valid = true := by rw [← c5]; exact hv'
      have hpc' : e'.pc = .loop 0 := by
        unfold engCalc at h2
        rw [if_pos hval] at h2
        simp only [bind_eq_ok, except_pure, Except.ok.injEq] at h2
        obtain ⟨v, -, ⟨v', s⟩, -, rfl⟩ := h2
        rfl
      unfold engDecode at h1
      simp only [bind_eq_ok, except_pure, Except.ok.injEq] at h1
      obtain ⟨o, h3, q, h4, evs, h5, rfl⟩ := h1
      have hlost : o.lost = false := by
        by_contra hc
        have := ((decode_facts h3).clear (by simpa using hc)).1
        have hval : o.d.valid = true := hval
        rw [this] at hval; cases hval
      unfold cancelIf at h5
      rw [hlost, if_neg (by simp)] at h5
      have h5 := Except.ok.inj h5
      refine ⟨⟨fun a b hp => (by rw [hpc'] at hp; cases hp), fun _ => by rw [c4]; exact hg⟩, ?_, ?_, ?_⟩
      · rw [c5]
        show evs i = _
        rw [h5]
      · intro i' hp
        rw [hpc] at hp; cases hp
      · intro ht
        have := ht 0 hpc'
        omega
    all_goals
      left
      rw [hrec] at h
      simp only [bind_eq_ok, except_pure, Except.ok.injEq] at h
      obtain ⟨lg, -, rfl⟩ := h
      exact beat_quiet hk rfl rfl hpc.symm
  · left
    rw [hpc] at h
    have hnr : ∀ a b, e.pc ≠ .record a b := by rw [hpc]; exact fun _ _ h => nomatch h
    simp only [engLoop] at h
    split_ifs at h with hj
    · simp only [bind_eq_ok, except_pure, Except.ok.injEq] at h
      obtain ⟨e1, h1, rfl⟩ := h
      obtain ⟨g1, g2, g3, -⟩ := schedule_given h1
      have hkept : Decoded k { e1 with pc := EngPc.loop (j + 1) } := decoded_keep hk g1 hnr (fun _ _ h => nomatch h)
      rcases schedule_beat h1 hv nc i hi with ⟨hne, h2⟩ | ⟨rfl, h2⟩
      · refine ⟨hkept, .inl h2, ?_, ?_⟩
        · intro ht i' hp
          cases hp
          have := ht j hpc
          omega
        · intro ht
          left
          intro i' hp
          rw [hpc] at hp
          cases hp
          have := ht (j + 1) rfl
          have hne : j ≠ i.val := fun h => hne (Fin.ext h)
          omega
      · exact ⟨hkept, .inr h2, fun ht i' hp => by cases hp; exact Nat.lt_succ_self _, fun _ => .inr h2⟩
    · cases h
      refine ⟨decoded_keep hk rfl hnr (fun _ _ h => nomatch h), .inl rfl, fun _ _ h => (by cases h), fun _ => .inl ?_⟩
      intro i' hp
      rw [hpc] at hp
      cases hp
      have := i.isLt
      omega
  · left
    rw [hpc] at h
    have hnr : ∀ a b, e.pc ≠ .record a b := by rw [hpc]; exact fun _ _ h => nomatch h
    simp only [bind_eq_ok, except_pure, Except.ok.injEq] at h
    obtain ⟨q, hq, rfl⟩ := h
    exact ⟨decoded_keep hk rfl hnr (fun _ _ h => nomatch h), .inl rfl, fun _ _ h => (by cases h),
      fun _ => .inl (fun i' hp => by rw [hpc] at hp; cases hp)⟩

/-- One step. -/
theorem step_beat {e e' : Engine} {a : EngAct} {i : Fin maxEvents} (hns : ∀ now, a ≠ .swap now) (h : engStep e a = .ok e')
    (hv : e.cfg.decoder.valid = true) (hv' : e'.cfg.decoder.valid = true) (nc : NoCut e) (hi : (e.cfg.events i).type ≠ .disabled)
    {k : ℕ} (hk : Decoded k e) :
    BeatStep k i e e' ∨ (Decoded (k + 1) e' ∧ e'.cfg.events i = e.cfg.events i ∧ TurnOver i e ∧ ¬ TurnOver i e') := by
  cases a with
  | trigger a t =>
      rcases whenIdle_ok h with rfl | ⟨hpc, h⟩
      · exact .inl (beat_quiet hk rfl rfl rfl)
      · left
        unfold engTrigger at h
        simp only [bind_eq_ok, except_pure, Except.ok.injEq] at h
        obtain ⟨lg, -, rfl⟩ := h
        have hl := hk.2 (by rw [hpc]; exact fun _ _ h => nomatch h)
        refine ⟨⟨fun _ _ _ => ?_, fun hp => absurd rfl (hp a t)⟩, .inl rfl, fun _ _ h => (by cases h), fun _ => .inl ?_⟩
        · show (e.given ++ [(a, t)]).length = _
          rw [List.length_append, hl]; rfl
        · intro i' hp
          rw [hpc] at hp; cases hp
  | work now => exact work_beat h hv hv' nc hi hk
  | timer now =>
      rcases whenIdle_ok h with rfl | ⟨hpc, h⟩
      · exact .inl (beat_quiet hk rfl rfl rfl)
      · left
        have hnr : ∀ a b, e.pc ≠ .record a b := by rw [hpc]; exact fun _ _ h => nomatch h
        have hto : TurnOver i e := fun i' hp => by rw [hpc] at hp; cases hp
        unfold engTimer at h
        simp only [bind_eq_ok, except_pure, Except.ok.injEq] at h
        obtain ⟨⟨c, q⟩, -, e1, h2, rfl⟩ := h
        simp only at h2
        cases c with
        | expire =>
            exfalso
            unfold engCallback at h2
            simp only [bind_eq_ok, except_pure, Except.ok.injEq] at h2
            obtain ⟨evs, -, rfl⟩ := h2
            cases hv'
        | event j =>
            have h2 : engSchedule { e with q := q } now j = .ok e1 := h2
            obtain ⟨g1, g2, -⟩ := schedule_given h2
            have hkept : Decoded k { e1 with pc := EngPc.rearm } := decoded_keep hk g1 hnr (fun _ _ h => nomatch h)
            refine ⟨hkept, ?_, fun _ _ h => (by cases h), fun _ => .inl hto⟩
            rcases schedule_beat (e := { e with q := q }) h2 hv nc i hi with ⟨-, h3⟩ | ⟨-, env, h3, h4⟩
            · exact .inl h3
            · exact .inr ⟨env, ⟨h3.d, h3.earliest, h3.advance, h3.dwell, h3.fueling⟩, h4⟩
        | testTrigger =>
            cases h2
            exact ⟨decoded_keep hk rfl hnr (fun _ _ h => nomatch h), .inl rfl, fun _ _ h => (by cases h), fun _ => .inl hto⟩
        | replay =>
            cases h2
            exact ⟨decoded_keep hk rfl hnr (fun _ _ h => nomatch h), .inl rfl, fun _ _ h => (by cases h), fun _ => .inl hto⟩
  | desync r =>
      rcases whenIdle_ok h with rfl | ⟨-, h⟩
      · exact .inl (beat_quiet hk rfl rfl rfl)
      · exfalso
        unfold engDesync at h
        simp only [bind_eq_ok, except_pure, Except.ok.injEq] at h
        obtain ⟨evs, -, rfl⟩ := h
        cases hv'
  | swap now => exact absurd rfl (hns now)
  | sensors s => cases h; exact .inl (beat_quiet hk rfl rfl rfl)
  | get =>
      simp only [engStep, engLog, bind_eq_ok, except_pure, Except.ok.injEq] at h
      obtain ⟨lg, -, rfl⟩ := h
      exact .inl (beat_quiet hk rfl rfl rfl)
  | getStep =>
      simp only [engStep, engLog, bind_eq_ok, except_pure, Except.ok.injEq] at h
      obtain ⟨lg, -, rfl⟩ := h
      exact .inl (beat_quiet hk rfl rfl rfl)
  | logging b =>
      simp only [engStep, engLog, bind_eq_ok, except_pure, Except.ok.injEq] at h
      obtain ⟨lg, -, rfl⟩ := h
      exact .inl (beat_quiet hk rfl rfl rfl)

end Verif
