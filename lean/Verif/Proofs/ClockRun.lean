/-
Building concrete runs against the real clock.
-/
import Verif.Proofs.Clock
import Verif.Spec.WheelRun

namespace Verif

variable [FloatFmt]

/-- The same firmware with other output buffers. -/
def Engine.on (e : Engine) (b : Bool → OutBuf) (c : Bool) : Engine := { e with buf := b, cur := c }

theorem schedule_on {e e' : Engine} {b : Bool → OutBuf} {c : Bool} {now : Time} {i : Fin maxEvents}
    (he : (e.on b c).dma.earliest = e.dma.earliest) (h : engSchedule e now i = .ok e') :
    engSchedule (e.on b c) now i = .ok (e'.on b c) := by
  unfold engSchedule at h ⊢
  by_cases hd : (e.cfg.events i).type = .disabled
  · rw [if_pos hd] at h
    cases h
    exact if_pos hd
  · rw [if_neg hd] at h
    rw [if_neg (show ¬ ((e.on b c).cfg.events i).type = .disabled from hd)]
    simp only [bind_eq_ok] at h ⊢
    obtain ⟨⟨cut, v⟩, h1, ⟨evs, cb⟩, h2, q, h3, h⟩ := h
    refine ⟨⟨cut, v⟩, h1, ⟨evs, cb⟩, ?_, q, h3, ?_⟩
    · have : engEnv { e.on b c with vals := v } now cut = engEnv { e with vals := v } now cut := by
        unfold engEnv
        have h4 : ({ e.on b c with vals := v } : Engine).dma.earliest = ({ e with vals := v } : Engine).dma.earliest := he
        rw [h4]
        rfl
      show scheduleEvent (engEnv { e.on b c with vals := v } now cut) _ _ = _
      rw [this]
      exact h2
    · cases h
      rfl

/-- A trigger, or the handler going on. -/
def EngAct.plain : EngAct → Bool
  | .trigger _ _ => true
  | .work _ => true
  | _ => false

theorem decode_on {e e' : Engine} {b : Bool → OutBuf} {c : Bool} {k : Int} {t : Time} (h : engDecode e k t = .ok e') :
    engDecode (e.on b c) k t = .ok (e'.on b c) := by
  unfold engDecode at h ⊢
  simp only [bind_eq_ok] at h ⊢
  obtain ⟨o, h1, q, h2, evs, h3, h⟩ := h
  cases h
  exact ⟨o, h1, q, h2, evs, h3, rfl⟩

theorem calc_on {e e' : Engine} {b : Bool → OutBuf} {c : Bool} {now : Time} (h : engCalc e now = .ok e') :
    engCalc (e.on b c) now = .ok (e'.on b c) := by
  unfold engCalc at h ⊢
  by_cases hv : e.cfg.decoder.valid = true
  · rw [if_pos hv] at h
    rw [if_pos (show (e.on b c).cfg.decoder.valid = true from hv)]
    simp only [bind_eq_ok] at h ⊢
    obtain ⟨v, h1, ⟨v', s⟩, h2, h⟩ := h
    cases h
    exact ⟨v, h1, ⟨v', s⟩, h2, rfl⟩
  · rw [if_neg hv] at h
    rw [if_neg (show ¬ (e.on b c).cfg.decoder.valid = true from hv)]
    cases h
    rfl

theorem work_on {e e' : Engine} {b : Bool → OutBuf} {c : Bool} {now : Time}
    (he : (e.on b c).dma.earliest = e.dma.earliest) (h : engWork e now = .ok e') :
    engWork (e.on b c) now = .ok (e'.on b c) := by
  unfold engWork at h ⊢
  have hpc : (e.on b c).pc = e.pc := rfl
  have hlog : (e.on b c).log = e.log := rfl
  rw [hpc, hlog]
  generalize hp : e.pc = pc at h ⊢
  cases pc with
  | idle => cases h; rfl
  | record k t =>
      simp only at h ⊢
      generalize e.log.recPc = r at h ⊢
      cases r with
      | idle =>
          simp only [bind_eq_ok] at h ⊢
          obtain ⟨e1, h1, h⟩ := h
          exact ⟨_, decode_on h1, calc_on h⟩
      | _ =>
          simp only [bind_eq_ok] at h ⊢
          obtain ⟨l, h1, h⟩ := h
          cases h
          exact ⟨l, h1, rfl⟩
  | loop i =>
      simp only at h ⊢
      unfold engLoop at h ⊢
      split_ifs at h ⊢ with hi
      · simp only [bind_eq_ok] at h ⊢
        obtain ⟨e1, h1, h⟩ := h
        cases h
        exact ⟨_, schedule_on he h1, rfl⟩
      · cases h; rfl
  | rearm =>
      simp only [bind_eq_ok] at h ⊢
      obtain ⟨q, h1, h⟩ := h
      cases h
      exact ⟨q, h1, rfl⟩

theorem step_on {e e' : Engine} {b : Bool → OutBuf} {c : Bool} {a : EngAct}
    (he : (e.on b c).dma.earliest = e.dma.earliest) (ha : a.plain = true) (h : engStep e a = .ok e') :
    engStep (e.on b c) a = .ok (e'.on b c) := by
  cases a with
  | trigger k t =>
      unfold engStep whenIdle at h ⊢
      have hpc : (e.on b c).pc = e.pc := rfl
      simp only at h ⊢
      rw [hpc]
      generalize e.pc = pc at h ⊢
      cases pc with
      | idle =>
          simp only at h ⊢
          unfold engTrigger at h ⊢
          simp only [bind_eq_ok] at h ⊢
          obtain ⟨l, h1, h⟩ := h
          cases h
          exact ⟨l, h1, rfl⟩
      | _ => cases h; rfl
  | work now => exact work_on he h
  | _ => cases ha

/-- A run of triggers and handler steps in which every state reached satisfies `g`. -/
def runG (g : Engine → Bool) (e : Engine) : List EngAct → Option Engine
  | [] => some e
  | a :: as =>
      if a.plain then
        match engStep e a with
        | .ok e' => if g e' then runG g e' as else none
        | .error _ => none
      else none

theorem runG_cons {g : Engine → Bool} {e e2 : Engine} {a : EngAct} {as : List EngAct} (h : runG g e (a :: as) = some e2) :
    a.plain = true ∧ ∃ e1, engStep e a = .ok e1 ∧ g e1 = true ∧ runG g e1 as = some e2 := by
  unfold runG at h
  by_cases ha : a.plain = true
  · rw [if_pos ha] at h
    refine ⟨ha, ?_⟩
    generalize engStep e a = r at h ⊢
    cases r with
    | error f => cases h
    | ok e1 =>
        simp only at h
        by_cases hg : g e1 = true
        · rw [if_pos hg] at h
          exact ⟨e1, rfl, hg, h⟩
        · rw [if_neg hg] at h
          cases h
  · rw [if_neg ha] at h
    cases h

theorem runG_last {g : Engine → Bool} {e e' : Engine} {as : List EngAct} (hr : runG g e as = some e') :
    (as = [] ∧ e' = e) ∨ g e' = true := by
  induction as generalizing e with
  | nil => cases hr; exact .inl ⟨rfl, rfl⟩
  | cons a as ih =>
      obtain ⟨-, e1, -, h2, h3⟩ := runG_cons hr
      rcases ih h3 with ⟨-, h⟩ | h
      · rw [h]; exact .inr h2
      · exact .inr h

/-- A run in which every step is one of `A` is a run. -/
theorem timed_clock {A : ℤ → EngAct → Prop} {G : ℤ → Engine → Prop} {e0 e : Engine} {n E : ℤ} (h : EngTimed A G e0 n E e) :
    EngClock G e0 n E e := by
  induction h with
  | boot h1 h2 h3 h4 => exact .boot h1 h2 h3 h4
  | step a _ h1 h2 h3 h4 h5 h6 ih => exact .step a ih h1 h2 h3 h5 h6
  | swap _ h1 h2 h3 h4 ih => exact .swap ih h1 h2 h3 h4

theorem on_timed {A : ℤ → EngAct → Prop} {G : ℤ → Engine → Prop} {e0 e1 e : Engine} {n1 E1 n E : ℤ} (h : EngTimed A G e0 n1 E1 e1)
    (ho : EngOn A G n1 E1 e1 n E e) : EngTimed A G e0 n E e := by
  induction ho with
  | refl => exact h
  | step a _ h1 h2 h3 h4 h5 h6 ih => exact .step a ih h1 h2 h3 h4 h5 h6
  | swap _ h1 h2 h3 h4 ih => exact .swap ih h1 h2 h3 h4

/-- The rest of a run, with what holds along it. -/
theorem on_clock {A : ℤ → EngAct → Prop} {G G' : ℤ → Engine → Prop} {e0 e1 e : Engine} {n1 E1 n E : ℤ} (hb : EngBoot e0)
    (h : EngTimed A G e0 n1 E1 e1) (ho : EngOn A G n1 E1 e1 n E e)
    (hG : ∀ n E e, EngOn A G n1 E1 e1 n E e → G' n e) : EngClock G' e1 n E e := by
  induction ho with
  | refl =>
      obtain ⟨-, ci, -⟩ := clock_reach hb .boot (timed_clock h)
      exact .boot ci.early ci.after ci.before (hG _ _ _ .refl)
  | step a hr h1 h2 h3 h4 h5 h6 ih => exact .step a ih h1 h2 h3 h5 (hG _ _ _ (.step a hr h1 h2 h3 h4 h5 h6))
  | swap hr h1 h2 h3 h4 ih => exact .swap ih h1 h2 h3 (hG _ _ _ (.swap hr h1 h2 h3 h4))

/-- A kind of run against the real clock that goes on with triggers, handler steps and swaps. -/
structure RunOf (G : ℤ → Engine → Prop) (e0 : Engine) (P : ℤ → ℤ → Engine → Prop) : Prop where
  clock : ∀ {n E e}, P n E e → EngClock G e0 n E e
  step : ∀ {n n' E e e'} (a : EngAct), P n E e → n ≤ n' → n' < E → a.plain = true → engStep e a = .ok e' → G n' e' → P n' E e'
  swap : ∀ {n n' E e}, P n E e → n ≤ n' → E - 128 ≤ n' → n' < E → G n' (engSwap e (stamp n')) → P n' (E + 128) (engSwap e (stamp n'))

omit [FloatFmt] in
theorem plain_honest {a : EngAct} (h : a.plain = true) (n : ℤ) : (∀ now, a ≠ .swap now) ∧ Honest n a := by
  cases a with
  | trigger k t => exact ⟨fun _ h => (by cases h), trivial⟩
  | work t => exact ⟨fun _ h => (by cases h), trivial⟩
  | _ => cases h

theorem runOf_clock (G : ℤ → Engine → Prop) (e0 : Engine) : RunOf G e0 (EngClock G e0) :=
  ⟨fun h => h, fun a h h1 h2 h3 h4 h5 => .step a h h1 h2 (plain_honest h3 0).1 h4 h5, fun h h1 h2 h3 h4 => .swap h h1 h2 h3 h4⟩

theorem runOf_timed (G : ℤ → Engine → Prop) (e0 : Engine) : RunOf G e0 (EngTimed Honest G e0) :=
  ⟨timed_clock, fun a h h1 h2 h3 h4 h5 => .step a h h1 h2 (plain_honest h3 0).1 (plain_honest h3 _).2 h4 h5,
    fun h h1 h2 h3 h4 => .swap h h1 h2 h3 h4⟩

theorem runOf_on {G : ℤ → Engine → Prop} {e0 e1 : Engine} {n1 E1 : ℤ} (h : EngTimed Honest G e0 n1 E1 e1) :
    RunOf G e0 (EngOn Honest G n1 E1 e1) :=
  ⟨fun ho => timed_clock (on_timed h ho), fun a h h1 h2 h3 h4 h5 => .step a h h1 h2 (plain_honest h3 0).1 (plain_honest h3 _).2 h4 h5,
    fun h h1 h2 h3 h4 => .swap h h1 h2 h3 h4⟩

/-- Such a run made within the playing of one buffer. -/
theorem clock_run {G : ℤ → Engine → Prop} {P : ℤ → ℤ → Engine → Prop} {g : Engine → Bool} {e0 e e' : Engine} {b : Bool → OutBuf} {c : Bool} {n n' E : ℤ}
    {as : List EngAct} (hP : RunOf G e0 P) (h : P n E (e.on b c)) (he : (e.on b c).dma.earliest = e.dma.earliest) (hn : n ≤ n')
    (hE : n' < E) (hG : ∀ x : Engine, g x = true → G n' (x.on b c)) (hr : runG g e as = some e') :
    ∃ m, n ≤ m ∧ m ≤ n' ∧ P m E (e'.on b c) ∧ (e'.on b c).dma.earliest = e'.dma.earliest := by
  induction as generalizing e n with
  | nil =>
      cases hr
      exact ⟨n, le_refl _, hn, h, he⟩
  | cons a as ih =>
      obtain ⟨ha, e1, h1, h2, h3⟩ := runG_cons hr
      have hns : ∀ now, a ≠ .swap now := by
        rintro now rfl
        cases ha
      have he1 : (e1.on b c).dma.earliest = e1.dma.earliest := by
        obtain ⟨b1, b2⟩ := step_bufs hns h1
        rw [show e1.dma.earliest = e.dma.earliest by unfold Dma.earliest Engine.dma; simp only; rw [b1, b2], ← he]
        rfl
      obtain ⟨m, m1, m2, m3⟩ := ih (hP.step a h hn hE ha (step_on he ha h1) (hG e1 h2)) he1 (le_refl _) h3
      exact ⟨m, by omega, m2, m3⟩

omit [FloatFmt] in
/-- Swaps while nothing is scheduled change only the buffers. -/
theorem swap_on {e : Engine} (now : Time) (hu : ∀ i w, ((e.cfg.events i).edge w).state = .unscheduled) :
    ∃ b c, engSwap e now = e.on b c := by
  have hev : (bufferSwap e.dma now).evs = e.cfg.events := by
    funext i
    rw [(bufferSwap_spec e.dma now).2.2.2.1 i]
    have h1 := hu i false
    have h2 := hu i true
    show mapEdges _ (e.cfg.events i) = _
    generalize e.cfg.events i = ev at *
    have hp : ∀ en : Entry, en.state = .unscheduled →
        populated (roundToBuffer now + 128) (retired (e.dma.buf e.dma.cur).first en) = en := by
      intro en hen
      unfold populated retired
      simp [hen]
    unfold mapEdges
    simp only
    rw [hp ev.start h1, hp ev.stop h2]
  refine ⟨(bufferSwap e.dma now).buf, (bufferSwap e.dma now).cur, ?_⟩
  unfold engSwap
  generalize bufferSwap e.dma now = s at *
  simp only
  rw [hev]
  rfl

theorem clock_idle {G : ℤ → Engine → Prop} {P : ℤ → ℤ → Engine → Prop} {e0 e : Engine} {b : Bool → OutBuf} {c : Bool} {n E : ℤ}
    (hP : RunOf G e0 P) (h : P n E (e.on b c)) (hlast : n ≤ E - 1) (hu : ∀ i w, ((e.cfg.events i).edge w).state = .unscheduled) (K : ℕ)
    (hG : ∀ m b c, n ≤ m → m ≤ max n (E + 128 * K - 256) → G m (e.on b c)) :
    ∃ n' b' c', n ≤ n' ∧ n' ≤ max n (E + 128 * K - 256) ∧ P n' (E + 128 * K) (e.on b' c') := by
  induction K with
  | zero => exact ⟨n, b, c, le_refl _, le_max_left _ _, by simpa using h⟩
  | succ K ih =>
      obtain ⟨n', b', c', h1, h2, h3⟩ := ih (fun m b c a1 a2 => hG m b c a1 (le_trans a2 (by
        apply max_le_max (le_refl _); push_cast; omega)))
      obtain ⟨b2, c2, hs⟩ := swap_on (e := e.on b' c') (stamp (max n (E + 128 * K - 128))) hu
      have hx : (e.on b' c').on b2 c2 = e.on b2 c2 := rfl
      rw [hx] at hs
      refine ⟨max n (E + 128 * K - 128), b2, c2, le_max_left _ _, ?_, ?_⟩
      · push_cast; omega
      · have := hP.swap (n' := max n (E + 128 * K - 128)) h3 (by omega) (by omega) (by omega) (by
          rw [hs]
          exact hG _ _ _ (le_max_left _ _) (by push_cast; omega))
        rw [hs] at this
        have e3 : E + 128 * ((K + 1 : ℕ) : ℤ) = E + 128 * K + 128 := by push_cast; ring
        rw [e3]
        exact this

/-- Swaps with edges armed. -/
theorem clock_hold {G : ℤ → Engine → Prop} {P : ℤ → ℤ → Engine → Prop} {eb e0 e : Engine} {n E : ℤ} (hb : EngBoot eb)
    (h0 : EngReach (fun _ => True) eb e0) (hP : RunOf G e0 P) (h : P n E e) (i : Fin maxEvents) (w : Bool) (K : ℕ)
    (hG : ∀ m (x : Engine), n ≤ m → m ≤ max n (E + 128 * K - 256) → x.given = e.given → x.vals = e.vals →
      x.cfg.decoder = e.cfg.decoder → G m x) :
    ∃ n' e', n ≤ n' ∧ n' ≤ max n (E + 128 * K - 256) ∧ P n' (E + 128 * K) e' ∧ Hold i w e.dma K e'.dma ∧
      e'.given = e.given ∧ e'.vals = e.vals ∧ e'.cfg.decoder = e.cfg.decoder := by
  induction K with
  | zero => exact ⟨n, e, le_refl _, le_max_left _ _, by simpa using h, .refl, rfl, rfl, rfl⟩
  | succ K ih =>
      obtain ⟨n', e', h1, h2, h3, h4, h5, h6, h7⟩ := ih (fun m b a1 a2 => hG m b a1 (le_trans a2 (by
        apply max_le_max (le_refl _); push_cast; omega)))
      obtain ⟨rr, ci, -⟩ := clock_reach hb h0 (hP.clock h3)
      have hn1 := (clock_reach hb h0 (hP.clock h)).2.1.before
      have hw := swap_window (n := max n (E + 128 * K - 128)) (reach_dma hb rr) ci.early (by omega) (by omega)
      have hH := Hold.swap h4 (stamp (max n (E + 128 * K - 128))) hw
      have hg : (engSwap e' (stamp (max n (E + 128 * K - 128)))).given = e'.given ∧
          (engSwap e' (stamp (max n (E + 128 * K - 128)))).vals = e'.vals ∧
          (engSwap e' (stamp (max n (E + 128 * K - 128)))).cfg.decoder = e'.cfg.decoder := by
        unfold engSwap
        generalize bufferSwap e'.dma (stamp (max n (E + 128 * K - 128))) = s
        exact ⟨rfl, rfl, rfl⟩
      have hdma := engSwap_dma e' (stamp (max n (E + 128 * K - 128)))
      rw [← hdma] at hH
      obtain ⟨g1, g2, g3⟩ := hg
      have hsw := fun hg => hP.swap (n' := max n (E + 128 * K - 128)) h3 (by omega) (by omega) (by omega) hg
      generalize engSwap e' (stamp (max n (E + 128 * K - 128))) = x at *
      have e3 : E + 128 * ((K + 1 : ℕ) : ℤ) = E + 128 * K + 128 := by push_cast; ring
      refine ⟨max n (E + 128 * K - 128), x, le_max_left _ _, by push_cast; omega, ?_, hH, g1.trans h5, g2.trans h6, g3.trans h7⟩
      rw [e3]
      exact hsw (hG _ _ (le_max_left _ _) (by push_cast; omega) (g1.trans h5) (g2.trans h6) (g3.trans h7))

end Verif
