/-
C100: while a limiter cuts, no pulse begins.
-/
import Verif.Spec.CutRun
import Verif.Props.Engine

namespace Verif

section
variable [FloatFmt]

theorem cut_now {e : Engine} (h : CutNow e) : ∃ v, ignitionCut e.cfg e.vals = .ok (true, v) := by
  have hr : (rpmCut e.cfg e.vals).1 = true ↔ RevCut e := by
    unfold rpmCut RevCut
    dsimp only
    by_cases h1 : e.cfg.decoder.rpm.toNat < e.cfg.rpmStart.toNat
    · rw [if_pos h1]
      exact ⟨fun h => (nomatch h), fun h => by omega⟩
    · rw [if_neg h1]
      by_cases h2 : e.cfg.rpmStop.toNat ≤ e.cfg.decoder.rpm.toNat
      · simp [h2]; omega
      · simp [h2]; omega
  unfold ignitionCut
  by_cases hc : RevCut e
  · rw [← hr] at hc
    refine ⟨(rpmCut e.cfg e.vals).2, ?_⟩
    dsimp only
    rw [if_pos hc]
  · have hc' : ¬ (rpmCut e.cfg e.vals).1 = true := fun h => hc (hr.mp h)
    dsimp only
    rw [if_neg hc']
    have hf : ∀ r, fuelOverduty e.cfg e.vals = .ok r → ∃ v, fuelOverduty e.cfg (rpmCut e.cfg e.vals).2 = .ok (r.1, v) := by
      intro r h
      unfold fuelOverduty at h ⊢
      rw [bind_eq_ok] at h
      obtain ⟨t, h1, h⟩ := h
      rw [h1]
      split_ifs at h with h2
      rw [bind_eq_ok] at h
      obtain ⟨pw, h3, h⟩ := h
      cases h
      have h3 : timeFromUs (rpmCut e.cfg e.vals).2.fuelingUs = .ok pw := h3
      refine ⟨{ (rpmCut e.cfg e.vals).2 with overdutyCut := decide ((t.udiv e.cfg.fueling.injections).toNat ≤ pw.toNat) }, ?_⟩
      rw [except_bind_ok, if_neg h2, h3]
      rfl
    rcases h with h | ⟨v, h⟩ | ⟨hb, r, h⟩
    · exact absurd h hc
    · obtain ⟨v', h'⟩ := hf _ h
      rw [h']
      exact ⟨_, rfl⟩
    · obtain ⟨v', h'⟩ := hf _ h
      rw [h', except_bind_ok]
      dsimp only
      by_cases hd : r.1 = true
      · rw [if_pos hd]
        exact ⟨_, rfl⟩
      · rw [if_neg hd]
        refine ⟨{ v' with boostCut := true }, ?_⟩
        unfold boostCut
        rw [hb]
        rfl

/-- Looking at an output that is in use while a limiter cuts. -/
theorem schedule_cut {e e' : Engine} {now : Time} {i : Fin maxEvents} (h : engSchedule e now i = .ok e') (hc : CutNow e)
    (hd : (e.cfg.events i).type ≠ .disabled) : invalidateEvents e.cfg.events = .ok e'.cfg.events ∧ e'.q = e.q := by
  obtain ⟨v, hv⟩ := cut_now hc
  unfold engSchedule at h
  rw [if_neg hd, hv, except_bind_ok] at h
  dsimp only at h
  rw [bind_eq_ok] at h; obtain ⟨⟨evs, cb⟩, h2, h⟩ := h
  dsimp only at h
  rw [bind_eq_ok] at h; obtain ⟨q, h3, h⟩ := h
  cases h
  have h4 : invalidateEvents e.cfg.events = .ok evs ∧ cb = none := by
    unfold scheduleEvent at h2
    cases ht : (e.cfg.events i).type with
    | disabled => exact absurd ht hd
    | ignition | fuel =>
        rw [ht] at h2
        dsimp only at h2
        rw [if_pos (by simp [engEnv]), bind_eq_ok] at h2
        obtain ⟨evs', h4, h2⟩ := h2
        cases h2
        exact ⟨h4, rfl⟩
  obtain ⟨h4, rfl⟩ := h4
  cases h3
  exact ⟨h4, rfl⟩

theorem cut_schedule_same {e e' : Engine} {now : Time} {i : Fin maxEvents} (h : engSchedule e now i = .ok e') (hc : CutNow e)
    (hn : NoArmed e.cfg.events) : e'.cfg.events = e.cfg.events := by
  by_cases hd : (e.cfg.events i).type = .disabled
  · unfold engSchedule at h
    rw [if_pos hd] at h
    cases h
    rfl
  · exact inv_same (schedule_cut h hc hd).1 hn

theorem schedule_buffers {e1 e2 : Engine} {now : Time} {i : Fin maxEvents} (h : engSchedule e1 now i = .ok e2) :
    e2.buf = e1.buf ∧ e2.cur = e1.cur := by
  unfold engSchedule at h
  split_ifs at h
  · cases h; exact ⟨rfl, rfl⟩
  · rw [bind_eq_ok] at h; obtain ⟨⟨cut, v⟩, h1, h⟩ := h
    simp only at h
    rw [bind_eq_ok] at h; obtain ⟨⟨evs, cb⟩, h2, h⟩ := h
    simp only at h
    rw [bind_eq_ok] at h; obtain ⟨q, h3, h⟩ := h
    cases h; exact ⟨rfl, rfl⟩

/-- While a limiter cuts and nothing is armed, only buffer swaps change the outputs. -/
theorem cut_same {e e' : Engine} {a : EngAct} (hn : NoArmed e.cfg.events) (hc : CutNow e)
    (hns : ∀ now, a ≠ .swap now) (h : engStep e a = .ok e') : e'.dma = e.dma := by
  have hd : ∀ {e1 e2 : Engine}, e2.cfg.events = e1.cfg.events → e2.buf = e1.buf → e2.cur = e1.cur → e2.dma = e1.dma := by
    intro e1 e2 h1 h2 h3
    unfold Engine.dma
    rw [h1, h2, h3]
  have hlog : ∀ b, engLog e b = .ok e' → e'.dma = e.dma := by
    intro b h
    unfold engLog at h
    rw [bind_eq_ok] at h; obtain ⟨l, h1, h⟩ := h
    cases h; rfl
  cases a with
  | trigger k t =>
      rcases whenIdle_ok h with rfl | ⟨-, h⟩
      · rfl
      · unfold engTrigger at h
        rw [bind_eq_ok] at h; obtain ⟨l, h1, h⟩ := h
        cases h; rfl
  | work now =>
      have h : engWork e now = .ok e' := h
      unfold engWork at h
      split at h
      · cases h; rfl
      · split at h
        · rw [bind_eq_ok] at h; obtain ⟨e1, h1, h⟩ := h
          rw [(engCalc_dma h).1]
          unfold engDecode at h1
          simp only [bind_eq_ok] at h1
          obtain ⟨o, -, q, -, evs, h3, h1⟩ := h1
          cases h1
          refine hd ?_ rfl rfl
          show evs = _
          unfold cancelIf at h3
          split_ifs at h3
          · exact inv_same h3 hn
          · cases h3; rfl
        · rw [bind_eq_ok] at h; obtain ⟨l, h1, h⟩ := h
          cases h; rfl
      · unfold engLoop at h
        split_ifs at h
        · rw [bind_eq_ok] at h; obtain ⟨e1, h1, h⟩ := h
          cases h
          have h4 := cut_schedule_same h1 hc hn
          exact hd h4 (schedule_buffers h1).1 (schedule_buffers h1).2
        · cases h; rfl
      · rw [bind_eq_ok] at h; obtain ⟨q, h1, h⟩ := h
        cases h; rfl
  | timer now =>
      rcases whenIdle_ok h with rfl | ⟨-, h⟩
      · rfl
      · unfold engTimer at h
        rw [bind_eq_ok] at h; obtain ⟨⟨c, q⟩, h1, h⟩ := h
        simp only at h
        rw [bind_eq_ok] at h; obtain ⟨e1, h2, h⟩ := h
        cases h
        cases c with
        | expire =>
            unfold engCallback at h2
            rw [bind_eq_ok] at h2; obtain ⟨evs, h3, h2⟩ := h2
            cases h2
            exact hd (inv_same h3 hn) rfl rfl
        | event i =>
            have h2 : engSchedule { e with q := q } now i = .ok e1 := h2
            have h4 := cut_schedule_same h2 hc hn
            exact hd h4 (schedule_buffers h2).1 (schedule_buffers h2).2
        | testTrigger => cases h2; rfl
        | replay => cases h2; rfl
  | desync r =>
      rcases whenIdle_ok h with rfl | ⟨-, h⟩
      · rfl
      · unfold engDesync at h
        rw [bind_eq_ok] at h; obtain ⟨evs, h1, h⟩ := h
        cases h
        exact hd (inv_same h1 hn) rfl rfl
  | swap now => exact absurd rfl (hns now)
  | sensors s => cases h; rfl
  | get => exact hlog _ h
  | getStep => exact hlog _ h
  | logging b => exact hlog _ h

/-- One step while a limiter cuts and nothing is armed leaves nothing armed. -/
theorem cut_step_still {e e' : Engine} {a : EngAct} (hn : NoArmed e.cfg.events) (hc : CutNow e) (h : engStep e a = .ok e') :
    NoArmed e'.cfg.events := by
  by_cases hs : ∃ now, a = .swap now
  · obtain ⟨now, rfl⟩ := hs
    have h2 : engSwap e now = e' := Except.ok.inj h
    have hdm : e'.dma = bufferSwap e.dma now := by rw [← h2, engSwap_dma]
    have hev : e'.cfg.events = (bufferSwap e.dma now).evs := congrArg Dma.evs hdm
    intro i hi
    rw [hev] at hi
    exact hn i (((swap_start e.dma now i).2.scheduled.mp hi).1)
  · have := cut_same hn hc (fun now hh => hs ⟨now, hh⟩) h
    rw [show e'.cfg.events = e.cfg.events from congrArg Dma.evs this]
    exact hn

theorem cut_reach {e e' : Engine} {n : Nat} (hl : WhileCut e n e') {e0 : Engine} (h : EngReach (fun _ => True) e0 e)
    (hn : NoArmed e.cfg.events) : EngReach (fun _ => True) e0 e' ∧ CutNow e' ∧ NoArmed e'.cfg.events := by
  induction hl with
  | refl hc => exact ⟨h, hc, hn⟩
  | step a _ hso hs hc ih => exact ⟨.step a ih.1 trivial hso hs, hc, cut_step_still ih.2.2 ih.2.1 hs⟩

/-- Looking at an output in use cancels every pulse that the hardware has not got yet. -/
theorem cut_cancels {e e' : Engine} {now : Time} {i : Fin maxEvents} (ho : OffIdle e.cfg.events) (hc : CutNow e)
    (hd : (e.cfg.events i).type ≠ .disabled) (h : engSchedule e now i = .ok e') : NoArmed e'.cfg.events := by
  obtain ⟨h1, -⟩ := schedule_cut h hc hd
  intro j hj
  obtain ⟨a, b, c⟩ := C17_invalidate h1 j
  by_cases hen : (e.cfg.events j).type = .disabled
  · have hnc : ¬ Cancellable (e.cfg.events j) := ho j hen
    rw [b hnc] at hj
    exact ho j hen hj
  · refine a ?_ hj
    unfold Enabled
    rw [c]
    cases ht : (e.cfg.events j).type with
    | disabled => exact absurd ht hen
    | ignition => exact .inr rfl
    | fuel => exact .inl rfl

omit [FloatFmt] in
theorem engSwap_pc (e : Engine) (now : Time) : (engSwap e now).pc = e.pc := by
  unfold engSwap
  generalize bufferSwap e.dma now = s
  rfl

/-- **C100, first part.**  When the handler of a trigger has looked at all outputs while a limiter cuts, and an output is in use, then
no output has a pulse armed. -/
theorem C100_tooth {e0 e e' : Engine} {n : Nat} {i : Fin maxEvents} (hb : EngBoot e0) (h : EngReach (fun _ => True) e0 e)
    (hpc : e.pc = .loop 0) (hi : (e.cfg.events i).type ≠ .disabled) (hl : WhileCut e n e') (hend : e'.pc = .idle) :
    ∀ j, (e'.cfg.events j).start.state ≠ .scheduled := by
  have key : EngReach (fun _ => True) e0 e' ∧ CutNow e' ∧
      (NoArmed e'.cfg.events ∨ (∃ k, k ≤ i.1 ∧ e'.pc = .loop k) ∧ (e'.cfg.events i).type ≠ .disabled) := by
    clear hend
    induction hl with
    | refl hc => exact ⟨h, hc, .inr ⟨⟨0, Nat.zero_le _, hpc⟩, hi⟩⟩
    | @step e1 e2 n a hw hso hs hc ih =>
        obtain ⟨hr, hc1, ih⟩ := ih
        refine ⟨.step a hr trivial hso hs, hc, ?_⟩
        rcases ih with ih | ⟨⟨k, hk, hpk⟩, ht⟩
        · exact .inl (cut_step_still ih hc1 hs)
        · have hlog : ∀ b, engLog e1 b = .ok e2 → e2.pc = e1.pc ∧ e2.cfg = e1.cfg := by
            intro b h
            unfold engLog at h
            rw [bind_eq_ok] at h; obtain ⟨l, h1, h⟩ := h
            cases h; exact ⟨rfl, rfl⟩
          have hsame : e2.pc = e1.pc ∧ e2.cfg = e1.cfg → NoArmed e2.cfg.events ∨
              (∃ k, k ≤ i.1 ∧ e2.pc = .loop k) ∧ (e2.cfg.events i).type ≠ .disabled := by
            rintro ⟨h1, h2⟩
            rw [h1, h2]
            exact .inr ⟨⟨k, hk, hpk⟩, ht⟩
          have hbusy : ∀ f, whenIdle e1 f = .ok e2 → e2 = e1 := by
            intro f h
            unfold whenIdle at h
            rw [hpk] at h
            cases h; rfl
          cases a with
          | trigger k' t => rw [hbusy _ hs]; exact .inr ⟨⟨k, hk, hpk⟩, ht⟩
          | timer now => rw [hbusy _ hs]; exact .inr ⟨⟨k, hk, hpk⟩, ht⟩
          | desync r => rw [hbusy _ hs]; exact .inr ⟨⟨k, hk, hpk⟩, ht⟩
          | swap now =>
              have h2 : engSwap e1 now = e2 := Except.ok.inj hs
              have hdm : e2.dma = bufferSwap e1.dma now := by rw [← h2, engSwap_dma]
              have hev : e2.cfg.events = (bufferSwap e1.dma now).evs := congrArg Dma.evs hdm
              refine .inr ⟨⟨k, hk, ?_⟩, ?_⟩
              · rw [← h2, engSwap_pc]; exact hpk
              · rw [hev, (swap_start e1.dma now i).1]; exact ht
          | sensors s => cases hs; exact .inr ⟨⟨k, hk, hpk⟩, ht⟩
          | get => exact hsame (hlog _ hs)
          | getStep => exact hsame (hlog _ hs)
          | logging b => exact hsame (hlog _ hs)
          | work now =>
              have hs : engWork e1 now = .ok e2 := hs
              unfold engWork at hs
              rw [hpk] at hs
              dsimp only at hs
              unfold engLoop at hs
              have hkm : k < maxEvents := by have := i.2; omega
              rw [dif_pos hkm, bind_eq_ok] at hs
              obtain ⟨e3, h3, hs⟩ := hs
              cases hs
              rcases Nat.lt_or_eq_of_le hk with hlt | heq
              · refine .inr ⟨⟨k + 1, hlt, rfl⟩, ?_⟩
                show (e3.cfg.events i).type ≠ .disabled
                by_cases hdk : (e1.cfg.events ⟨k, hkm⟩).type = .disabled
                · unfold engSchedule at h3
                  rw [if_pos hdk] at h3
                  cases h3; exact ht
                · rw [(C17_invalidate (schedule_cut h3 hc1 hdk).1 i).2.2]
                  exact ht
              · have hik : (⟨k, hkm⟩ : Fin maxEvents) = i := Fin.ext heq
                rw [hik] at h3
                have h4 := cut_cancels (reach_quiet hb hr).off hc1 ht h3
                exact .inl h4
  obtain ⟨-, -, hk | ⟨⟨k, -, hk⟩, -⟩⟩ := key
  · exact hk
  · rw [hend] at hk; cases hk

/-- What a swap does to a start edge when nothing is armed. -/
theorem cut_start {e0 e e' : Engine} {n : Nat} (hb : EngBoot e0) (h : EngReach (fun _ => True) e0 e) (hn : NoArmed e.cfg.events)
    (hl : WhileCut e n e') (i : Fin maxEvents) (hs : (e'.cfg.events i).start.state = .submitted) :
    n < 2 ∧ (e.cfg.events i).start.state = .submitted ∧ (e'.cfg.events i).start.time = (e.cfg.events i).start.time ∧
    (n = 1 → ((e'.cfg.events i).start.time - (e'.buf e'.cur).first).toNat < 128) := by
  induction hl with
  | refl hv => exact ⟨by omega, hs, rfl, by omega⟩
  | @step e1 e2 n a hw hso hst hv ih =>
      obtain ⟨hr, hc1, hn1⟩ := cut_reach hw h hn
      have key : (∀ now, a ≠ .swap now) → n < 2 ∧ (e.cfg.events i).start.state = .submitted ∧
          (e2.cfg.events i).start.time = (e.cfg.events i).start.time ∧
          (n = 1 → ((e2.cfg.events i).start.time - (e2.buf e2.cur).first).toNat < 128) := by
        intro hns
        have hd := cut_same hn1 hc1 hns hst
        have h1 : e2.cfg.events = e1.cfg.events := congrArg Dma.evs hd
        have h2 : e2.buf = e1.buf := congrArg Dma.buf hd
        have h3 : e2.cur = e1.cur := congrArg Dma.cur hd
        rw [h1] at hs
        obtain ⟨a1, a2, a3, a4⟩ := ih hs
        rw [h1, h2, h3]
        exact ⟨a1, a2, a3, a4⟩
      cases a with
      | swap now =>
          have h2 : engSwap e1 now = e2 := Except.ok.inj hst
          have hdm : e2.dma = bufferSwap e1.dma now := by rw [← h2, engSwap_dma]
          have hev : e2.cfg.events = (bufferSwap e1.dma now).evs := congrArg Dma.evs hdm
          have hI := dma_reach_inv (reach_dma hb hr)
          obtain ⟨c1, c2, c3, -, -⟩ := bufferSwap_spec e1.dma now
          have hse := (swap_start e1.dma now i).2
          rw [hev] at hs ⊢
          rcases hse.submitted.mp hs with ⟨h5, -⟩ | ⟨h5, h6⟩
          · exact absurd h5 (hn1 i)
          · obtain ⟨a1, a2, a3, a4⟩ := ih h5
            have hlt := hI.submitted i false h5
            have hlt : ((e1.cfg.events i).start.time - (e1.buf e1.cur).first).toNat < 256 := hlt
            have h6 : 128 ≤ ((e1.cfg.events i).start.time - (e1.buf e1.cur).first).toNat := h6
            have hn0 : n = 0 := by
              by_contra hne
              have := a4 (by omega)
              omega
            have hfirst : (e2.buf e2.cur).first = (e1.buf e1.cur).first + 128 := by
              have hb1 : e2.buf = (bufferSwap e1.dma now).buf := congrArg Dma.buf hdm
              have hb2 : e2.cur = (bufferSwap e1.dma now).cur := congrArg Dma.cur hdm
              rw [hb1, hb2, c1, c2]
              exact hI.adjacent
            refine ⟨by show n + 1 < 2; omega, a2, hse.time.trans a3, fun _ => ?_⟩
            rw [hse.time, hfirst]
            show ((e1.cfg.events i).start.time - ((e1.buf e1.cur).first + 128)).toNat < 128
            generalize (e1.cfg.events i).start.time = x at *
            generalize (e1.buf e1.cur).first = y at *
            bv_omega
      | _ => exact key (fun _ hh => nomatch hh)

/-- **C100, second part.**  From a moment at which no pulse is armed, and as long as a limiter cuts, every pulse that begins is one
that had already been handed to the hardware, at the same tick; and once the two buffers in flight have been played (two swaps,
256 ticks), no pulse begins at all. -/
theorem C100_no_new_pulse {e0 e e' : Engine} {n : Nat} (hb : EngBoot e0) (h : EngReach (fun _ => True) e0 e)
    (hn : ∀ j, (e.cfg.events j).start.state ≠ .scheduled) (hl : WhileCut e n e') (i : Fin maxEvents) :
    (e'.cfg.events i).start.state ≠ .scheduled ∧
    ((e'.cfg.events i).start.state = .submitted →
      n < 2 ∧ (e.cfg.events i).start.state = .submitted ∧ (e'.cfg.events i).start.time = (e.cfg.events i).start.time) := by
  refine ⟨(cut_reach hl h hn).2.2 i, fun hs => ?_⟩
  obtain ⟨a, b, c, -⟩ := cut_start hb h hn hl i hs
  exact ⟨a, b, c⟩

/-- C100 at the pins: after two swaps a buffer in play drives a pin only to the resting level of an output on that pin. -/
theorem C100_pins {e0 e e' : Engine} {n : Nat} (hb : EngBoot e0) (h : EngReach (fun _ => True) e0 e)
    (hn : ∀ j, (e.cfg.events j).start.state ≠ .scheduled) (hl : WhileCut e n e') (h2 : 2 ≤ n) {b : Bool} {t : Time} {p : Fin 16} {v : Bool}
    (hd : Drives (e'.buf b) t p v) :
    ∃ i, ((e'.cfg.events i).pin.setWidth 8).toNat = p ∧ v = (e'.cfg.events i).inverted := by
  obtain ⟨hr, -⟩ := cut_reach hl h hn
  have hD := reach_dma hb hr
  obtain ⟨-, i, w, h1, -, h3, h4⟩ := (C19_exact hD b t p v).mp hd
  have hw : w = true := by
    by_contra hne
    have hw : w = false := by simpa using hne
    subst hw
    have := (cut_start hb h hn hl i h1).1
    omega
  subst hw
  have hp := (dma_reach_inv hD).pins i true (.inr h1)
  have hp : (setPins (e'.cfg.events i)).stop = (e'.cfg.events i).stop := hp
  refine ⟨i, ?_, ?_⟩
  · rw [← h3]
    show _ = (e'.cfg.events i).stop.pin.toNat
    rw [← hp]; rfl
  · rw [← h4]
    show (e'.cfg.events i).stop.val = _
    rw [← hp]; rfl

/-! ### The hypotheses are met -/

/-- The engine of `demoEngine` with a low rev limit. -/
def limitEngine : Engine := { demoEngine with cfg := { demoEngine.cfg with rpmStop := 1600, rpmStart := 1500 } }

theorem limitEngine_boot : EngBoot limitEngine := by
  have h := demoEngine_boot
  unfold limitEngine
  generalize demoEngine = e at h ⊢
  exact ⟨h.outputs, h.events, h.decoder, h.queue, h.log, h.pc, h.given⟩

omit [FloatFmt] in
instance (e : Engine) : Decidable (RevCut e) := by unfold RevCut; infer_instance

deriving instance DecidableEq for EngPc

/-- A run without swaps in which the rev limiter cuts all the time. -/
def cutThrough (e : Engine) : List EngAct → Except Fault Engine
  | [] => if RevCut e then .ok e else .error .diverge
  | a :: as => if RevCut e then engStep e a >>= fun e => cutThrough e as else .error .diverge

theorem cutThrough_while {e0 e e' : Engine} {n : Nat} (hw : CutNow e → WhileCut e0 n e) {as : List EngAct}
    (hP : ∀ a ∈ as, ∀ now, a ≠ .swap now) (hr : cutThrough e as = .ok e') : WhileCut e0 n e' := by
  induction as generalizing e with
  | nil =>
      unfold cutThrough at hr
      split_ifs at hr with h
      cases hr
      exact hw (.inl h)
  | cons a as ih =>
      unfold cutThrough at hr
      split_ifs at hr with h
      rw [bind_eq_ok] at hr; obtain ⟨e1, h1, hr⟩ := hr
      have ha := hP a (List.mem_cons_self ..)
      refine ih (fun hc => ?_) (fun b hb => hP b (List.mem_cons_of_mem _ hb)) hr
      cases a with
      | swap now => exact absurd rfl (ha now)
      | trigger k t => exact .step (.trigger k t) (hw (.inl h)) trivial h1 hc
      | work now => exact .step (.work now) (hw (.inl h)) trivial h1 hc
      | timer now => exact .step (.timer now) (hw (.inl h)) trivial h1 hc
      | desync r => exact .step (.desync r) (hw (.inl h)) trivial h1 hc
      | sensors s => exact .step (.sensors s) (hw (.inl h)) trivial h1 hc
      | get => exact .step (.get) (hw (.inl h)) trivial h1 hc
      | getStep => exact .step (.getStep) (hw (.inl h)) trivial h1 hc
      | logging b => exact .step (.logging b) (hw (.inl h)) trivial h1 hc

/-- An engine that turns faster and faster: the last tooth brings it over the limit while a pulse is armed; when the handler is done
nothing is armed any more. -/
example : ∃ e e', @EngReach binary32 (fun _ => True) (@limitEngine binary32) e ∧ e.pc = .loop 0 ∧
    (e.cfg.events 0).type ≠ .disabled ∧ (e.cfg.events 0).start.state = .scheduled ∧ @WhileCut binary32 e 0 e' ∧ e'.pc = .idle := by
  let _ := binary32
  obtain ⟨e, h1, h2⟩ := okAnd_ok
    (x := engRun limitEngine (demoTeeth [40000, 80000, 120000, 200000, 240000, 275000] ++ .trigger 0 345000 :: List.replicate 7 (.work 345010)))
    (p := fun e => decide (e.pc = .loop 0) && decide ((e.cfg.events 0).type ≠ .disabled) &&
      decide ((e.cfg.events 0).start.state = .scheduled) &&
      okAnd (cutThrough e (List.replicate 17 (.work 345010))) fun e' => decide (e'.pc = .idle)) (by decide +kernel)
  simp only [Bool.and_eq_true, decide_eq_true_eq] at h2
  obtain ⟨⟨⟨a, b⟩, c⟩, d⟩ := h2
  obtain ⟨e', h3, h4⟩ := okAnd_ok d
  refine ⟨e, e', run_engReach .boot (fun x hx => ⟨trivial, ?_⟩) h1, a, b, c,
    cutThrough_while (fun hc => .refl e hc) (fun x hx => ?_) h3, of_decide_eq_true h4⟩
  · rw [List.mem_append, List.mem_cons] at hx
    rcases hx with hx | hx | hx
    · exact (demoTeeth_keeps _ x hx).2
    · rw [hx]; exact fun _ hh => nomatch hh
    · rw [List.eq_of_mem_replicate hx]; exact fun _ hh => nomatch hh
  · rw [List.eq_of_mem_replicate hx]; exact fun _ hh => nomatch hh

end

end Verif
