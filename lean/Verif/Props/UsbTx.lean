/-
C96: what the console writes reaches the host over USB, and writing ends (gd32).
-/
import Verif.Proofs.UsbTx

namespace Verif

/-- C96 in full: at every moment the packets that the host has got since it selected the configuration are the beginning of the
packets of the messages written since then; when the console is not inside `console_write`, they are all of them.  Already with a
peripheral that discards everything at a reset. -/
def C96_full : Prop :=
  ∀ as : List UsbTxAct, (∀ fe, UsbTxAct.reset false fe ∉ as) →
    (UsbLog.boot.run as).s.host <+: (UsbLog.boot.run as).due ∧
      ((UsbLog.boot.run as).s.waiting = false → (UsbLog.boot.run as).s.host = (UsbLog.boot.run as).due)

theorem phase_st {s : UsbTx} {due : List (List Byte)} (h : UsbPhase s due) (ht : s.tf = false) (st : UsbStatus)
    (hst : st ≠ .attached) : UsbPhase { s with st := st } due := by
  cases h with
  | unplugged h1 h2 h3 h4 h5 h6 h7 h8 h9 h10 h11 => exact .unplugged h1 h2 h3 h4 h5 h6 h7 h8 h9 h10 h11
  | idle hr h1 h2 h3 h4 h5 h6 => exact .idle ⟨hr.1, hr.2, hr.3, hr.4, hst⟩ h1 h2 h3 h4 h5 h6
  | zero hr h1 h2 h3 h4 h5 h6 h7 h8 h9 h10 => exact .zero ⟨hr.1, hr.2, hr.3, hr.4, hst⟩ h1 h2 h3 h4 h5 h6 h7 h8 h9 h10
  | sent hr h1 h2 h3 h4 h5 h6 h7 h8 => rw [h4] at ht; cases ht
  | data r f hr h1 h2 h3 h4 h5 h6 h7 h8 h9 h10 h11 h12 h13 h14 h15 h16 h17 =>
      exact .data r f ⟨hr.1, hr.2, hr.3, hr.4, hst⟩ h1 h2 h3 h4 h5 h6 h7 h8 h9 h10 h11 h12 h13 h14 h15 h16 h17

theorem leave_phase {s : UsbTx} {due : List (List Byte)} (h : UsbPhase s due) : UsbPhase s.leave due := by
  unfold UsbTx.leave
  split
  case isFalse => exact h
  case isTrue hc =>
    cases h with
    | unplugged h1 h2 h3 h4 h5 h6 h7 h8 h9 h10 h11 =>
        rw [h10] at hc
        exact absurd hc.1 hc.2
    | idle hr h1 h2 h3 h4 h5 h6 => exact .idle ⟨hr.1, hr.2, hr.3, hr.4, hr.5⟩ h1 h2 h3 h4 h5 h6
    | zero hr h1 => exact absurd h1 hc.2
    | sent hr h1 => exact absurd h1 hc.2
    | data r f hr h1 => exact absurd h1 hc.2

theorem phase_act {l : UsbLog} (h : UsbPhase l.s l.due) (a : UsbTxAct) (ha : ∀ fl fe, a ≠ .reset fl fe) :
    UsbPhase (l.act a).s (l.act a).due := by
  cases a with
  | reset fl fe => exact absurd rfl (ha fl fe)
  | leave => exact leave_phase h
  | token => exact (token_phase h).1
  | irq fe => exact (epin_phase h fe).1
  | suspend fe =>
      obtain ⟨h1, -, -, h4, -⟩ := epin_phase h fe
      exact phase_st h1 h4 _ (by decide)
  | resume fe =>
      unfold UsbLog.act UsbTx.act
      dsimp only
      split
      · obtain ⟨h1, -, -, h4, -⟩ := epin_phase h fe
        exact phase_st h1 h4 _ (by decide)
      · exact h
  | configure fe =>
      unfold UsbLog.act
      dsimp only
      by_cases hc : l.s.takesConfig
      · rw [if_pos hc]
        have no : UsbReady l.s → False := by
          intro hr
          rcases hc with hc | hc
          · exact hr.st hc
          · rw [hr.config] at hc; cases hc.2
        cases h with
        | idle hr => exact (no hr).elim
        | zero hr => exact (no hr).elim
        | sent hr => exact (no hr).elim
        | data r f hr => exact (no hr).elim
        | unplugged h1 h2 h3 h4 h5 h6 h7 h8 h9 h10 h11 =>
            have e : l.s.act (.configure fe) =
                { l.s with config := true, setUp := true, active := true, inten := true, pending := false, st := .configured } := by
              unfold UsbTx.act
              dsimp only
              rw [if_pos hc]
              unfold UsbTx.epin
              simp [h7, h9]
            rw [e]
            exact .idle ⟨rfl, rfl, rfl, rfl, (by decide : UsbStatus.configured ≠ .attached)⟩ rfl h8 h9 h6 h7 rfl
      · rw [if_neg hc]; exact h
  | write m =>
      unfold UsbLog.act UsbTx.act UsbTx.write
      dsimp only
      by_cases hc : l.s.waiting ∨ l.s.pending
      · simp only [if_pos hc]; exact h
      · simp only [if_neg hc]
        have hdue : (⟨({ l.s with pending := true, waiting := true } : UsbTx).send m, l.begun ++ [m]⟩ : UsbLog).due =
            l.due ++ usbPackets m := by
          unfold UsbLog.due
          simp
        rw [hdue]
        have no : l.s.waiting = true → False := fun h => hc (Or.inl h)
        cases h with
        | zero hr h1 h2 => exact (no h2).elim
        | sent hr h1 h2 => exact (no h2).elim
        | data r f hr h1 h2 => exact (no h2).elim
        | unplugged h1 h2 h3 h4 h5 h6 h7 h8 h9 h10 h11 =>
            have e : ({ l.s with pending := true, waiting := true } : UsbTx).send m =
                { l.s with pending := true, waiting := true, src := m, len := 0, count := 0 } := by
              unfold UsbTx.send
              rw [if_neg (by show ¬ l.s.setUp = true; rw [h1]; simp)]
            rw [e]
            exact .unplugged h1 h2 h3 h4 h5 h6 h7 h8 h9 rfl (by simp)
        | idle hr h1 h2 h3 h4 h5 h6 =>
            unfold UsbTx.send
            rw [if_pos (show ({ l.s with pending := true, waiting := true } : UsbTx).setUp = true from hr.setUp)]
            have hr' : ∀ t : UsbTx, t.setUp = l.s.setUp → t.active = l.s.active → t.inten = l.s.inten → t.config = l.s.config →
                t.st = l.s.st → UsbReady t := by
              intro t k1 k2 k3 k4 k5
              exact ⟨k1.trans hr.1, k2.trans hr.2, k3.trans hr.3, k4.trans hr.4, k5 ▸ hr.5⟩
            by_cases hm : m = []
            · subst hm
              refine .zero (hr' _ rfl rfl rfl rfl rfl) rfl rfl rfl h3 rfl rfl rfl h4 (by simp [h5]) ?_
              show l.s.host ++ [[]] = _
              rw [h6, usbPackets_short (by simp)]
            · have hml : 0 < m.length := List.length_pos_iff.mpr hm
              refine .data m 0 (hr' _ rfl rfl rfl rfl rfl) rfl rfl rfl h3 hm (by omega) (Or.inr rfl) ?_ rfl rfl ?_ ?_ rfl ?_ ?_ ?_ ?_
              · show l.s.fifo = _
                rw [h4, List.take_zero, padWords_exact rfl]
              · show (if m.length = 0 then 1 else (m.length - 1 + usbPacket) / usbPacket) = _
                rw [if_neg (by omega)]; rfl
              · show m.length = 0 + (m.length - 0); omega
              · show m.length ≠ 0; omega
              · show (l.s.feint || decide (0 < m.length)) = _
                rw [h5]
                simp only [Bool.false_or]
                congr 1
                apply propext
                omega
              · show l.s.host ++ _ = _
                rw [h6]
              · show l.s.fifo.length ≤ 256
                rw [h4]; simp

theorem phase_run (as : List UsbTxAct) (h : ∀ fl fe, UsbTxAct.reset fl fe ∉ as) :
    UsbPhase (UsbLog.boot.run as).s (UsbLog.boot.run as).due := by
  induction as using List.reverseRecOn with
  | nil => exact .unplugged rfl rfl rfl rfl rfl rfl rfl rfl rfl rfl (fun _ => rfl)
  | append_singleton as a ih =>
      have e : UsbLog.boot.run (as ++ [a]) = (UsbLog.boot.run as).act a := by
        unfold UsbLog.run
        rw [List.foldl_append]
        rfl
      rw [e]
      refine phase_act (ih fun fl fe hm => h fl fe (by simp [hm])) a ?_
      rintro fl fe rfl
      exact h fl fe (by simp)

/-- **C96, the part that holds**: until the host resets the bus a second time.  Before it selects the configuration the console may
already be writing; that message is dropped.  The bus may be suspended and resumed. -/
theorem C96_delivered_partial (as : List UsbTxAct) (h : ∀ fl fe, UsbTxAct.reset fl fe ∉ as) :
    (UsbLog.boot.run as).s.host <+: (UsbLog.boot.run as).due ∧
      ((UsbLog.boot.run as).s.waiting = false → (UsbLog.boot.run as).s.host = (UsbLog.boot.run as).due) := by
  cases phase_run as h with
  | unplugged h1 h2 h3 h4 h5 h6 h7 h8 h9 h10 h11 => rw [h5]; exact ⟨List.nil_prefix, fun h => (h11 h).symm⟩
  | idle hr h1 h2 h3 h4 h5 h6 => rw [h6]; exact ⟨List.prefix_refl _, fun _ => rfl⟩
  | zero hr h1 h2 h3 h4 h5 h6 h7 h8 h9 h10 => exact ⟨⟨_, h10⟩, fun h => by rw [h2] at h; cases h⟩
  | sent hr h1 h2 h3 h4 h5 h6 h7 h8 => exact ⟨⟨_, h8⟩, fun h => by rw [h2] at h; cases h⟩
  | data r f hr h1 h2 h3 h4 h5 h6 h7 h8 h9 h10 h11 h12 h13 h14 h15 h16 h17 =>
      exact ⟨⟨_, h16⟩, fun h => by rw [h2] at h; cases h⟩

/-! The end of a write. -/

/-- A connected console. -/
structure UsbOn (s : UsbTx) (due : List (List Byte)) : Prop where
  phase : UsbPhase s due
  setUp : s.setUp = true
  st : s.st = .configured

theorem UsbOn.le {s : UsbTx} {due : List (List Byte)} (h : UsbOn s due) :
    s.host.length ≤ due.length ∧ (s.pending = false → s.host = due) := by
  cases h.phase with
  | unplugged h1 => rw [h.setUp] at h1; cases h1
  | idle hr h1 h2 h3 h4 h5 h6 => rw [h6]; exact ⟨le_refl _, fun _ => rfl⟩
  | zero hr h1 h2 h3 h4 h5 h6 h7 h8 h9 h10 =>
      exact ⟨by rw [← h10]; simp, fun h => by rw [h1] at h; cases h⟩
  | sent hr h1 h2 h3 h4 h5 h6 h7 h8 =>
      exact ⟨by rw [← h8]; simp, fun h => by rw [h1] at h; cases h⟩
  | data r f hr h1 h2 h3 h4 h5 h6 h7 h8 h9 h10 h11 h12 h13 h14 h15 h16 h17 =>
      exact ⟨by rw [← h16]; simp, fun h => by rw [h1] at h; cases h⟩

theorem token_frame (s : UsbTx) : s.token.setUp = s.setUp ∧ s.token.st = s.st ∧ s.token.pending = s.pending := by
  unfold UsbTx.token
  simp only
  split <;> exact ⟨rfl, rfl, rfl⟩

theorem token_loaded {s : UsbTx} {due : List (List Byte)} (h : UsbOn s due) (hl : UsbLoaded s) :
    s.host.length < s.token.host.length := by
  have key : 0 < s.pcnt → s.active = true → s.host.length < s.token.host.length := by
    intro h1 h2
    unfold UsbTx.token
    simp only
    rw [if_pos ⟨by rw [h.st]; decide, h2, hl.1, h1, hl.2⟩]
    simp
  cases h.phase with
  | unplugged h1 => rw [h.setUp] at h1; cases h1
  | idle hr h1 h2 => have := hl.1; rw [h2] at this; cases this
  | sent hr h1 h2 h3 => have := hl.1; rw [h3] at this; cases this
  | zero hr h1 h2 h3 h4 h5 => exact key (by omega) hr.active
  | data r f hr h1 h2 h3 h4 h5 h6 h7 h8 h9 h10 h11 =>
      have : 0 < r.length := List.length_pos_iff.mpr h5
      exact key (by rw [h11]; omega) hr.active

theorem epin_setUp {s : UsbTx} (fe : Bool) {due : List (List Byte)} (h : UsbPhase s due) (hs : s.setUp = true) :
    (s.epin fe).setUp = true ∧ (s.pending = false → (s.epin fe).pending = false) := by
  have h' := epin_phase h fe
  obtain ⟨hp, -⟩ := h'
  refine ⟨?_, ?_⟩
  · have hfill : ∀ (n w : Nat) (t : UsbTx), (t.fill n w).setUp = t.setUp := by
      intro n
      induction n with
      | zero => intro w t; rfl
      | succ n ih => intro w t; rw [UsbTx.fill]; split; · rw [ih]
                     · rfl
    have hacm : ∀ t : UsbTx, t.acmIn.setUp = t.setUp := by
      intro t; unfold UsbTx.acmIn UsbTx.send; split
      · split <;> rfl
      · rfl
    unfold UsbTx.epin UsbTx.emptyFifo
    simp only
    split_ifs <;> simp only [hfill, hacm, hs]
  · intro h0
    cases h with
    | unplugged h1 => rw [hs] at h1; cases h1
    | idle hr h1 h2 h3 h4 h5 h6 =>
        have e : s.epin fe = s := by unfold UsbTx.epin; simp [hr.inten, h3, h5]
        rw [e]; exact h0
    | zero hr h1 => rw [h1] at h0; cases h0
    | sent hr h1 => rw [h1] at h0; cases h0
    | data r f hr h1 => rw [h1] at h0; cases h0

/-- Interrupts, tokens and looks at the flag. -/
theorem calm_step {s : UsbTx} {due : List (List Byte)} (h : UsbOn s due) {a : UsbTxAct}
    (ha : a = .token ∨ a = .leave ∨ ∃ fe, a = .irq fe) :
    UsbOn (s.act a) due ∧ s.host.length ≤ (s.act a).host.length ∧ (s.pending = false → (s.act a).pending = false) ∧
      (UsbLoaded s → UsbLoaded (s.act a) ∨ s.host.length < (s.act a).host.length) := by
  rcases ha with rfl | rfl | ⟨fe, rfl⟩
  · obtain ⟨h1, h2⟩ := token_phase h.phase
    obtain ⟨k1, k2, k3⟩ := token_frame s
    exact ⟨⟨h1, k1.trans h.setUp, k2.trans h.st⟩, h2, fun h => k3.trans h, fun hl => Or.inr (token_loaded h hl)⟩
  · have e : s.leave.host = s.host ∧ s.leave.pending = s.pending ∧ s.leave.setUp = s.setUp ∧ s.leave.st = s.st ∧
        s.leave.epen = s.epen ∧ s.leave.fifo = s.fifo ∧ s.leave.tlen = s.tlen := by
      unfold UsbTx.leave; split <;> exact ⟨rfl, rfl, rfl, rfl, rfl, rfl, rfl⟩
    obtain ⟨e1, e2, e3, e4, e5, e6, e7⟩ := e
    exact ⟨⟨leave_phase h.phase, e3.trans h.setUp, e4.trans h.st⟩, by show _ ≤ s.leave.host.length; rw [e1], fun h => e2.trans h,
      fun hl => Or.inl (by show UsbLoaded s.leave; unfold UsbLoaded; rw [e5, e6, e7]; exact hl)⟩
  · obtain ⟨h1, h2, h3, h4, h5, h6⟩ := epin_phase h.phase fe
    obtain ⟨k1, k2⟩ := epin_setUp fe h.phase h.setUp
    exact ⟨⟨h1, k1, h3.trans h.st⟩, by show _ ≤ (s.epin fe).host.length; rw [h2], k2, fun hl => Or.inl (h5 hl)⟩

theorem calm_run {due : List (List Byte)} (as : List UsbTxAct) : ∀ {s : UsbTx}, UsbOn s due →
    (∀ a ∈ as, a = .token ∨ a = .leave ∨ ∃ fe, a = .irq fe) →
    UsbOn (s.run as) due ∧ s.host.length ≤ (s.run as).host.length ∧ (s.pending = false → (s.run as).pending = false) ∧
      (UsbLoaded s → UsbLoaded (s.run as) ∨ s.host.length < (s.run as).host.length) := by
  induction as with
  | nil => intro s h _; exact ⟨h, le_refl _, id, Or.inl⟩
  | cons a as ih =>
      intro s h ha
      obtain ⟨h1, h2, h3, h4⟩ := calm_step h (ha a (by simp))
      obtain ⟨k1, k2, k3, k4⟩ := ih h1 (fun b hb => ha b (by simp [hb]))
      have e : s.run (a :: as) = (s.act a).run as := rfl
      rw [e]
      refine ⟨k1, le_trans h2 k2, fun h => k3 (h3 h), fun hl => ?_⟩
      rcases h4 hl with h5 | h5
      · rcases k4 h5 with h6 | h6
        · exact Or.inl h6
        · exact Or.inr (lt_of_le_of_lt h2 h6)
      · exact Or.inr (lt_of_lt_of_le h5 k2)

theorem run_append_usb (s : UsbTx) (a b : List UsbTxAct) : s.run (a ++ b) = (s.run a).run b := by
  unfold UsbTx.run
  rw [List.foldl_append]

theorem round_run {due : List (List Byte)} {b : List UsbTxAct} (hb : UsbRound b) {s : UsbTx} (h : UsbOn s due) :
    UsbOn (s.run b) due ∧ (s.pending = false → (s.run b).pending = false) ∧
      ((s.run b).pending = false ∨ s.host.length < (s.run b).host.length) := by
  obtain ⟨x, y, z, rfl, hall⟩ := hb
  have e : s.run (x ++ UsbTxAct.irq true :: y ++ UsbTxAct.token :: z) =
      (((((s.run x).act (.irq true)).run y).act .token).run z) := by
    rw [run_append_usb, run_append_usb]
    rfl
  rw [e]
  obtain ⟨x1, x2, x3, -⟩ := calm_run x h (fun a ha => hall a (by simp [ha]))
  generalize s.run x = s1 at *
  obtain ⟨i1, i2, i3, -⟩ := calm_step x1 (a := .irq true) (Or.inr (Or.inr ⟨true, rfl⟩))
  have hload := (epin_phase x1.phase true).2.2.2.2.2 rfl x1.setUp
  have hload : UsbLoaded (s1.act (.irq true)) ∨ (s1.act (.irq true)).pending = false := hload
  generalize s1.act (.irq true) = s2 at *
  obtain ⟨y1, y2, y3, y4⟩ := calm_run y i1 (fun a ha => hall a (by simp [ha]))
  generalize s2.run y = s3 at *
  obtain ⟨t1, t2, t3, -⟩ := calm_step y1 (a := .token) (Or.inl rfl)
  have htok : UsbLoaded s3 → s3.host.length < (s3.act .token).host.length := token_loaded y1
  generalize s3.act .token = s4 at *
  obtain ⟨z1, z2, z3, -⟩ := calm_run z t1 (fun a ha => hall a (by simp [ha]))
  generalize s4.run z = s5 at *
  refine ⟨z1, fun h0 => z3 (t3 (y3 (i3 (x3 h0)))), ?_⟩
  rcases hload with hl | hl
  · right
    rcases y4 hl with h5 | h5
    · have := htok h5; omega
    · omega
  · exact Or.inl (z3 (t3 (y3 hl)))

/-- **C96: writing ends.**  A connected console that is writing has written the message to its end, and the host has everything,
after one stretch of time more than there are packets to come: in each of which the interrupt is handled when the FIFO is empty and
the host asks for a packet afterwards. -/
theorem C96_ends_partial (as : List UsbTxAct) (h : ∀ fl fe, UsbTxAct.reset fl fe ∉ as)
    (hon : (UsbLog.boot.run as).s.setUp = true) (hst : (UsbLog.boot.run as).s.st = .configured)
    (rounds : List (List UsbTxAct)) (hr : ∀ b ∈ rounds, UsbRound b)
    (hn : (UsbLog.boot.run as).due.length - (UsbLog.boot.run as).s.host.length < rounds.length) :
    (((UsbLog.boot.run as).s.run rounds.flatten).leave).waiting = false ∧
      ((UsbLog.boot.run as).s.run rounds.flatten).host = (UsbLog.boot.run as).due := by
  have h0 : UsbOn (UsbLog.boot.run as).s (UsbLog.boot.run as).due := ⟨phase_run as h, hon, hst⟩
  generalize (UsbLog.boot.run as).due = due at *
  generalize (UsbLog.boot.run as).s = s at *
  clear hon hst h
  have key : ∀ (rs : List (List UsbTxAct)) (s : UsbTx), (∀ b ∈ rs, UsbRound b) → UsbOn s due →
      UsbOn (s.run rs.flatten) due ∧ (s.pending = false → (s.run rs.flatten).pending = false) ∧
        ((s.run rs.flatten).pending = false ∨ s.host.length + rs.length ≤ (s.run rs.flatten).host.length) := by
    intro rs
    induction rs with
    | nil => intro s _ h; exact ⟨h, id, Or.inr (le_refl _)⟩
    | cons b rs ih =>
        intro s hb h
        obtain ⟨r1, r2, r3⟩ := round_run (hb b (by simp)) h
        obtain ⟨k1, k2, k3⟩ := ih (s.run b) (fun c hc => hb c (by simp [hc])) r1
        rw [List.flatten_cons, run_append_usb]
        refine ⟨k1, fun h => k2 (r2 h), ?_⟩
        rcases r3 with r3 | r3
        · exact Or.inl (k2 r3)
        · rcases k3 with k3 | k3
          · exact Or.inl k3
          · right; rw [List.length_cons]; omega
  obtain ⟨k1, -, k3⟩ := key rounds s hr h0
  obtain ⟨l1, l2⟩ := k1.le
  have hp : (s.run rounds.flatten).pending = false := by
    rcases k3 with k3 | k3
    · exact k3
    · omega
  refine ⟨?_, l2 hp⟩
  unfold UsbTx.leave
  split
  · rfl
  · rename_i hc
    simp only [hp, Bool.false_eq_true, not_false_eq_true, and_true, Bool.not_eq_true] at hc
    exact hc

/-- A message of 130 bytes: the first packet has gone, two are to come, and three stretches of time are enough. -/
example :
    let l := UsbLog.boot.run [.write [9], .configure true, .leave, .write (List.replicate 130 7), .irq true, .token]
    l.s.setUp = true ∧ l.s.st = .configured ∧ l.s.waiting = true ∧ l.due.length - l.s.host.length = 2 ∧
      UsbRound [.irq true, .token] ∧
      (l.s.run (List.replicate 3 [UsbTxAct.irq true, .token]).flatten).host =
        [List.replicate 64 7, List.replicate 64 7, [7, 7]] := by
  refine ⟨by decide +kernel, by decide +kernel, by decide +kernel, ?_, ⟨[], [], [], rfl, by simp⟩, by decide +kernel⟩
  have e : (UsbLog.boot.run [.write [9], .configure true, .leave, .write (List.replicate 130 7), .irq true, .token]).begun =
      [List.replicate 130 7] := by decide +kernel
  have e2 : (UsbLog.boot.run [.write [9], .configure true, .leave, .write (List.replicate 130 7), .irq true, .token]).s.host.length =
      1 := by decide +kernel
  rw [e2]
  unfold UsbLog.due
  rw [e]
  simp only [List.flatMap_cons, List.flatMap_nil, List.append_nil]
  rw [usbPackets_long (by simp), usbPackets_long (by simp), usbPackets_short (by simp)]
  simp

/-- **The FIFO is never overfilled**, whatever happens. -/
theorem C96_fifo (as : List UsbTxAct) : (UsbTx.boot.run as).fifo.length ≤ 4 * usbFifoWords := by
  suffices h : (UsbTx.boot.run as).fifo.length % 4 = 0 ∧ (UsbTx.boot.run as).fifo.length ≤ 4 * usbFifoWords from h.2
  have hw : usbFifoWords = 64 := rfl
  have hpk : usbPacket = 64 := rfl
  have hfill : ∀ (n w : Nat) (t : UsbTx), (min (t.len - t.count) 64 + 3) / 4 ≤ w → t.fifo.length % 4 = 0 → t.fifo.length ≤ 256 →
      (t.fill n w).fifo.length % 4 = 0 ∧ (t.fill n w).fifo.length ≤ 256 := by
    intro n
    induction n with
    | zero => intro w t _ h1 h2; exact ⟨h1, h2⟩
    | succ n ih =>
        intro w t h0 h1 h2
        rw [UsbTx.fill]
        split
        · rename_i hc
          simp only
          rw [hw] at hc
          rw [hpk]
          have hl : (t.fifo ++ padWords (t.src.take (min (t.len - t.count) 64))).length =
              t.fifo.length + (min (min (t.len - t.count) 64) t.src.length + 3) / 4 * 4 := by
            rw [List.length_append, padWords_length, List.length_take]
          apply ih
          · show (min (t.len - (t.count + min (t.len - t.count) 64)) 64 + 3) / 4 ≤ _
            omega
          · show (t.fifo ++ padWords (t.src.take (min (t.len - t.count) 64))).length % 4 = 0
            rw [hl]; omega
          · show (t.fifo ++ padWords (t.src.take (min (t.len - t.count) 64))).length ≤ 256
            rw [hl]; omega
        · exact ⟨h1, h2⟩
  have hsend : ∀ (t : UsbTx) (m : List Byte), (t.send m).fifo = t.fifo := by
    intro t m; unfold UsbTx.send; split <;> rfl
  have hacm : ∀ t : UsbTx, t.acmIn.fifo = t.fifo := by
    intro t; unfold UsbTx.acmIn; split
    · exact hsend t []
    · rfl
  have hempty : ∀ t : UsbTx, t.fifo.length % 4 = 0 → t.fifo.length ≤ 256 →
      t.emptyFifo.fifo.length % 4 = 0 ∧ t.emptyFifo.fifo.length ≤ 256 := by
    intro t h1 h2
    unfold UsbTx.emptyFifo
    exact hfill _ _ t (by rw [hpk]) h1 h2
  have hepin : ∀ (t : UsbTx) (fe : Bool), t.fifo.length % 4 = 0 → t.fifo.length ≤ 256 →
      (t.epin fe).fifo.length % 4 = 0 ∧ (t.epin fe).fifo.length ≤ 256 := by
    intro t fe h1 h2
    unfold UsbTx.epin
    simp only
    have e : ∀ u : UsbTx, u.fifo = t.fifo → (if (fe && t.feint) = true then u.emptyFifo else u).fifo.length % 4 = 0 ∧
        (if (fe && t.feint) = true then u.emptyFifo else u).fifo.length ≤ 256 := by
      intro u hu
      split
      · exact hempty u (by rw [hu]; exact h1) (by rw [hu]; exact h2)
      · rw [hu]; exact ⟨h1, h2⟩
    split
    · apply e
      split
      · split
        · exact hacm _
        · rfl
      · rfl
    · exact ⟨h1, h2⟩
  rw [hw]
  induction as using List.reverseRecOn with
  | nil => exact ⟨rfl, by decide⟩
  | append_singleton as a ih =>
      rw [run_append_usb]
      obtain ⟨h1, h2⟩ := ih
      generalize UsbTx.boot.run as = s at *
      show (s.act a).fifo.length % 4 = 0 ∧ (s.act a).fifo.length ≤ 256
      cases a with
      | write m =>
          have e : (s.act (.write m)).fifo = s.fifo := by
            unfold UsbTx.act UsbTx.write; dsimp only; split
            · rfl
            · exact hsend _ m
          rw [e]; exact ⟨h1, h2⟩
      | leave =>
          have e : (s.act .leave).fifo = s.fifo := by unfold UsbTx.act UsbTx.leave; dsimp only; split <;> rfl
          rw [e]; exact ⟨h1, h2⟩
      | token =>
          show s.token.fifo.length % 4 = 0 ∧ s.token.fifo.length ≤ 256
          unfold UsbTx.token
          simp only
          split
          · simp only [List.length_drop]; omega
          · exact ⟨h1, h2⟩
      | irq fe => exact hepin s fe h1 h2
      | suspend fe => exact hepin s fe h1 h2
      | resume fe =>
          unfold UsbTx.act; dsimp only; split
          · exact hepin s fe h1 h2
          · exact ⟨h1, h2⟩
      | reset fl fe =>
          have := hepin s fe h1 h2
          unfold UsbTx.act; dsimp only
          cases fl
          · exact this
          · exact ⟨rfl, Nat.zero_le _⟩
      | configure fe =>
          unfold UsbTx.act; dsimp only; split
          · exact hepin _ fe h1 h2
          · exact ⟨h1, h2⟩

/-- Not vacuous: the FIFO gets full. -/
example : (UsbTx.boot.run [.configure false, .write (List.replicate 320 7), .irq true]).fifo.length = 256 := by decide +kernel

/-- A message of 320 bytes: 256 sevens, as many as fit into the FIFO, and 64 eights. -/
def staleMsg : List Byte := List.replicate 256 7 ++ List.replicate 64 8

/-- C96 fails when the host resets the bus in the middle of a message, as it does when the cable is plugged in again.  The interrupt
for an empty FIFO stays enabled, and as soon as the configuration is selected the rest of the old message goes into the FIFO.  What
the host gets for the next message is that rest. -/
theorem C96_full_false : ¬ C96_full := by
  intro h
  have h1 := (h [.configure false, .write staleMsg, .irq true, .token, .reset true false, .configure true, .leave, .write [1], .irq true,
    .token] (by simp)).1
  have e1 : (UsbLog.boot.run [.configure false, .write staleMsg, .irq true, .token, .reset true false, .configure true, .leave, .write [1],
    .irq true, .token]).s.host = [[8]] := by decide +kernel
  have e2 : (UsbLog.boot.run [.configure false, .write staleMsg, .irq true, .token, .reset true false, .configure true, .leave, .write [1],
    .irq true, .token]).begun = [[1]] := by decide +kernel
  rw [e1] at h1
  unfold UsbLog.due at h1
  rw [e2] at h1
  rw [List.flatMap_cons, usbPackets_short (by decide)] at h1
  revert h1
  decide

end Verif
