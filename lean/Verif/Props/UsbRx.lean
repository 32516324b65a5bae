/-
C99: a packet that the host got rid of is given to the console whole, although the library takes several interrupts for it.
-/
import Verif.Proofs.UsbRx

namespace Verif

/-- C99: for every order in which packets, interrupts, polls and the console's own work interleave, nothing is written outside the
receive buffer, every byte that the host got rid of is given to the console exactly once and in order, or is waiting to be, and
the request buffer is not overrun. -/
def C99_full : Prop :=
  ∀ as : List UsbRxAct, ∃ s, UsbRx.boot.run as = .ok s ∧ s.accepted = s.stored ++ s.waiting ∧ s.fill ≤ rxCapacity

/-- Runs in which the main loop and the reception of a packet keep apart. -/
inductive UsbRxRun : List UsbRxAct → UsbRx → Prop
  | boot : UsbRxRun [] .boot
  | act {as s a s'} : UsbRxRun as s → s.apart a → s.act a = .ok s' → UsbRxRun (as ++ [a]) s'

theorem UsbRxRun.inv {as : List UsbRxAct} {s : UsbRx} (h : UsbRxRun as s) : UsbRxInv s := by
  induction h with
  | boot => exact usbRx_boot
  | act _ hc he ih =>
      obtain ⟨s', h1, h2⟩ := usbRx_act ih hc
      rw [he] at h1
      cases h1
      exact h2

/-- **C99, the part that holds.**  If no packet comes while `console_read` is arming the endpoint, and `console_read` is not called
between a packet and the interrupt that reports it, then nothing is lost, repeated or reordered, and the next step is again without
fault: in particular the interrupt writes only within the receive buffer. -/
theorem C99_partial {as : List UsbRxAct} {s : UsbRx} (h : UsbRxRun as s) :
    s.accepted = s.stored ++ s.waiting ∧ s.fill ≤ rxCapacity ∧ ∀ a, s.apart a → ∃ s', s.act a = .ok s' :=
  ⟨usbRx_waiting h.inv, h.inv.fits, fun _ ha => let ⟨s', h, _⟩ := usbRx_act h.inv ha; ⟨s', h⟩⟩

/-- In such a run, a packet that comes while the endpoint is armed is given to the console by the third interrupt and the next poll. -/
theorem C99_given_partial {as : List UsbRxAct} {s : UsbRx} (h : UsbRxRun as s) (harm : s.epen = true) (hpc : s.pc = .idle)
    {bs : List Byte} (hb : bs.length ≤ 64) :
    ∃ s', UsbRxRun (as ++ [.packet bs] ++ [.irq] ++ [.irq] ++ [.irq] ++ [.poll]) s' ∧ s'.stored = s.stored ++ bs ∧
      s'.waiting = [] ∧ s'.fill = s.fill + bs.length := by
  obtain ⟨hsz, hfit, hph⟩ := h.inv
  cases hph with
  | quiet h1 h2 h3 h4 h5 h6 h7 h8 =>
      obtain ⟨h9, h10⟩ := h7 hpc harm
      have hroom := h8 (.inl harm)
      have hl : (padWords bs).length ≤ s.buf.length := by rw [padWords_words, hsz]; omega
      obtain ⟨ep, fi, tf, off, ct, buf, len, pe, pc, fl, st, ac⟩ := s
      dsimp only at *
      subst h1 h2 h3 h4 h9 h10 harm hpc
      have r1 := h.act (a := .packet bs) (s' := ⟨false, [.data bs, .comp], false, 0, 0, buf, len, false, .idle, fl, ac, ac ++ bs⟩) rfl
        (if_pos ⟨rfl, hb⟩)
      have r2 := r1.act (a := .irq)
        (s' := ⟨false, [.comp], false, bs.length, bs.length, overwrite buf 0 (padWords bs), len, false, .idle, fl, ac, ac ++ bs⟩) trivial (by
          show (if 0 + (padWords bs).length ≤ buf.length then _ else _) = _
          rw [if_pos (by omega)]
          simp [UsbRx.epout])
      have r3 := r2.act (a := .irq)
        (s' := ⟨false, [], true, bs.length, bs.length, overwrite buf 0 (padWords bs), len, false, .idle, fl, ac, ac ++ bs⟩) trivial rfl
      have r4 := r3.act (a := .irq)
        (s' := ⟨false, [], false, bs.length, bs.length, overwrite buf 0 (padWords bs), bs.length, true, .idle, fl, ac, ac ++ bs⟩) trivial rfl
      have r5 := r4.act (a := .poll)
        (s' := ⟨false, [], false, bs.length, bs.length, overwrite buf 0 (padWords bs), bs.length, false, .idle, fl + bs.length, ac ++ bs,
          ac ++ bs⟩) (by unfold UsbRx.apart UsbRx.underWay; simp) (by
          show (if bs.length ≤ rxCapacity - fl then _ else _) = _
          rw [if_pos (by omega), overwrite_take])
      exact ⟨_, r5, rfl, by unfold UsbRx.waiting; simp, rfl⟩
  | come _ _ _ _ h' | read _ _ _ h' | flag _ _ _ h' | told _ _ _ h' => rw [harm] at h'; cases h'

/-- In such a run, a poll that finds nothing and has room arms the endpoint, unless a packet is under way. -/
theorem C99_armed_partial {as : List UsbRxAct} {s : UsbRx} (h : UsbRxRun as s) (hpc : s.pc = .idle) (hno : ¬ s.underWay)
    (hpe : s.pending = false) (hroom : s.fill + 64 ≤ rxCapacity) :
    ∃ s', UsbRxRun (as ++ [.poll] ++ [.step] ++ [.step] ++ [.step]) s' ∧ s'.epen = true ∧ s'.pc = .idle ∧ s'.fill = s.fill ∧
      s'.stored = s.stored := by
  obtain ⟨ep, fi, tf, off, ct, buf, len, pe, pc, fl, st, ac⟩ := s
  dsimp only at *
  subst hpe hpc
  refine ⟨_, .act (.act (.act (.act h (a := .poll) (s' := ⟨ep, fi, tf, off, ct, buf, len, false, .buf, fl, st, ac⟩) hno ?_)
    (a := .step) trivial rfl) (a := .step) trivial rfl) (a := .step) trivial rfl, rfl, rfl, rfl, rfl⟩
  show (if 64 ≤ rxCapacity - fl then _ else _) = _
  rw [if_pos (by omega)]

/-- Met: after power-on the endpoint is armed, and a packet of five bytes is given to the console. -/
example : ∃ as s, UsbRxRun as s ∧ s.stored = [1, 2, 3, 4, 5] := by
  obtain ⟨s1, r1, e1, e2, -, e4⟩ := C99_armed_partial .boot rfl (by unfold UsbRx.underWay UsbRx.boot; simp) rfl (by decide)
  obtain ⟨s2, r2, f1, -⟩ := C99_given_partial r1 e1 e2 (bs := [1, 2, 3, 4, 5]) (by decide)
  exact ⟨_, s2, r2, by rw [f1, e4]; rfl⟩

/-- C99 is false.  The endpoint is armed.  A packet comes and the interrupt copies it; a poll finds that nothing has been reported yet
and sets the count of received bytes back to 0; then the packet is reported, with length 0.  It is lost. -/
theorem C99_full_false : ¬ C99_full := by
  intro h
  obtain ⟨s, h1, h2, -⟩ := h [.poll, .step, .step, .step, .packet [1, 2, 3, 4], .irq, .poll, .step, .step, .irq, .irq, .step, .poll]
  have : UsbRx.boot.run [.poll, .step, .step, .step, .packet [1, 2, 3, 4], .irq, .poll, .step, .step, .irq, .irq, .step, .poll] =
      .ok { epen := true, fifo := [], tf := false, off := 0, count := 0, buf := [1, 2, 3, 4] ++ List.replicate 60 0, len := 0,
            pending := false, pc := .idle, fill := 0, stored := [], accepted := [1, 2, 3, 4] } := by decide +kernel
  rw [this] at h1
  cases h1
  exact absurd h2 (by decide +kernel)

/-- The same race lets the interrupt write behind the receive buffer: a packet is copied after the poll has set the address and before it
arms the endpoint, so the next one is stored behind it. -/
theorem C99_overrun_full_false : ∃ as, UsbRx.boot.run as = .error .oob :=
  ⟨[.poll, .step, .step, .step, .poll, .step, .packet (List.replicate 64 1), .irq, .step, .step, .packet [2], .irq, .irq], by decide +kernel⟩

end Verif
