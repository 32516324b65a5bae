/-
C69: what the host sends arrives at the console.
-/
import Verif.Model.Usb

namespace Verif

/-- The bytes that the host has got rid of and that the console has not stored yet. -/
def UsbGd.waiting (s : UsbGd) : List Byte := if s.pending then s.rx else []

/-- C69 on the gd32: for every order in which packets, polls and the console's own work interleave, every byte that the host got
rid of is stored in the request buffer exactly once and in order, or is waiting to be, and the request buffer is not overrun. -/
def C69_gd32_full : Prop :=
  ∀ as : List UsbGdAct, ∃ s, UsbGd.boot.run as = .ok s ∧ s.accepted = s.stored ++ s.waiting ∧ s.fill ≤ rxCapacity

/-- C69 on the stm32, the same. -/
def C69_stm32_full : Prop :=
  ∀ as : List UsbStAct, (UsbSt.boot.run as).accepted = (UsbSt.boot.run as).stored ++ (UsbSt.boot.run as).buf ∧
    (UsbSt.boot.run as).buf.length ≤ usbRxLen

structure UsbInv (s : UsbGd) : Prop where
  exclusive : s.pending = true → s.armed = false ∧ s.pc = .idle
  conserved : s.accepted = s.stored ++ s.waiting
  room : s.armed = true ∨ s.pending = true ∨ s.pc = .arm → 64 ≤ rxCapacity - s.fill
  short : s.pending = true → s.rx.length ≤ 64
  fits : s.fill ≤ rxCapacity

/-- No packet comes between the test and the arming in `console_read`. -/
def UsbGd.calm (s : UsbGd) : UsbGdAct → Prop
  | .packet _ => s.pc = .idle
  | _ => True

theorem usb_act {s : UsbGd} (h : UsbInv s) {a : UsbGdAct} (ha : s.calm a) : ∃ s', s.act a = .ok s' ∧ UsbInv s' := by
  obtain ⟨h1, h2, h3, h4, h5⟩ := h
  unfold UsbGd.waiting at h2
  cases a with
  | packet bs =>
      have hidle : s.pc = .idle := ha
      unfold UsbGd.act
      simp only
      split_ifs with hp
      · refine ⟨_, rfl, ⟨fun _ => ⟨rfl, hidle⟩, ?_, fun _ => h3 (.inl hp.1), fun _ => hp.2, h5⟩⟩
        have hpn : s.pending = false := by
          cases hpe : s.pending
          · rfl
          · have := (h1 hpe).1; rw [hp.1] at this; cases this
        rw [hpn] at h2
        simp only [UsbGd.waiting, if_true, h2]
        simp
      · exact ⟨_, rfl, ⟨h1, h2, h3, h4, h5⟩⟩
  | poll =>
      unfold UsbGd.act
      simp only
      by_cases hpc : s.pc = .idle
      · rw [if_neg (fun h => h hpc)]
        cases hpe : s.pending
        · simp only [Bool.false_eq_true, if_false]
          rw [hpe] at h2
          split_ifs with hr
          · exact ⟨_, rfl, ⟨(fun h => by cases h), (by simpa [UsbGd.waiting] using h2), fun _ => hr,
              (fun h => by cases h), h5⟩⟩
          · exact ⟨s, rfl, ⟨h1, (by simpa [UsbGd.waiting, hpe] using h2), h3, h4, h5⟩⟩
        · simp only [if_true]
          have hroom := h3 (.inr (.inl hpe))
          have hlen := h4 hpe
          rw [if_pos (by omega)]
          refine ⟨_, rfl, ⟨(fun h => by cases h), ?_, ?_, (fun h => by cases h), ?_⟩⟩
          · simp only [UsbGd.waiting, h2, hpe, if_true]
            simp
          · intro h
            have ha := (h1 hpe).1
            rcases h with h | h | h
            · simp only at h; rw [ha] at h; cases h
            · cases h
            · simp only at h; rw [hpc] at h; cases h
          · simp only
            have : 64 ≤ rxCapacity - s.fill := hroom
            omega
      · rw [if_pos hpc]
        exact ⟨_, rfl, ⟨h1, h2, h3, h4, h5⟩⟩
  | step =>
      unfold UsbGd.act
      simp only
      cases hpc : s.pc with
      | idle => exact ⟨_, rfl, ⟨h1, h2, h3, h4, h5⟩⟩
      | arm =>
          have hpn : s.pending = false := by
            cases hpe : s.pending
            · rfl
            · have := (h1 hpe).2; rw [hpc] at this; cases this
          exact ⟨_, rfl, ⟨(fun h => by simp only at h; rw [hpn] at h; cases h), (by simpa [UsbGd.waiting, hpn] using h2),
            fun _ => h3 (.inr (.inr hpc)), (fun h => by simp only at h; rw [hpn] at h; cases h), h5⟩⟩
  | drop n =>
      refine ⟨_, rfl, ⟨h1, h2, fun h => ?_, h4, ?_⟩⟩
      · have := h3 h
        simp only
        omega
      · simp only
        omega

/-- Runs in which no packet comes between the test and the arming. -/
inductive UsbRun : List UsbGdAct → UsbGd → Prop
  | boot : UsbRun [] .boot
  | act {as s a s'} : UsbRun as s → s.calm a → s.act a = .ok s' → UsbRun (as ++ [a]) s'

/-- **C69 on the gd32, the part that holds.**  If no packet comes between the test of `pending_read` and the arming of the
endpoint, nothing is lost, repeated or reordered, and the next step is again without fault. -/
theorem C69_gd32_partial {as : List UsbGdAct} {s : UsbGd} (h : UsbRun as s) :
    s.accepted = s.stored ++ s.waiting ∧ s.fill ≤ rxCapacity ∧ ∀ a, s.calm a → ∃ s', s.act a = .ok s' := by
  have hi : UsbInv s := by
    induction h with
    | boot => exact ⟨(fun h => by cases h), rfl, (fun h => by rcases h with h | h | h <;> cases h), (fun h => by cases h), Nat.zero_le _⟩
    | act _ hc he ih =>
        obtain ⟨s', h1, h2⟩ := usb_act ih hc
        rw [he] at h1
        cases h1
        exact h2
  exact ⟨hi.conserved, hi.fits, fun a ha => let ⟨s', h, _⟩ := usb_act hi ha; ⟨s', h⟩⟩

/-- A packet is received and stored, and another one is waiting. -/
example : ∃ as s, UsbRun as s ∧ s.stored = [1, 2, 3] ∧ s.waiting = [4, 5] := by
  refine ⟨_, { armed := false, pending := true, rx := [4, 5], pc := .idle, fill := 3, stored := [1, 2, 3], accepted := [1, 2, 3, 4, 5] },
    .act (a := .packet [4, 5]) (s := { armed := true, pending := false, rx := [1, 2, 3], pc := .idle, fill := 3, stored := [1, 2, 3], accepted := [1, 2, 3] })
     (.act (a := .step) (s := { armed := false, pending := false, rx := [1, 2, 3], pc := .arm, fill := 3, stored := [1, 2, 3], accepted := [1, 2, 3] })
     (.act (a := .poll) (s := { armed := false, pending := false, rx := [1, 2, 3], pc := .idle, fill := 3, stored := [1, 2, 3], accepted := [1, 2, 3] })
     (.act (a := .poll) (s := { armed := false, pending := true, rx := [1, 2, 3], pc := .idle, fill := 0, stored := [], accepted := [1, 2, 3] })
     (.act (a := .packet [1, 2, 3]) (s := { armed := true, pending := false, rx := [], pc := .idle, fill := 0, stored := [], accepted := [] })
     (.act (a := .step) (s := { armed := false, pending := false, rx := [], pc := .arm, fill := 0, stored := [], accepted := [] })
     (.act (a := .poll) .boot trivial rfl) trivial rfl) rfl rfl) trivial rfl) trivial rfl) trivial rfl) rfl rfl, rfl, rfl⟩

/-- C69 is false on the gd32.  The endpoint is armed; a poll finds nothing; a packet comes; the poll goes on and arms the endpoint
again, so the next packet overwrites the first before it was read. -/
theorem C69_gd32_full_false : ¬ C69_gd32_full := by
  intro h
  obtain ⟨s, h1, h2, -⟩ := h [.poll, .step, .poll, .packet [1], .step, .packet [2], .poll]
  have : UsbGd.boot.run [.poll, .step, .poll, .packet [1], .step, .packet [2], .poll] =
      .ok { armed := false, pending := false, rx := [2], pc := .idle, fill := 1, stored := [2], accepted := [1, 2] } := rfl
  rw [this] at h1
  cases h1
  exact absurd h2 (by decide)

/-- Filling the request buffer with packets of 64 bytes that it does not understand as a complete request. -/
def usbFill : Nat → List UsbGdAct
  | 0 => []
  | n + 1 => [.poll, .step, .packet (List.replicate 64 0), .poll] ++ usbFill n

theorem usbFill_run (n : Nat) : ∀ s : UsbGd, s.armed = false → s.pending = false → s.pc = .idle → s.fill + 64 * n ≤ rxCapacity →
    ∃ s', s.run (usbFill n) = .ok s' ∧ s'.armed = false ∧ s'.pending = false ∧ s'.pc = .idle ∧ s'.fill = s.fill + 64 * n := by
  induction n with
  | zero => exact fun s h1 h2 h3 _ => ⟨s, rfl, h1, h2, h3, rfl⟩
  | succ n ih =>
      intro s h1 h2 h3 h4
      obtain ⟨s', e1, e2, e3, e4, e5⟩ := ih
        (UsbGd.mk false false (List.replicate 64 0) .idle (s.fill + 64) (s.stored ++ List.replicate 64 0)
          (s.accepted ++ List.replicate 64 0))
        rfl rfl rfl (by simp only; omega)
      refine ⟨s', ?_, e2, e3, e4, by simp only at e5; omega⟩
      obtain ⟨ar, pe, rx, pc, fi, st, ac⟩ := s
      cases h1; cases h2; cases h3
      simp only at h4
      have hr : 64 ≤ rxCapacity - fi := by omega
      rw [← e1]
      simp [usbFill, UsbGd.run, UsbGd.act, hr]

theorem usbRun_append (s : UsbGd) (as bs : List UsbGdAct) : s.run (as ++ bs) = s.run as >>= fun s' => s'.run bs := by
  induction as generalizing s with
  | nil => rfl
  | cons a as ih =>
      simp only [List.cons_append, UsbGd.run]
      cases s.act a with
      | error e => rfl
      | ok s' => exact ih s'

/-- The same race overruns the request buffer: with room for exactly one packet left, two are accepted.  (The buffer is never
exactly full in this run, so the console would not have emptied it, src/console.c:372-374.) -/
theorem C69_gd32_overrun_full_false : ∃ as, UsbGd.boot.run as = .error .oob := by
  obtain ⟨s, e1, e2, e3, e4, e5⟩ := usbFill_run 255 .boot rfl rfl rfl (by decide)
  refine ⟨usbFill 255 ++ [.poll, .step, .poll, .packet (List.replicate 63 0), .step, .poll, .packet [1, 2], .poll], ?_⟩
  rw [usbRun_append, e1, except_bind_ok]
  obtain ⟨ar, pe, rx, pc, fi, st, ac⟩ := s
  cases e2; cases e3; cases e4
  have e6 : 64 ≤ rxCapacity - fi := by simp only [UsbGd.boot] at e5; unfold rxCapacity; omega
  have e6' : 63 ≤ rxCapacity - fi := by omega
  have e7 : ¬ 2 ≤ rxCapacity - (fi + 63) := by simp only [UsbGd.boot] at e5; unfold rxCapacity; omega
  have e8 : (List.replicate 63 (0 : Byte)).length = 63 := List.length_replicate
  generalize List.replicate 63 (0 : Byte) = l at e8
  simp [UsbGd.run, UsbGd.act, e6, e6', e8]
  rw [if_neg e7]
  rfl

/-- **C69 on the stm32, the part that holds**: as long as the console reads before more than 960 bytes have gathered. -/
theorem C69_stm32_partial (as : List UsbStAct)
    (h : ∀ pre bs post, as = pre ++ .packet bs :: post → (UsbSt.boot.run pre).buf.length ≤ 960) :
    (UsbSt.boot.run as).accepted = (UsbSt.boot.run as).stored ++ (UsbSt.boot.run as).buf ∧
      (UsbSt.boot.run as).buf.length ≤ usbRxLen := by
  induction as using List.reverseRecOn with
  | nil => exact ⟨rfl, Nat.zero_le _⟩
  | append_singleton as a ih =>
      obtain ⟨i1, i2⟩ := ih (fun pre bs post he => h pre bs (post ++ [a]) (by rw [he]; simp))
      unfold UsbSt.run at *
      rw [List.foldl_append, List.foldl_cons, List.foldl_nil]
      generalize hs : List.foldl UsbSt.act UsbSt.boot as = s at *
      cases a with
      | packet bs =>
          have hl := h as bs [] rfl
          rw [hs] at hl
          unfold UsbSt.act
          simp only
          split_ifs with hb
          · have ht : bs.take (usbRxLen - s.buf.length) = bs := List.take_of_length_le (by unfold usbRxLen; omega)
            simp only [ht, i1, List.append_assoc, List.length_append]
            exact ⟨trivial, by unfold usbRxLen; omega⟩
          · exact ⟨i1, i2⟩
      | poll m =>
          unfold UsbSt.act
          simp only [i1, List.append_assoc, List.take_append_drop, List.length_drop]
          exact ⟨trivial, by omega⟩

/-- Met by two packets with a poll that takes part of the first in between. -/
example : (UsbSt.boot.run [.packet [1, 2, 3], .poll 2, .packet [4]]).stored = [1, 2] ∧
    (UsbSt.boot.run [.packet [1, 2, 3], .poll 2, .packet [4]]).buf = [3, 4] := by decide

/-- C69 is false on the stm32: the seventeenth packet of 64 bytes without a read in between is accepted from the host and thrown
away. -/
theorem C69_stm32_full_false : ¬ C69_stm32_full := by
  intro h
  have := congrArg List.length (h (List.replicate 17 (.packet (List.replicate 64 0)))).1
  revert this
  decide +kernel

end Verif
