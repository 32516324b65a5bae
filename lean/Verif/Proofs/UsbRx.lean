/-
Lemmas for C99: the reception of a USB packet in the interrupts of the library.
-/
import Verif.Model.UsbRx

namespace Verif

/-- What has been received and not yet been given to the console: reported to it, read from the FIFO, in the FIFO. -/
def UsbRx.waiting (s : UsbRx) : List Byte :=
  (if s.pending then s.buf.take s.len else []) ++
    (if s.tf ∨ s.fifo.head? = some .comp then s.buf.take s.count else []) ++
    s.fifo.flatMap fun | .data bs => bs | .comp => []

/-- A packet has come and has not been reported to the driver yet. -/
def UsbRx.underWay (s : UsbRx) : Prop := s.fifo ≠ [] ∨ s.tf = true

/-- The main loop and the reception of a packet keep apart: no packet is taken while `console_read` is arming the endpoint, and
`console_read` is not called while a packet is under way. -/
def UsbRx.apart (s : UsbRx) : UsbRxAct → Prop
  | .packet _ => s.pc = .idle
  | .poll => ¬ s.underWay
  | _ => True

/-- Where the reception is. -/
inductive UsbRxPhase (s : UsbRx) : Prop
  | quiet : s.fifo = [] → s.tf = false → s.pending = false → s.accepted = s.stored →
      (s.pc = .count → s.off = 0) → (s.pc = .arm → s.off = 0 ∧ s.count = 0) → (s.pc = .idle → s.epen = true → s.off = 0 ∧ s.count = 0) →
      (s.epen = true ∨ s.pc ≠ .idle → 64 ≤ rxCapacity - s.fill) → UsbRxPhase s
  | come (bs : List Byte) : s.fifo = [.data bs, .comp] → s.tf = false → s.pending = false → s.epen = false → s.pc = .idle → s.off = 0 →
      s.count = 0 → bs.length ≤ 64 → s.accepted = s.stored ++ bs → 64 ≤ rxCapacity - s.fill → UsbRxPhase s
  | read : s.fifo = [.comp] → s.tf = false → s.pending = false → s.epen = false → s.pc = .idle → s.count ≤ 64 →
      s.accepted = s.stored ++ s.buf.take s.count → 64 ≤ rxCapacity - s.fill → UsbRxPhase s
  | flag : s.fifo = [] → s.tf = true → s.pending = false → s.epen = false → s.pc = .idle → s.count ≤ 64 →
      s.accepted = s.stored ++ s.buf.take s.count → 64 ≤ rxCapacity - s.fill → UsbRxPhase s
  | told : s.fifo = [] → s.tf = false → s.pending = true → s.epen = false → s.pc = .idle → s.len ≤ 64 →
      s.accepted = s.stored ++ s.buf.take s.len → 64 ≤ rxCapacity - s.fill → UsbRxPhase s

structure UsbRxInv (s : UsbRx) : Prop where
  size : s.buf.length = 64
  fits : s.fill ≤ rxCapacity
  phase : UsbRxPhase s

theorem padWords_words (l : List Byte) : (padWords l).length = (l.length + 3) / 4 * 4 := by
  unfold padWords
  rw [List.length_append, List.length_replicate]
  omega

theorem overwrite_length {l w : List Byte} {i : Nat} (h : i + w.length ≤ l.length) : (overwrite l i w).length = l.length := by
  unfold overwrite
  simp only [List.length_append, List.length_take, List.length_drop]
  omega

theorem overwrite_take {l bs : List Byte} : (overwrite l 0 (padWords bs)).take bs.length = bs := by
  unfold overwrite padWords
  simp

theorem usbRx_act {s : UsbRx} (h : UsbRxInv s) {a : UsbRxAct} (ha : s.apart a) : ∃ s', s.act a = .ok s' ∧ UsbRxInv s' := by
  obtain ⟨hsz, hfit, hph⟩ := h
  cases a with
  | packet bs =>
      have hidle : s.pc = .idle := ha
      unfold UsbRx.act
      dsimp only
      by_cases hp : s.epen = true ∧ bs.length ≤ 64
      · rw [if_pos hp]
        refine ⟨_, rfl, hsz, hfit, ?_⟩
        cases hph with
        | quiet h1 h2 h3 h4 h5 h6 h7 h8 =>
            exact .come bs (by simp [h1]) h2 h3 rfl hidle (h7 hidle hp.1).1 (h7 hidle hp.1).2 hp.2 (by simp [h4]) (h8 (.inl hp.1))
        | come _ _ _ _ h | read _ _ _ h | flag _ _ _ h | told _ _ _ h => rw [hp.1] at h; cases h
      · rw [if_neg hp]
        exact ⟨s, rfl, hsz, hfit, hph⟩
  | irq =>
      unfold UsbRx.act
      dsimp only
      cases hph with
      | quiet h1 h2 h3 h4 h5 h6 h7 h8 =>
          refine ⟨s, ?_, hsz, hfit, .quiet h1 h2 h3 h4 h5 h6 h7 h8⟩
          unfold UsbRx.epout UsbRx.rxfifo
          simp only [h2, Bool.false_eq_true, if_false, h1]
      | come bs h1 h2 h3 h4 h5 h6 h7 h8 h9 h10 =>
          have hl : 0 + (padWords bs).length ≤ s.buf.length := by rw [padWords_words, hsz]; omega
          refine ⟨{ s with fifo := [.comp], buf := overwrite s.buf 0 (padWords bs), off := bs.length, count := bs.length }, ?_,
            by rw [← hsz]; exact overwrite_length hl, hfit, .read rfl h2 h3 h4 h5 h8 ?_ h10⟩
          · unfold UsbRx.epout UsbRx.rxfifo
            simp only [h2, Bool.false_eq_true, if_false, h1, h6, h7, Nat.zero_add]
            rw [if_pos (by omega)]
          · show s.accepted = s.stored ++ (overwrite s.buf 0 (padWords bs)).take bs.length
            rw [overwrite_take]
            exact h9
      | read h1 h2 h3 h4 h5 h6 h7 h8 =>
          refine ⟨{ s with fifo := [], tf := true }, ?_, hsz, hfit, .flag rfl rfl h3 h4 h5 h6 h7 h8⟩
          unfold UsbRx.epout UsbRx.rxfifo
          simp only [h2, Bool.false_eq_true, if_false, h1]
      | flag h1 h2 h3 h4 h5 h6 h7 h8 =>
          refine ⟨{ s with tf := false, len := s.count, pending := true }, ?_, hsz, hfit, .told h1 rfl rfl h4 h5 h6 h7 h8⟩
          unfold UsbRx.epout UsbRx.rxfifo
          simp only [h2, if_true, h1]
      | told h1 h2 h3 h4 h5 h6 h7 h8 =>
          refine ⟨s, ?_, hsz, hfit, .told h1 h2 h3 h4 h5 h6 h7 h8⟩
          unfold UsbRx.epout UsbRx.rxfifo
          simp only [h2, Bool.false_eq_true, if_false, h1]
  | poll =>
      have hno : ¬ s.underWay := ha
      unfold UsbRx.act
      dsimp only
      by_cases hpc : s.pc = .idle
      · rw [if_neg (fun h => h hpc)]
        cases hph with
        | quiet h1 h2 h3 h4 h5 h6 h7 h8 =>
            rw [h3, if_neg Bool.false_ne_true]
            by_cases hr : 64 ≤ rxCapacity - s.fill
            · rw [if_pos hr]
              exact ⟨_, rfl, hsz, hfit, .quiet h1 h2 rfl h4 (fun h => by cases h) (fun h => by cases h) (fun h => by cases h) fun _ => hr⟩
            · rw [if_neg hr]
              exact ⟨s, rfl, hsz, hfit, .quiet h1 h2 h3 h4 h5 h6 h7 h8⟩
        | come bs h1 => exact absurd (.inl (by rw [h1]; simp)) hno
        | read h1 => exact absurd (.inl (by rw [h1]; simp)) hno
        | flag _ h2 => exact absurd (.inr h2) hno
        | told h1 h2 h3 h4 h5 h6 h7 h8 =>
            rw [h3, if_pos rfl, if_pos (by omega)]
            refine ⟨_, rfl, hsz, (by dsimp only; omega), .quiet h1 h2 rfl h7 (fun h => ?_) (fun h => ?_) (fun _ h => ?_) (fun h => ?_)⟩
            · rw [show s.pc = .count from h] at h5; cases h5
            · rw [show s.pc = .arm from h] at h5; cases h5
            · rw [show s.epen = true from h] at h4; cases h4
            · rcases h with h | h
              · rw [show s.epen = true from h] at h4; cases h4
              · exact absurd h5 h
      · rw [if_pos hpc]
        exact ⟨s, rfl, hsz, hfit, hph⟩
  | step =>
      unfold UsbRx.act
      dsimp only
      by_cases hpc : s.pc = .idle
      · rw [hpc]
        exact ⟨s, rfl, hsz, hfit, hph⟩
      · cases hph with
        | quiet h1 h2 h3 h4 h5 h6 h7 h8 =>
            cases hc : s.pc with
            | idle => exact absurd hc hpc
            | buf =>
                exact ⟨_, rfl, hsz, hfit, .quiet h1 h2 h3 h4 (fun _ => rfl) (fun h => by cases h) (fun h => by cases h) fun _ => h8 (.inr hpc)⟩
            | count =>
                exact ⟨_, rfl, hsz, hfit, .quiet h1 h2 h3 h4 (fun h => by cases h) (fun _ => ⟨h5 hc, rfl⟩) (fun h => by cases h)
                  fun _ => h8 (.inr hpc)⟩
            | arm =>
                exact ⟨_, rfl, hsz, hfit, .quiet h1 h2 h3 h4 (fun h => by cases h) (fun h => by cases h) (fun _ _ => h6 hc)
                  fun _ => h8 (.inr hpc)⟩
        | come _ _ _ _ _ h | read _ _ _ _ h | flag _ _ _ _ h | told _ _ _ _ h => exact absurd h hpc
  | drop n =>
      refine ⟨_, rfl, hsz, (by dsimp only; omega), ?_⟩
      cases hph with
      | quiet h1 h2 h3 h4 h5 h6 h7 h8 => exact .quiet h1 h2 h3 h4 h5 h6 h7 fun h => by have := h8 h; dsimp only; omega
      | come bs h1 h2 h3 h4 h5 h6 h7 h8 h9 h10 => exact .come bs h1 h2 h3 h4 h5 h6 h7 h8 h9 (by dsimp only; omega)
      | read h1 h2 h3 h4 h5 h6 h7 h8 => exact .read h1 h2 h3 h4 h5 h6 h7 (by dsimp only; omega)
      | flag h1 h2 h3 h4 h5 h6 h7 h8 => exact .flag h1 h2 h3 h4 h5 h6 h7 (by dsimp only; omega)
      | told h1 h2 h3 h4 h5 h6 h7 h8 => exact .told h1 h2 h3 h4 h5 h6 h7 (by dsimp only; omega)

theorem usbRx_waiting {s : UsbRx} (h : UsbRxInv s) : s.accepted = s.stored ++ s.waiting := by
  obtain ⟨-, -, hph⟩ := h
  unfold UsbRx.waiting
  cases hph with
  | quiet h1 h2 h3 h4 => simp [h1, h2, h3, h4]
  | come bs h1 h2 h3 h4 h5 h6 h7 h8 h9 => simp [h1, h2, h3, h9]
  | read h1 h2 h3 h4 h5 h6 h7 => simp [h1, h2, h3, h7]
  | flag h1 h2 h3 h4 h5 h6 h7 => simp [h1, h2, h3, h7]
  | told h1 h2 h3 h4 h5 h6 h7 => simp [h1, h2, h3, h7]

theorem usbRx_boot : UsbRxInv .boot :=
  ⟨List.length_replicate, Nat.zero_le _, .quiet rfl rfl rfl rfl (fun h => by cases h) (fun h => by cases h) (fun _ h => by cases h)
    fun h => by rcases h with h | h <;> [cases h; exact absurd rfl h]⟩

end Verif
