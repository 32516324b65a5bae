/-
Lemmas for C96: the phases of a transfer to the host.
-/
import Verif.Spec.UsbPackets
import Mathlib.Tactic.Linarith

namespace Verif

theorem usbPackets_short {m : List Byte} (h : m.length < 64) : usbPackets m = [m] := by
  rw [usbPackets, if_pos h]

theorem usbPackets_long {m : List Byte} (h : ¬ m.length < 64) : usbPackets m = m.take 64 :: usbPackets (m.drop 64) := by
  rw [usbPackets, if_neg h]

theorem usbPackets_pos (m : List Byte) : 0 < (usbPackets m).length := by
  rw [usbPackets]; split <;> simp

theorem padWords_length (l : List Byte) : (padWords l).length = (l.length + 3) / 4 * 4 := by
  unfold padWords
  rw [List.length_append, List.length_replicate]
  omega

theorem padWords_exact {l : List Byte} (h : l.length % 4 = 0) : padWords l = l := by
  unfold padWords
  rw [show (l.length + 3) / 4 * 4 - l.length = 0 by omega]
  simp

theorem padWords_append {a b : List Byte} (h : a.length % 4 = 0) : padWords a ++ padWords b = padWords (a ++ b) := by
  rw [padWords_exact h]
  unfold padWords
  rw [List.append_assoc, List.length_append]
  rw [show (a.length + b.length + 3) / 4 * 4 - (a.length + b.length) = (b.length + 3) / 4 * 4 - b.length by omega]

theorem padWords_take (l : List Byte) : (padWords l).take l.length = l := by
  unfold padWords
  rw [List.take_append_of_le_length le_rfl, List.take_length]

/-- The host has selected the configuration. -/
structure UsbReady (s : UsbTx) : Prop where
  setUp : s.setUp = true
  active : s.active = true
  inten : s.inten = true
  config : s.config = true
  st : s.st ≠ .attached

/-- Where the sending is.  `due`: what the host should have got when all messages are through. -/
inductive UsbPhase (s : UsbTx) (due : List (List Byte)) : Prop
  /-- the configuration has never been selected -/
  | unplugged (h1 : s.setUp = false) (h2 : s.inten = false) (h3 : s.active = false) (h4 : s.config = false) (h5 : s.host = [])
      (h6 : s.fifo = []) (h7 : s.feint = false) (h8 : s.epen = false) (h9 : s.tf = false) (h10 : s.pending = s.waiting)
      (h11 : s.waiting = false → due = [])
  /-- no transfer -/
  | idle (hr : UsbReady s) (h1 : s.pending = false) (h2 : s.epen = false) (h3 : s.tf = false) (h4 : s.fifo = [])
      (h5 : s.feint = false) (h6 : s.host = due)
  /-- the bytes `r` are still to come, the first `f` of them are in the FIFO -/
  | data (r : List Byte) (f : Nat) (hr : UsbReady s) (h1 : s.pending = true) (h2 : s.waiting = true) (h3 : s.epen = true)
      (h4 : s.tf = false) (h5 : r ≠ []) (h6 : f ≤ r.length) (h7 : f = r.length ∨ f % 64 = 0) (h8 : s.fifo = padWords (r.take f))
      (h9 : s.src = r.drop f) (h10 : s.tlen = r.length) (h11 : s.pcnt = (r.length - 1 + 64) / 64)
      (h12 : s.len = s.count + (r.length - f)) (h13 : s.len % 64 = r.length % 64) (h14 : s.len ≠ 0)
      (h15 : s.feint = decide (f ≠ r.length)) (h16 : s.host ++ usbPackets r = due) (h17 : s.fifo.length ≤ 256)
  /-- the last packet of a transfer is through, and the interrupt has not been handled -/
  | sent (hr : UsbReady s) (h1 : s.pending = true) (h2 : s.waiting = true) (h3 : s.epen = false) (h4 : s.tf = true)
      (h5 : s.st = .configured) (h6 : s.fifo = []) (h7 : s.feint = false)
      (h8 : s.host ++ (if s.len % 64 = 0 ∧ s.len ≠ 0 then [[]] else []) = due)
  /-- the empty packet is still to come -/
  | zero (hr : UsbReady s) (h1 : s.pending = true) (h2 : s.waiting = true) (h3 : s.epen = true) (h4 : s.tf = false)
      (h5 : s.pcnt = 1) (h6 : s.tlen = 0) (h7 : s.len = 0) (h8 : s.fifo = []) (h9 : s.feint = false) (h10 : s.host ++ [[]] = due)

/-- The FIFO is filled: the phase stays, and if there was room something is in the FIFO. -/
theorem fill_data {due : List (List Byte)} (fuel : Nat) : ∀ (w : Nat) (s : UsbTx) (r : List Byte) (f : Nat),
    UsbReady s → s.pending = true → s.waiting = true → s.epen = true → s.tf = false → r ≠ [] → f ≤ r.length →
    (f = r.length ∨ f % 64 = 0) → s.fifo = padWords (r.take f) → s.src = r.drop f → s.tlen = r.length →
    s.pcnt = (r.length - 1 + 64) / 64 → s.len = s.count + (r.length - f) → s.len % 64 = r.length % 64 → s.len ≠ 0 →
    s.feint = decide (f ≠ r.length) → s.host ++ usbPackets r = due → s.fifo.length ≤ 256 →
    (min (s.len - s.count) 64 + 3) / 4 ≤ w →
    ∃ f', f ≤ f' ∧ (f = 0 → w ≤ 64 → 0 < fuel → 0 < f') ∧ (s.fill fuel w).host = s.host ∧ (s.fill fuel w).st = s.st ∧
      UsbReady (s.fill fuel w) ∧ (s.fill fuel w).pending = true ∧ (s.fill fuel w).waiting = true ∧ (s.fill fuel w).epen = true ∧
      (s.fill fuel w).tf = false ∧ f' ≤ r.length ∧ (f' = r.length ∨ f' % 64 = 0) ∧ (s.fill fuel w).fifo = padWords (r.take f') ∧
      (s.fill fuel w).src = r.drop f' ∧ (s.fill fuel w).tlen = r.length ∧ (s.fill fuel w).pcnt = (r.length - 1 + 64) / 64 ∧
      (s.fill fuel w).len = (s.fill fuel w).count + (r.length - f') ∧ (s.fill fuel w).len % 64 = r.length % 64 ∧
      (s.fill fuel w).len ≠ 0 ∧ (s.fill fuel w).feint = decide (f' ≠ r.length) ∧ (s.fill fuel w).fifo.length ≤ 256 := by
  induction fuel with
  | zero =>
      intro w s r f hr h1 h2 h3 h4 h5 h6 h7 h8 h9 h10 h11 h12 h13 h14 h15 h16 h17 hw
      exact ⟨f, le_refl _, fun _ _ h => absurd h (lt_irrefl _), rfl, rfl, hr, h1, h2, h3, h4, h6, h7, h8, h9, h10, h11, h12, h13, h14,
        h15, h17⟩
  | succ fuel ih =>
      intro w s r f hr h1 h2 h3 h4 h5 h6 h7 h8 h9 h10 h11 h12 h13 h14 h15 h16 h17 hw
      have hrl : 0 < r.length := List.length_pos_iff.mpr h5
      rw [UsbTx.fill]
      by_cases hc : w ≤ usbFifoWords - s.fifo.length / 4 ∧ s.count < s.len
      · rw [if_pos hc]
        obtain ⟨hc1, hc2⟩ := hc
        have hf64 : f % 64 = 0 := by rcases h7 with h | h <;> omega
        have hfl : (r.take f).length = f := by rw [List.length_take]; omega
        have hfifo : s.fifo.length = f := by rw [h8, padWords_length, hfl]; omega
        have hpk : usbPacket = 64 := rfl
        have hfw : usbFifoWords = 64 := rfl
        rw [hpk]
        rw [hfw] at hc1
        generalize hn : min (s.len - s.count) 64 = n at *
        have hnr : n = min (r.length - f) 64 := by omega
        have hn0 : 0 < n := by omega
        simp only
        obtain ⟨f', g1, g2, g3, g4, g5⟩ := ih ((n + 3) / 4)
          { s with fifo := s.fifo ++ padWords (s.src.take n), src := s.src.drop n, count := s.count + n, feint := s.feint && decide (s.count + n ≠ s.len) }
          r (f + n) ⟨hr.1, hr.2, hr.3, hr.4, hr.5⟩ h1 h2 h3 h4 h5 (by omega) (by omega)
          (by
            show s.fifo ++ padWords (s.src.take n) = _
            rw [h8, h9, padWords_append (by rw [hfl]; omega), List.take_add])
          (by show s.src.drop n = _; rw [h9, List.drop_drop])
          h10 h11 (by show s.len = s.count + n + _; omega) h13 h14
          (by
            show (s.feint && decide (s.count + n ≠ s.len)) = _
            rw [h15, ← Bool.decide_and]
            congr 1
            apply propext
            constructor
            · rintro ⟨-, h⟩; omega
            · intro h; constructor <;> omega)
          h16
          (by
            show (s.fifo ++ padWords (s.src.take n)).length ≤ 256
            rw [List.length_append, padWords_length, List.length_take, h9, List.length_drop, hfifo]
            omega)
          (by show (min (s.len - (s.count + n)) 64 + 3) / 4 ≤ _; omega)
        exact ⟨f', by omega, fun _ _ _ => by omega, g3, g4, g5⟩
      · rw [if_neg hc]
        refine ⟨f, le_refl _, fun h0 hw64 _ => ?_, rfl, rfl, hr, h1, h2, h3, h4, h6, h7, h8, h9, h10, h11, h12, h13, h14, h15, h17⟩
        exfalso
        apply hc
        rw [h8, h0]
        simp only [List.take_zero]
        refine ⟨?_, by omega⟩
        show w ≤ 64 - (padWords []).length / 4
        rw [padWords_length]
        exact hw64

/-- What a token brings. -/
theorem token_phase {s : UsbTx} {due : List (List Byte)} (h : UsbPhase s due) :
    UsbPhase s.token due ∧ s.host.length ≤ s.token.host.length := by
  cases h with
  | unplugged h1 h2 h3 h4 h5 h6 h7 h8 h9 h10 h11 =>
      have e : s.token = s := by unfold UsbTx.token; rw [if_neg (by rw [h3]; simp)]
      rw [e]
      exact ⟨.unplugged h1 h2 h3 h4 h5 h6 h7 h8 h9 h10 h11, le_refl _⟩
  | idle hr h1 h2 h3 h4 h5 h6 =>
      have e : s.token = s := by unfold UsbTx.token; rw [if_neg (by rw [h2]; simp)]
      rw [e]
      exact ⟨.idle hr h1 h2 h3 h4 h5 h6, le_refl _⟩
  | sent hr h1 h2 h3 h4 h5 h6 h7 h8 =>
      have e : s.token = s := by unfold UsbTx.token; rw [if_neg (by rw [h3]; simp)]
      rw [e]
      exact ⟨.sent hr h1 h2 h3 h4 h5 h6 h7 h8, le_refl _⟩
  | zero hr h1 h2 h3 h4 h5 h6 h7 h8 h9 h10 =>
      unfold UsbTx.token
      simp only [h6, h5, h8, h4, h3]
      by_cases hs : s.st = .suspended
      · rw [if_neg (by rw [hs]; simp)]
        exact ⟨.zero hr h1 h2 h3 h4 h5 h6 h7 h8 h9 h10, le_refl _⟩
      · rw [if_pos (by simp [hs, hr.active])]
        refine ⟨.sent ⟨hr.1, hr.2, hr.3, hr.4, hr.5⟩ h1 h2 (by simp) (by simp) ?_ (by simp) h9 ?_, by simp⟩
        · have := hr.st
          show s.st = _
          revert this hs
          cases s.st <;> simp
        · simp [h7, ← h10]
  | data r f hr h1 h2 h3 h4 h5 h6 h7 h8 h9 h10 h11 h12 h13 h14 h15 h16 h17 =>
      have hrl : 0 < r.length := List.length_pos_iff.mpr h5
      have hfl : (r.take f).length = f := by rw [List.length_take]; omega
      have hpl : s.fifo.length = (f + 3) / 4 * 4 := by rw [h8, padWords_length, hfl]
      unfold UsbTx.token
      simp only
      by_cases hc : s.st ≠ .suspended ∧ s.active ∧ s.epen ∧ 0 < s.pcnt ∧ (min s.tlen usbPacket + 3) / 4 * 4 ≤ s.fifo.length
      · rw [if_pos hc]
        obtain ⟨hc1, -, -, -, hc5⟩ := hc
        have hpk : usbPacket = 64 := rfl
        rw [hpk, h10] at hc5
        rw [hpk, h10]
        have hst : s.st = .configured := by
          have := hr.st
          revert this hc1
          cases s.st <;> simp
        refine ⟨?_, by simp⟩
        by_cases hlong : 64 < r.length
        · -- a full packet, and more to come
          have hm : min r.length 64 = 64 := by omega
          rw [hm, hpl] at hc5
          rw [hm]
          have hf : 64 ≤ f := by omega
          have hdr : (r.drop 64).length = r.length - 64 := List.length_drop
          have hne : s.pcnt ≠ 1 := by rw [h11]; omega
          have hsplit : padWords (r.take f) = r.take 64 ++ padWords ((r.drop 64).take (f - 64)) := by
            have e1 : r.take f = r.take 64 ++ (r.drop 64).take (f - 64) := by
              rw [← List.take_add]; congr 1; omega
            have e2 : (r.take 64).length = 64 := by rw [List.length_take]; omega
            rw [e1, ← padWords_append (by rw [e2]), padWords_exact (l := r.take 64) (by rw [e2])]
          have e2 : (r.take 64).length = 64 := by rw [List.length_take]; omega
          refine .data (r.drop 64) (f - 64) ⟨hr.1, hr.2, hr.3, hr.4, hr.5⟩ h1 h2 (by simp [hne]) (by simp [hne, h4])
            (by intro h; rw [h] at hdr; simp at hdr; omega) (by omega) (by omega) ?_ ?_ (by show r.length - 64 = _; rw [hdr])
            (by show s.pcnt - 1 = _; rw [h11, hdr]; omega) (by show s.len = s.count + _; omega) (by show s.len % 64 = _; omega) h14
            (by
              show s.feint = _
              rw [h15]
              congr 1
              apply propext
              omega) ?_ ?_
          · show s.fifo.drop ((64 + 3) / 4 * 4) = _
            rw [h8, hsplit, List.drop_append_of_le_length (by rw [e2])]
            rw [List.drop_of_length_le (by rw [e2])]
            rfl
          · show s.src = _
            rw [h9, List.drop_drop]; congr 1; omega
          · show s.host ++ [s.fifo.take 64] ++ _ = due
            rw [← h16, usbPackets_long (m := r) (by omega), h8, hsplit, List.take_append_of_le_length (by rw [e2]),
              List.take_of_length_le (by rw [e2])]
            simp
          · show (s.fifo.drop _).length ≤ 256
            rw [List.length_drop]; omega
        · -- the last packet
          have hm : min r.length 64 = r.length := by omega
          rw [hm, hpl] at hc5
          rw [hm]
          have hf : f = r.length := by omega
          have hp1 : s.pcnt = 1 := by rw [h11]; omega
          refine .sent ⟨hr.1, hr.2, hr.3, hr.4, hr.5⟩ h1 h2 (by simp [hp1]) (by simp [hp1]) hst ?_ (by show s.feint = false; rw [h15]; simp [hf]) ?_
          · show s.fifo.drop _ = []
            rw [List.drop_eq_nil_iff, hpl]; omega
          · show s.host ++ [s.fifo.take r.length] ++ _ = due
            rw [h8, hf, List.take_length, padWords_take, ← h16]
            by_cases h64 : r.length = 64
            · rw [if_pos ⟨by show s.len % 64 = 0; omega, h14⟩, usbPackets_long (by omega),
                show r.drop 64 = [] from List.drop_of_length_le (by omega), usbPackets_short (by simp),
                show r.take 64 = r from List.take_of_length_le (by omega)]
              simp
            · rw [if_neg (by rintro ⟨h, -⟩; have : s.len % 64 = 0 := h; omega), usbPackets_short (by omega)]
              simp
      · rw [if_neg hc]
        exact ⟨.data r f hr h1 h2 h3 h4 h5 h6 h7 h8 h9 h10 h11 h12 h13 h14 h15 h16 h17, le_refl _⟩

/-- The next token brings a packet. -/
def UsbLoaded (s : UsbTx) : Prop := s.epen = true ∧ s.fifo.length ≥ (min s.tlen 64 + 3) / 4 * 4

/-- What the interrupt brings. -/
theorem epin_phase {s : UsbTx} {due : List (List Byte)} (h : UsbPhase s due) (fe : Bool) :
    UsbPhase (s.epin fe) due ∧ (s.epin fe).host = s.host ∧ (s.epin fe).st = s.st ∧ (s.epin fe).tf = false ∧
      (UsbLoaded s → UsbLoaded (s.epin fe)) ∧
      (fe = true → s.setUp = true → UsbLoaded (s.epin fe) ∨ (s.epin fe).pending = false) := by
  cases h with
  | unplugged h1 h2 h3 h4 h5 h6 h7 h8 h9 h10 h11 =>
      have e : s.epin fe = s := by unfold UsbTx.epin; rw [if_neg (by rw [h2]; simp)]
      rw [e]
      exact ⟨.unplugged h1 h2 h3 h4 h5 h6 h7 h8 h9 h10 h11, rfl, rfl, h9, id, fun _ h => by rw [h1] at h; cases h⟩
  | idle hr h1 h2 h3 h4 h5 h6 =>
      have e : s.epin fe = s := by unfold UsbTx.epin; simp [hr.inten, h3, h5]
      rw [e]
      exact ⟨.idle hr h1 h2 h3 h4 h5 h6, rfl, rfl, h3, id, fun _ _ => Or.inr h1⟩
  | zero hr h1 h2 h3 h4 h5 h6 h7 h8 h9 h10 =>
      have e : s.epin fe = s := by unfold UsbTx.epin; simp [hr.inten, h4, h9]
      rw [e]
      exact ⟨.zero hr h1 h2 h3 h4 h5 h6 h7 h8 h9 h10, rfl, rfl, h4, id,
        fun _ _ => Or.inl ⟨h3, by rw [h6]; simp⟩⟩
  | sent hr h1 h2 h3 h4 h5 h6 h7 h8 =>
      have e : s.epin fe = { s with tf := false }.acmIn := by unfold UsbTx.epin; simp [hr.inten, h4, h5, h7]
      rw [e]
      unfold UsbTx.acmIn
      have hpk : usbPacket = 64 := rfl
      rw [hpk]
      by_cases hc : s.len % 64 = 0 ∧ s.len ≠ 0
      · rw [if_pos hc] at h8
        rw [if_pos (show ({ s with tf := false } : UsbTx).len % 64 = 0 ∧ ({ s with tf := false } : UsbTx).len ≠ 0 from hc)]
        unfold UsbTx.send
        rw [if_pos (show ({ s with tf := false } : UsbTx).setUp = true from hr.setUp)]
        refine ⟨.zero ⟨hr.1, hr.2, hr.3, hr.4, hr.5⟩ h1 h2 rfl rfl rfl rfl rfl h6 (by simp [h7]) h8, rfl, rfl, rfl, fun _ => ?_, fun _ _ => Or.inl ?_⟩
        · exact ⟨rfl, by simp⟩
        · exact ⟨rfl, by simp⟩
      · rw [if_neg hc] at h8
        rw [if_neg (show ¬ (({ s with tf := false } : UsbTx).len % 64 = 0 ∧ ({ s with tf := false } : UsbTx).len ≠ 0) from hc)]
        refine ⟨.idle ⟨hr.1, hr.2, hr.3, hr.4, hr.5⟩ rfl h3 rfl h6 h7 (by simpa using h8), rfl, rfl, rfl, fun h => ?_, fun _ _ => Or.inr rfl⟩
        have := h.1
        rw [h3] at this
        cases this
  | data r f hr h1 h2 h3 h4 h5 h6 h7 h8 h9 h10 h11 h12 h13 h14 h15 h16 h17 =>
      have hrl : 0 < r.length := List.length_pos_iff.mpr h5
      have loaded : ∀ (t : UsbTx) (g : Nat), t.epen = true → t.tlen = r.length → t.fifo = padWords (r.take g) → g ≤ r.length →
          (g = r.length ∨ g % 64 = 0) → 0 < g → UsbLoaded t := by
        intro t g k1 k2 k3 k4 k5 k6
        refine ⟨k1, ?_⟩
        rw [k2, k3, padWords_length, List.length_take]
        omega
      have hlf : UsbLoaded s → 0 < f := by
        rintro ⟨-, hl⟩
        rw [h10, h8, padWords_length, List.length_take] at hl
        omega
      by_cases hfe : (fe && s.feint) = true
      · have e : s.epin fe = s.emptyFifo := by unfold UsbTx.epin; simp only [hr.inten, h4, hfe]; rfl
        have hpk : usbPacket = 64 := rfl
        rw [e]
        unfold UsbTx.emptyFifo
        rw [hpk]
        obtain ⟨f', g1, g2, g3, g4, g5, g6, g7, g8, g9, g10, g11, g12, g13, g14, g15, g16, g17, g18, g19, g20⟩ :=
          fill_data (due := due) s.len ((min (s.len - s.count) 64 + 3) / 4) s r f hr h1 h2 h3 h4 h5 h6 h7 h8 h9 h10 h11 h12 h13 h14
            h15 h16 h17 (le_refl _)
        refine ⟨.data r f' g5 g6 g7 g8 g9 h5 g10 g11 g12 g13 g14 g15 g16 g17 g18 g19 (by rw [g3]; exact h16) g20, g3, g4, g9,
          fun hl => loaded _ f' g8 g14 g12 g10 g11 (by have := hlf hl; omega), fun _ _ => Or.inl ?_⟩
        refine loaded _ f' g8 g14 g12 g10 g11 ?_
        by_cases h0 : f = 0
        · exact g2 h0 (by omega) (by omega)
        · omega
      · have e : s.epin fe = s := by unfold UsbTx.epin; simp only [hr.inten, h4, hfe]; rfl
        rw [e]
        refine ⟨.data r f hr h1 h2 h3 h4 h5 h6 h7 h8 h9 h10 h11 h12 h13 h14 h15 h16 h17, rfl, rfl, h4, id, fun h _ => Or.inl ?_⟩
        refine loaded s f h3 h10 h8 h6 h7 ?_
        have : s.feint = false := by
          rw [h] at hfe
          simpa using hfe
        rw [h15] at this
        have : f = r.length := by simpa using this
        omega

end Verif
