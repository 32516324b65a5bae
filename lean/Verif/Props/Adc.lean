/-
C55: each ADC channel's reading lands in its own slot.
-/
import Verif.Spec.Adc
import Verif.Proofs.Fl
import Mathlib.Tactic.IntervalCases

namespace Verif

open Fl FloatFmt

/-- How many frames after the command its result is read. -/
def adcLag : AdcChip → Nat
  | .max11632 => 0
  | _ => 1

/-- A slow pin's position, and the frame whose command selected the pin. -/
theorem pin_frame (c : AdcChip) : ∀ p ∈ slowPins c,
    ∃ q : Fin (numSpiTx c), pinPosition c (p : Nat) = some ((q : Nat) : Int) ∧
      (q : Nat) + (1 - adcLag c) < numSpiTx c ∧
      adcSelects c ((adcSequence c).getD ((q + numSpiTx c - adcLag c) % numSpiTx c) 0) = some p := by
  cases c <;> decide +kernel

theorem tlv_bits (w : BitVec 12) : (w.setWidth 16 <<< 4) >>> 4 = w.setWidth 16 := by
  apply BitVec.eq_of_getLsbD_eq
  intro i hi
  interval_cases i <;> simp

theorem ad_bits (w : BitVec 12) : w.setWidth 16 &&& 0xFFF#16 = w.setWidth 16 := by
  apply BitVec.eq_of_getLsbD_eq
  intro i hi
  interval_cases i <;> simp

theorem max_bits (w : BitVec 12) (x y : BitVec 16) :
    ((((x <<< 8) ||| (w.setWidth 16 >>> 8)) &&& 0x0F#16) <<< 8) |||
      (((w.setWidth 16 <<< 8) ||| (y >>> 8)) >>> 8) = (w.setWidth 16 : BitVec 16) := by
  apply BitVec.eq_of_getLsbD_eq
  intro i hi
  interval_cases i <;> simp

/-- Only pins 0 to 15 have a position. -/
theorem pinPosition_range (c : AdcChip) (pin : Int) (h : ¬ (0 ≤ pin ∧ pin < 16)) : pinPosition c pin = none := by
  have h2 : ∀ k : Int, 0 ≤ k → k < 16 → pin ≠ k := fun k h0 h1 e => h (by omega)
  cases c <;> simp [pinPosition, h2]

/-- Positions are inside the buffer; on the MAX11632, so is the word after. -/
theorem pinPosition_bound (c : AdcChip) (pin p : Int) (h : pinPosition c pin = some p) :
    0 ≤ p ∧ p < numSpiTx c ∧ (c = .max11632 → p + 1 < numSpiTx c) := by
  have key : ∀ k : Fin 16, ∀ p ∈ pinPosition c (k : Nat),
      0 ≤ p ∧ p < numSpiTx c ∧ (c = .max11632 → p + 1 < numSpiTx c) := by
    cases c <;> decide +kernel
  by_cases hr : 0 ≤ pin ∧ pin < 16
  · obtain ⟨n, rfl⟩ : ∃ n : Nat, pin = n := ⟨pin.toNat, by omega⟩
    exact key ⟨n, by omega⟩ p h
  · rw [pinPosition_range c pin hr] at h
    cases h

/-- C55.  For each chip, every slow pin `p`, every history of what the chip measures and every buffer received: the value read
for `p` is what the chip measured on input `p`, in a frame of this round of the sequence (or, for the TLV2553's self test, in
the last frame of the round before). -/
theorem C55_reading (c : AdcChip) (ana : Nat → Nat → BitVec 12) (r : Nat) (hr : 1 ≤ r) (p : Nat) (hp : p ∈ slowPins c) :
    ∃ i, r * numSpiTx c ≤ i + 1 ∧ i < (r + 1) * numSpiTx c ∧ adcSelects c (adcCommand c i) = some p ∧
      readAdcPin c (adcBuffer c ana r) p = .ok ((ana i p).setWidth 16) := by
  obtain ⟨q, h1, h2, h3⟩ := pin_frame c p hp
  have hq := q.isLt
  have hlag : adcLag c ≤ 1 := by cases c <;> decide
  have hn : 0 < numSpiTx c := by omega
  have hrn : numSpiTx c ≤ r * numSpiTx c := Nat.le_mul_of_pos_left _ hr
  have hr1 : (r + 1) * numSpiTx c = r * numSpiTx c + numSpiTx c := by ring
  have hmod : (r * numSpiTx c + q - adcLag c) % numSpiTx c = (q + numSpiTx c - adcLag c) % numSpiTx c := by
    obtain ⟨k, rfl⟩ : ∃ k, r = k + 1 := ⟨r - 1, by omega⟩
    rw [show (k + 1) * numSpiTx c + q - adcLag c = (q + numSpiTx c - adcLag c) + numSpiTx c * k by
      rw [Nat.mul_comm (numSpiTx c) k, Nat.add_mul]; omega, Nat.add_mul_mod_self_left]
  have hsel : adcSelects c (adcCommand c (r * numSpiTx c + q - adcLag c)) = some p := by
    unfold adcCommand; rw [hmod]; exact h3
  refine ⟨r * numSpiTx c + q - adcLag c, by omega, by omega, hsel, ?_⟩
  unfold readAdcPin
  rw [h1]
  simp only
  unfold readRaw
  rw [rd_ok _ _ hq]
  cases c with
  | tlv2553 =>
      simp only [except_bind_ok, except_pure]
      unfold adcBuffer adcAnswer
      simp only [adcLag] at hsel ⊢
      rw [hsel]
      simp only
      rw [tlv_bits]
  | ad7888 =>
      simp only [except_bind_ok, except_pure]
      unfold adcBuffer adcAnswer
      simp only [adcLag] at hsel ⊢
      rw [hsel]
      simp only
      rw [ad_bits]
  | max11632 =>
      simp only [adcLag, Nat.sub_zero] at hsel h2 ⊢
      simp only [except_bind_ok, except_pure]
      rw [show ((q : Nat) : Int) + 1 = ((q + 1 : Nat) : Int) by push_cast; rfl, rd_ok _ _ h2]
      simp only [except_bind_ok]
      unfold adcBuffer adcAnswer
      simp only
      rw [show r * numSpiTx .max11632 + (q + 1) - 1 = r * numSpiTx .max11632 + q by omega,
        show r * numSpiTx .max11632 + q - 1 + 1 = r * numSpiTx .max11632 + q by omega, hsel]
      simp only
      rw [max_bits]

/-- C55: whatever was received and whatever the pin, reading it stays inside the buffer and gives a 12-bit value. -/
theorem C55_total (c : AdcChip) (values : Fin (numSpiTx c) → BitVec 16) (pin : Int) :
    ∃ w, readAdcPin c values pin = .ok w ∧ w.toNat < 4096 := by
  unfold readAdcPin
  cases hpos : pinPosition c pin with
  | none => exact ⟨0, rfl, by decide⟩
  | some p =>
      simp only
      have hb := pinPosition_bound c pin p hpos
      unfold readRaw
      obtain ⟨n, rfl⟩ : ∃ n : Nat, p = n := ⟨p.toNat, by omega⟩
      rw [rd_ok _ _ (show n < numSpiTx c by omega)]
      cases c with
      | tlv2553 =>
          refine ⟨_, rfl, ?_⟩
          rw [BitVec.toNat_ushiftRight, Nat.shiftRight_eq_div_pow]
          omega
      | ad7888 =>
          refine ⟨_, rfl, ?_⟩
          rw [BitVec.toNat_and]
          exact Nat.lt_of_le_of_lt Nat.and_le_right (by decide)
      | max11632 =>
          simp only [except_bind_ok]
          rw [show (n : Int) + 1 = ((n + 1 : Nat) : Int) by push_cast; rfl,
            rd_ok _ _ (show n + 1 < numSpiTx .max11632 by have := hb.2.2 rfl; omega)]
          refine ⟨_, rfl, ?_⟩
          rw [BitVec.toNat_or]
          refine Nat.or_lt_two_pow (n := 12) ?_ ?_
          · rw [BitVec.toNat_shiftLeft, BitVec.toNat_and, Nat.shiftLeft_eq]
            have : (values ⟨n, by have := hb.2.2 rfl; omega⟩).toNat &&& (0x0F#16).toNat ≤ 15 := Nat.and_le_right
            refine Nat.lt_of_le_of_lt (Nat.mod_le _ _) ?_
            omega
          · rw [BitVec.toNat_ushiftRight, Nat.shiftRight_eq_div_pow]
            omega

/-- C55: a pin that is not a slow input reads as zero. -/
theorem C55_other_pins (c : AdcChip) (values : Fin (numSpiTx c) → BitVec 16) (pin : Int)
    (h : ∀ p ∈ slowPins c, pin ≠ (p : Nat)) : readAdcPin c values pin = .ok 0 := by
  unfold readAdcPin
  have : pinPosition c pin = none := by
    cases c <;> simp only [slowPins, List.mem_cons, List.not_mem_nil, or_false, forall_eq_or_imp, forall_eq] at h <;>
      simp only [pinPosition] <;> simp_all
  rw [this]

section
variable [FloatFmt]

/-- The voltage is exact: 5 V is full scale. -/
theorem C55_volts (v : BitVec 16) (h : v.toNat < 4096) : adcVolts v = .fin (5 * (v.toNat : ℚ) / 4096) := by
  unfold adcVolts Fl.ofU32
  have e : (5 * v.setWidth 32 : BitVec 32).toNat = 5 * v.toNat := by
    rw [BitVec.toNat_mul, BitVec.toNat_setWidth]
    simp
    omega
  rw [e]
  have h1 : rnd ((5 * v.toNat : Nat) : ℚ) = .fin ((5 * v.toNat : Nat) : ℚ) := rnd_nat _ (by omega)
  rw [h1, fin_div _ _ (by norm_num)]
  have h2 := FloatFmt.rnd_dyadic ((5 * v.toNat : Nat) : Int) (-12) (by simp; omega) (by norm_num)
  have e2 : ((5 * v.toNat : Nat) : ℚ) / 4096 = (((5 * v.toNat : Nat) : Int) : ℚ) * 2 ^ (-12 : Int) := by
    push_cast; norm_num; ring
  rw [e2, h2]
  congr 1
  push_cast; norm_num; ring

omit [FloatFmt] in
/-- The buffer is believed only when the self test of the TLV2553, input 11 (half of full scale), is within ten counts. -/
theorem C55_valid_tlv2553 (ana : Nat → Nat → BitVec 12) (r : Nat) (hr : 1 ≤ r) :
    ∃ i, adcSelects .tlv2553 (adcCommand .tlv2553 i) = some 11 ∧ r * 30 ≤ i + 1 ∧ i < (r + 1) * 30 ∧
      adcResponseValid .tlv2553 (adcBuffer .tlv2553 ana r) =
        .ok (decide (2038 ≤ (ana i 11).toNat ∧ (ana i 11).toNat ≤ 2058)) := by
  obtain ⟨i, h1, h2, h3, h4⟩ := C55_reading .tlv2553 ana r hr 11 (by decide)
  refine ⟨i, h3, h1, h2, ?_⟩
  unfold adcResponseValid
  simp only
  rw [show ((11 : Int)) = ((11 : Nat) : Int) from rfl, h4]
  simp only [except_bind_ok, except_pure]
  have hw : ((ana i 11).setWidth 16 : BitVec 16).toNat = (ana i 11).toNat := by
    rw [BitVec.toNat_setWidth]; have := (ana i 11).isLt; omega
  rw [hw]
  congr 1
  by_cases ha : (ana i 11).toNat < 2048 - 10
  · simp only [ha, decide_true, Bool.true_or, Bool.not_true]
    symm; rw [decide_eq_false_iff_not]; omega
  · by_cases hb : (ana i 11).toNat > 2048 + 10
    · simp only [hb, decide_true, Bool.or_true, Bool.not_true]
      symm; rw [decide_eq_false_iff_not]; omega
    · simp only [ha, hb, decide_false, Bool.or_false, Bool.not_false]
      symm; rw [decide_eq_true_iff]; omega

omit [FloatFmt] in
/-- The loop of the handler fills one slot after another. -/
theorem fillSlots {n : Nat} (get : Fin n → Except Fault Fl) (g : Fin n → Fl) (hg : ∀ i, get i = .ok (g i)) :
    ∀ (l : List (Fin n)) (vs : Fin n → Fl),
      l.foldlM (fun (vs : Fin n → Fl) (i : Fin n) => (do
        let v ← get i
        .ok fun j => if j = i then v else vs j : Except Fault _)) vs = (.ok fun j => if j ∈ l then g j else vs j : Except Fault _) := by
  intro l
  induction l with
  | nil => intro vs; simp [except_pure]
  | cons a l ih =>
      intro vs
      rw [List.foldlM_cons, hg]
      simp only [except_bind_ok, except_pure]
      rw [ih]
      congr 1
      funext j
      by_cases h1 : j ∈ l
      · simp [h1]
      · by_cases h2 : j = a
        · subst h2; simp [h1]
        · simp [h1, h2]

/-- What the sensors are given: for every slow pin the exact voltage the chip measured on that pin, 5 V being full scale; for all
other pins 0 V. -/
theorem C55_update (c : AdcChip) (ana : Nat → Nat → BitVec 12) (r : Nat) (hr : 1 ≤ r) (now : Time) :
    ∃ u, adcUpdate c (adcBuffer c ana r) now = .ok u ∧ u.time = now ∧
      adcResponseValid c (adcBuffer c ana r) = .ok u.valid ∧
      (∀ p : Fin maxAdcPins, (p : Nat) ∈ slowPins c →
        ∃ i, r * numSpiTx c ≤ i + 1 ∧ i < (r + 1) * numSpiTx c ∧ adcSelects c (adcCommand c i) = some (p : Nat) ∧
          u.values p = .fin (5 * ((ana i p).toNat : ℚ) / 4096)) ∧
      (∀ p : Fin maxAdcPins, (p : Nat) ∉ slowPins c → u.values p = .fin 0) := by
  have ht := fun i : Fin maxAdcPins => C55_total c (adcBuffer c ana r) ((i : Nat) : Int)
  choose w hw hw2 using ht
  obtain ⟨b, hb⟩ : ∃ b, adcResponseValid c (adcBuffer c ana r) = .ok b := by
    cases c with
    | tlv2553 => obtain ⟨i, _, _, _, h⟩ := C55_valid_tlv2553 ana r hr; exact ⟨_, h⟩
    | ad7888 => exact ⟨_, rfl⟩
    | max11632 => exact ⟨_, rfl⟩
  refine ⟨{ time := now, valid := b, values := fun j => adcVolts (w j) }, ?_, rfl, hb, ?_, ?_⟩
  · unfold adcUpdate
    rw [hb]
    simp only [except_bind_ok]
    have := fillSlots (fun i => (do let v ← readAdcPin c (adcBuffer c ana r) ((i : Nat) : Int); return adcVolts v))
      (fun i => adcVolts (w i)) (fun i => by simp only [hw, except_bind_ok, except_pure]) (List.finRange maxAdcPins)
      (fun _ => Fl.fin 0)
    simp only [hw, except_bind_ok, except_pure] at this ⊢
    rw [this]
    simp
  · intro p hp
    obtain ⟨i, h1, h2, h3, h4⟩ := C55_reading c ana r hr p hp
    refine ⟨i, h1, h2, h3, ?_⟩
    have e : w p = (ana i p).setWidth 16 := by
      have := (hw p).symm.trans h4; exact Except.ok.inj this
    show adcVolts (w p) = _
    rw [C55_volts _ (hw2 p), e, BitVec.toNat_setWidth, Nat.mod_eq_of_lt (by have := (ana i p).isLt; omega)]
  · intro p hp
    have h0 := C55_other_pins c (adcBuffer c ana r) ((p : Nat) : Int)
      (fun q hq e => hp (by have : (p : Nat) = q := by exact_mod_cast e
                            rwa [this]))
    have e : w p = 0 := by
      have := (hw p).symm.trans h0; exact Except.ok.inj this
    show adcVolts (w p) = _
    rw [C55_volts _ (hw2 p), e]
    simp

omit [FloatFmt] in
theorem knock_command : ∀ k < 2, ∀ j < 10,
    adcSelects .tlv2553 ((adcSequence .tlv2553).getD (3 * j + k) 0) = some k := by decide +kernel

/-- The knock samples of the TLV2553: ten of each knock input per buffer, in order, each as a fraction of full scale. -/
theorem C55_knock (ana : Nat → Nat → BitVec 12) (r : Nat) (k : Nat) (hk : k < 2) :
    (∀ j, j < 10 → adcSelects .tlv2553 (adcCommand .tlv2553 (r * 30 + 3 * j + k)) = some k) ∧
      knockSamples (adcBuffer .tlv2553 ana r) k =
        .ok ((List.range 10).map fun j => .fin ((ana (r * 30 + 3 * j + k) k).toNat / 4096)) := by
  have hsel : ∀ j, j < 10 → adcSelects .tlv2553 (adcCommand .tlv2553 (r * 30 + 3 * j + k)) = some k := by
    intro j hj
    unfold adcCommand
    rw [show (r * 30 + 3 * j + k) % numSpiTx .tlv2553 = 3 * j + k by
      show _ % 30 = _; omega]
    exact knock_command k hk j hj
  refine ⟨hsel, ?_⟩
  unfold knockSamples
  have hone : ∀ j ∈ List.range 10, (do
      let v ← readRaw .tlv2553 (adcBuffer .tlv2553 ana r) ((j : Int) * 3 + 1 + k)
      return Fl.ofU32 (v.setWidth 32) / Fl.fin 4096 : Except Fault Fl) =
        .ok (.fin ((ana (r * 30 + 3 * j + k) k).toNat / 4096)) := by
    intro j hj
    rw [List.mem_range] at hj
    have hidx : 3 * j + 1 + k < numSpiTx .tlv2553 := by show _ < 30; omega
    unfold readRaw
    rw [show (j : Int) * 3 + 1 + k = ((3 * j + 1 + k : Nat) : Int) by push_cast; ring, rd_ok _ _ hidx]
    simp only [except_bind_ok, except_pure]
    unfold adcBuffer adcAnswer
    simp only
    rw [show r * numSpiTx .tlv2553 + (3 * j + 1 + k) - 1 = r * 30 + 3 * j + k by
      show r * 30 + _ - 1 = _; omega, hsel j hj]
    simp only
    rw [tlv_bits]
    congr 1
    generalize hx : ana (r * 30 + 3 * j + k) k = x
    have hlt := x.isLt
    unfold Fl.ofU32
    rw [show (((x.setWidth 16 : BitVec 16).setWidth 32 : BitVec 32)).toNat = x.toNat by
      rw [BitVec.toNat_setWidth, BitVec.toNat_setWidth]; omega]
    rw [rnd_nat _ (by omega), fin_div _ _ (by norm_num)]
    have h2 := FloatFmt.rnd_dyadic (x.toNat : Int) (-12) (by simp; omega) (by norm_num)
    have e2 : (x.toNat : ℚ) / 4096 = ((x.toNat : Int) : ℚ) * 2 ^ (-12 : Int) := by
      push_cast; norm_num; ring
    rw [e2, h2]
  generalize List.range 10 = l at hone
  induction l with
  | nil => rfl
  | cons a l ih =>
      rw [List.mapM_cons, hone a (by simp), except_bind_ok, ih (fun j hj => hone j (by simp [hj]))]
      rfl

end

/-- Non-vacuity: with input `p` measuring `100 p + (frame number mod 7)`, pin 5 of each chip. -/
example :
    (readAdcPin .tlv2553 (adcBuffer .tlv2553 (fun i p => BitVec.ofNat 12 (100 * p + i % 7)) 3) 5).toOption
      = some (BitVec.ofNat 16 (500 + 101 % 7)) ∧
    (readAdcPin .ad7888 (adcBuffer .ad7888 (fun i p => BitVec.ofNat 12 (100 * p + i % 7)) 3) 5).toOption
      = some (BitVec.ofNat 16 (500 + 32 % 7)) ∧
    (readAdcPin .max11632 (adcBuffer .max11632 (fun i p => BitVec.ofNat 12 (100 * p + i % 7)) 3) 5).toOption
      = some (BitVec.ofNat 16 (500 + 78 % 7)) := by decide +kernel

/-- Non-vacuity: a buffer that is believed, and one that is not. -/
example :
    (adcResponseValid .tlv2553 (adcBuffer .tlv2553 (fun _ p => BitVec.ofNat 12 (if p = 11 then 2050 else 7)) 1)).toOption
      = some true ∧
    (adcResponseValid .tlv2553 (adcBuffer .tlv2553 (fun _ p => BitVec.ofNat 12 (if p = 11 then 2030 else 7)) 1)).toOption
      = some false := by decide +kernel

end Verif
