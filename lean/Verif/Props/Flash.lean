/-
C58: a saved configuration is what is loaded at the next boot.
C64: losing power while saving.
-/
import Verif.Model.Flash
import Mathlib.Tactic.Common
import Mathlib.Tactic.Linarith

namespace Verif

/-- Programming the words of the configuration, at any address. -/
theorem program_run (base n : Nat) (ram : Nat → BitVec 32) (f : Flash) (a : Nat) :
    f.run ((List.range n).map fun i => .program (base + i) (ram i)) a =
      if base ≤ a ∧ a < base + n then f a &&& ram (a - base) else f a := by
  induction n with
  | zero => simp [Flash.run]
  | succ n ih =>
      rw [List.range_succ, List.map_append, Flash.run, List.foldl_append]
      change (Flash.run f _).program (base + n) (ram n) a = _
      unfold Flash.program
      rw [ih]
      by_cases h : a = base + n
      · subst h; simp
      · rw [if_neg h]
        by_cases h2 : base ≤ a ∧ a < base + n
        · rw [if_pos h2, if_pos (by omega)]
        · rw [if_neg h2, if_neg (by omega)]

/-- Erasing consecutive sectors. -/
theorem erase_run (k n : Nat) (f : Flash) (a : Nat) :
    f.run ((List.range n).map fun i => .erase ((1 + i) * k) k) a =
      if k ≤ a ∧ a < (1 + n) * k then BitVec.allOnes 32 else f a := by
  induction n with
  | zero => rw [if_neg (by omega)]; rfl
  | succ n ih =>
      rw [List.range_succ, List.map_append, Flash.run, List.foldl_append]
      change (Flash.run f _).erase ((1 + n) * k) k a = _
      unfold Flash.erase
      rw [ih]
      have e1 : (1 + (n + 1)) * k = (1 + n) * k + k := by ring
      have e2 : k ≤ (1 + n) * k := Nat.le_mul_of_pos_left k (by omega)
      rw [e1]
      generalize (1 + n) * k = x at *
      by_cases h : x ≤ a ∧ a < x + k
      · rw [if_pos h, if_pos (by omega)]
      · rw [if_neg h]
        by_cases h2 : k ≤ a ∧ a < x
        · rw [if_pos h2, if_pos (by omega)]
        · rw [if_neg h2, if_neg (by omega)]

/-- C58 for a target: whatever is in the flash, saving `n` words of configuration that fit in the area set aside for it and
loading them gives them back, and no word outside that area changes. -/
def C58_holds (t : FlashTarget) (n : Nat) : Prop :=
  ∀ (f : Flash) (ram : Nat → BitVec 32),
    (∀ i, i < n → loadConfig t (f.run (saveOps n t ram)) i = ram i) ∧
    ∀ a, ¬ (configRom t ≤ a ∧ a < configRom t + configRomLen t) → f.run (saveOps n t ram) a = f a

theorem C58_gd32 (n : Nat) (hn : n ≤ configRomLen .gd32) : C58_holds .gd32 n := by
  intro f ram
  have h : ∀ a, f.run (saveOps n .gd32 ram) a =
      if 0x18000 ≤ a ∧ a < 0x18000 + n then (f.erase 0x18000 0x8000) a &&& ram (a - 0x18000) else (f.erase 0x18000 0x8000) a :=
    fun a => program_run 0x18000 n ram (f.erase 0x18000 0x8000) a
  have hn : n ≤ 0x8000 := hn
  refine ⟨fun i hi => ?_, fun a ha => ?_⟩
  · unfold loadConfig
    rw [h, show configRom .gd32 = 0x18000 from rfl, if_pos (by omega)]
    unfold Flash.erase
    rw [if_pos (by omega), Nat.add_sub_cancel_left, BitVec.allOnes_and]
  · have ha : ¬ (0x18000 ≤ a ∧ a < 0x18000 + 0x8000) := ha
    rw [h, if_neg (by omega)]
    unfold Flash.erase
    rw [if_neg ha]

theorem stm32_save (n : Nat) (f : Flash) (ram : Nat → BitVec 32) (a : Nat) :
    f.run (saveOps n .stm32 ram) a =
      let e := if 0x1000 ≤ a ∧ a < (1 + (4 * n + 16385) / 16386) * 0x1000 then BitVec.allOnes 32 else f a
      if 0x1000 ≤ a ∧ a < 0x1000 + n then e &&& ram (a - 0x1000) else e := by
  have h : f.run (saveOps n .stm32 ram) = (f.run (saveErase n .stm32)).run (saveProgram n .stm32 ram) := by
    unfold saveOps Flash.run
    rw [List.foldl_append]
  rw [h]
  refine (program_run 0x1000 n ram _ a).trans ?_
  rw [show f.run (saveErase n .stm32) a = _ from erase_run 0x1000 ((4 * n + 16385) / 16386) f a]

/-- On the stm32 the number of sectors to erase is computed with 16386 for the 16384 bytes of a sector.  It holds for
configurations of up to 32 KB. -/
theorem C58_stm32_partial (n : Nat) (hn : n ≤ 0x2000) : C58_holds .stm32 n := by
  intro f ram
  refine ⟨fun i hi => ?_, fun a ha => ?_⟩
  · unfold loadConfig
    rw [stm32_save, show configRom .stm32 = 0x1000 from rfl]
    simp only
    rw [if_pos (by omega), if_pos (by omega), Nat.add_sub_cancel_left, BitVec.allOnes_and]
  · have ha : ¬ (0x1000 ≤ a ∧ a < 0x1000 + 0x3000) := ha
    rw [stm32_save]
    simp only
    rw [if_neg (by omega), if_neg (by omega)]

/-- C58 in full: for every size that fits in the area. -/
def C58_full (t : FlashTarget) : Prop := ∀ n, n ≤ configRomLen t → C58_holds t n

/-- On the stm32 a configuration one word longer than two sectors loses its last word, unless the flash was erased there:
the third sector is not erased. -/
theorem C58_stm32_full_false : ¬ C58_full .stm32 := by
  intro h
  have := (h 0x2001 (by decide) (fun _ => 0) (fun _ => 1)).1 0x2000 (by decide)
  unfold loadConfig at this
  rw [stm32_save] at this
  simp [configRom] at this

/-- Which sizes lose words on the stm32: exactly those of two sectors and one word. -/
theorem C58_stm32_exactly (n : Nat) (hn : n ≤ configRomLen .stm32) : C58_holds .stm32 n ↔ n ≠ 0x2001 := by
  constructor
  · rintro h rfl
    have := (h (fun _ => 0) (fun _ => 1)).1 0x2000 (by decide)
    unfold loadConfig at this
    rw [stm32_save] at this
    simp [configRom] at this
  · intro hne f ram
    have hn : n ≤ 0x3000 := hn
    refine ⟨fun i hi => ?_, fun a ha => ?_⟩
    · unfold loadConfig
      rw [stm32_save, show configRom .stm32 = 0x1000 from rfl]
      simp only
      have h1 : 1 ≤ n → 1 ≤ (4 * n + 16385) / 16386 := by omega
      have h2 : 0x1001 ≤ n → 2 ≤ (4 * n + 16385) / 16386 := by omega
      have h3 : 0x2002 ≤ n → 3 ≤ (4 * n + 16385) / 16386 := by omega
      rw [if_pos (by omega), if_pos (by omega), Nat.add_sub_cancel_left, BitVec.allOnes_and]
    · have ha : ¬ (0x1000 ≤ a ∧ a < 0x1000 + 0x3000) := ha
      rw [stm32_save]
      simp only
      rw [if_neg (by omega), if_neg (by omega)]

/-- C64 for a target: power may go after any number `k` of the flash operations. -/
def C64_full (t : FlashTarget) : Prop :=
  ∀ (n k : Nat) (f : Flash) (ram : Nat → BitVec 32), n ≤ configRomLen t →
    (∀ i, i < n → loadConfig t (f.run ((saveOps n t ram).take k)) i = loadConfig t f i) ∨
    (∀ i, i < n → loadConfig t (f.run ((saveOps n t ram).take k)) i = ram i)

/-- If power goes right after the first erasing, what is loaded is neither: it is erased flash. -/
theorem C64_full_false (t : FlashTarget) : ¬ C64_full t := by
  intro h
  cases t
  · rcases h 1 1 (fun _ => 0) (fun _ => 1) (by decide) with h | h
    · have := h 0 (by decide); revert this; decide +kernel
    · have := h 0 (by decide); revert this; decide +kernel
  · rcases h 1 1 (fun _ => 0) (fun _ => 1) (by decide) with h | h
    · have := h 0 (by decide); revert this; decide +kernel
    · have := h 0 (by decide); revert this; decide +kernel

/-- What does hold on the gd32: before the erasing the old configuration is loaded, and after the last word the new one; in
between, with `k` words written, the first `k` words are new and the rest are erased flash. -/
theorem C64_gd32_partial (n k : Nat) (hn : n ≤ configRomLen .gd32) (f : Flash) (ram : Nat → BitVec 32) (i : Nat) (hi : i < n) :
    loadConfig .gd32 (f.run ((saveOps n .gd32 ram).take 0)) i = loadConfig .gd32 f i ∧
    (k ≤ n → loadConfig .gd32 (f.run ((saveOps n .gd32 ram).take (k + 1))) i = if i < k then ram i else BitVec.allOnes 32) := by
  refine ⟨rfl, fun hk => ?_⟩
  have hn : n ≤ 0x8000 := hn
  have h : (saveOps n .gd32 ram).take (k + 1) =
      .erase 0x18000 0x8000 :: (List.range k).map fun i => .program (0x18000 + i) (ram i) := by
    unfold saveOps saveProgram
    rw [saveErase, List.singleton_append, List.take_succ_cons, ← List.map_take, List.take_range, Nat.min_eq_left hk]
    rfl
  rw [h]
  unfold loadConfig
  refine (program_run 0x18000 k ram (f.erase 0x18000 0x8000) _).trans ?_
  rw [show configRom .gd32 = 0x18000 from rfl, Nat.add_sub_cancel_left]
  unfold Flash.erase
  rw [if_pos (show 0x18000 ≤ 0x18000 + i ∧ 0x18000 + i < 0x18000 + 0x8000 by omega)]
  by_cases hik : i < k
  · rw [if_pos hik, if_pos (by omega), BitVec.allOnes_and]
  · rw [if_neg hik, if_neg (by omega)]

/-- A configuration of three words over a flash full of other data. -/
example : ∀ i : Fin 3, loadConfig .stm32 (Flash.run (fun a => BitVec.ofNat 32 a) (saveOps 3 .stm32 fun i => BitVec.ofNat 32 (7 * i + 1))) i =
    BitVec.ofNat 32 (7 * i + 1) := by
  decide +kernel

end Verif
