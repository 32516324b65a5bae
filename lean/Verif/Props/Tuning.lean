/-
C93: the knock inputs listen for the frequency they are set to.
-/
import Verif.Proofs.Tuning
import Verif.Props.AnyRequest
import Verif.Props.Knock

namespace Verif
open Fl FloatFmt

section
variable [FloatFmt] [LibM] (rate : BitVec 32) (version : String) (struct : List Item)

/-- What happens to the knock inputs after start-up: requests are handled, and samples of one of the inputs
arrive. -/
inductive Hearing : Console → Console → Prop
  | refl (c) : Hearing c c
  | request {c c1 c2 : Console} {req l : List Item} {e : Effect} (h : Hearing c c1)
      (hr : processRequest rate version struct req c1 = .ok (c2, l, e)) : Hearing c c2
  | samples {c c1 : Console} (h : Hearing c c1) (pin : Int) (xs : List Fl) :
      Hearing c { c1 with cfg.knock := updateKnock c1.cfg.knock pin xs }

/-- src/platforms/gd32f4/gd32f4_sensors.c:197-198: at start-up both knock inputs are configured. -/
def StartedUp (c c' : Console) : Prop :=
  ∃ k0 k1, knockConfigure rate (c.cfg.knock 0) = .ok k0 ∧ knockConfigure rate (c.cfg.knock 1) = .ok k1 ∧
    c' = { c with cfg.knock := fun i => if i = 0 then k0 else k1 }

theorem hearing_listens {c0 c c' : Console} (hs : StartedUp rate c0 c) (h : Hearing rate version struct c c') :
    Listening rate c'.cfg.knock := by
  have h0 : Listening rate c.cfg.knock := by
    obtain ⟨k0, k1, h0, h1, rfl⟩ := hs
    intro i
    match i with
    | 0 => exact knockConfigure_listens h0
    | 1 => exact knockConfigure_listens h1
  induction h with
  | refl => exact h0
  | request _ hr ih => exact process_listens ih hr
  | samples _ pin xs ih => exact update_listens ih pin xs

end

section
variable [LibM] (rate : BitVec 32) (version : String) (struct : List Item)

/-- C93: after start-up and whatever requests and samples, in real arithmetic, each filter is that of a bin
whose middle lies above the frequency set for the input, by at most a bin. -/
theorem C93_listens_partial {c0 c c' : Console} (hr : rate ≠ 0)
    (hs : @StartedUp exactFmt _ rate c0 c) (h : @Hearing exactFmt _ rate version struct c c') (i : Fin 2) :
    @FilterOf exactFmt _ (c'.cfg.knock i) ∧
      ∀ f : ℚ, 0 ≤ f → (c'.cfg.knock i).frequency = fin f →
        f < centre rate (c'.cfg.knock i) ∧ centre rate (c'.cfg.knock i) ≤ f + binWidth rate := by
  let _ := exactFmt
  obtain ⟨h1, h2⟩ := hearing_listens rate version struct hs h i
  refine ⟨h2, fun f hf he => ?_⟩
  have hrn : (0 : ℚ) < rate.toNat := by
    have : rate.toNat ≠ 0 := fun h => hr (BitVec.eq_of_toNat_eq h)
    exact_mod_cast Nat.pos_of_ne_zero this
  have hb : 0 < binWidth rate := by unfold binWidth; positivity
  have e : ((c'.cfg.knock i).frequency + Fl.ofU32 rate / fin 64) / (Fl.ofU32 rate / fin 64) =
      fin (f / binWidth rate + 1) := by
    unfold Fl.ofU32 binWidth
    rw [he, exact_rnd, fin_div _ _ (by norm_num), exact_rnd, fin_add, exact_rnd,
      fin_div _ _ (by positivity), exact_rnd]
    congr 1
    field_simp
  rw [e] at h1
  obtain ⟨q, hq, -, -, hv⟩ := toU32_ok h1
  cases hq
  have h0 : 0 ≤ ⌊f / binWidth rate⌋ := Int.floor_nonneg.mpr (by positivity)
  have hn : ((c'.cfg.knock i).freq.toNat : ℚ) = ⌊f / binWidth rate⌋ + 1 := by
    rw [hv, Int.floor_add_one]
    have : ((⌊f / binWidth rate⌋ + 1).toNat : ℤ) = ⌊f / binWidth rate⌋ + 1 := Int.toNat_of_nonneg (by omega)
    exact_mod_cast this
  have hl := Int.lt_floor_add_one (f / binWidth rate)
  have hu := Int.floor_le (f / binWidth rate)
  rw [div_lt_iff₀ hb] at hl
  rw [le_div_iff₀ hb] at hu
  unfold centre
  rw [hn]
  constructor
  · exact hl
  · linarith

/-- C93 in full: the filter is that of the bin nearest to the frequency set. -/
def C93_full : Prop :=
  ∀ (rate : BitVec 32) (version : String) (struct : List Item) (c0 c c' : Console) (i : Fin 2) (f : ℚ), rate ≠ 0 →
    @StartedUp exactFmt _ rate c0 c → @Hearing exactFmt _ rate version struct c c' → 0 ≤ f →
    (c'.cfg.knock i).frequency = fin f → |centre rate (c'.cfg.knock i) - f| ≤ binWidth rate / 2

/-- Worse, an input set to a frequency in the middle of a bin is deaf for it: the filter is that of the next bin,
in which a tone of the frequency set, of whatever strength and phase, has no power at all. -/
theorem C93_deaf {c0 c c' : Console} (hr : rate ≠ 0)
    (hs : @StartedUp exactFmt _ rate c0 c) (h : @Hearing exactFmt _ rate version struct c c') (i : Fin 2)
    (m : ℕ) (hm : m < 63) (hf : (c'.cfg.knock i).frequency = fin (m * binWidth rate)) (a φ level : ℝ) :
    power64 (c'.cfg.knock i).freq.toNat (tone rate ((m * binWidth rate : ℚ) : ℝ) a φ level) = 0 := by
  have hrn : (0 : ℚ) < rate.toNat := by
    have : rate.toNat ≠ 0 := fun h => hr (BitVec.eq_of_toNat_eq h)
    exact_mod_cast Nat.pos_of_ne_zero this
  have hb : 0 < binWidth rate := by unfold binWidth; positivity
  obtain ⟨-, h1⟩ := C93_listens_partial rate version struct hr hs h i
  obtain ⟨h2, h3⟩ := h1 _ (by positivity) hf
  have hn : (c'.cfg.knock i).freq.toNat = m + 1 := by
    unfold centre at h2 h3
    have h4 := lt_of_mul_lt_mul_right h2 hb.le
    have h5 : ((c'.cfg.knock i).freq.toNat : ℚ) ≤ m + 1 := by
      refine le_of_mul_le_mul_right ?_ hb
      linarith
    have h4 : m < (c'.cfg.knock i).freq.toNat := by exact_mod_cast h4
    have h5 : (c'.cfg.knock i).freq.toNat ≤ m + 1 := by exact_mod_cast h5
    omega
  rw [hn]
  have e : tone rate ((m * binWidth rate : ℚ) : ℝ) a φ level =
      fun j : ℕ => level + a * Real.cos (2 * Real.pi * m * j / 64 + φ) := by
    funext j
    unfold tone binWidth
    have : (rate.toNat : ℝ) ≠ 0 := by exact_mod_cast hrn.ne'
    push_cast
    congr 3
    field_simp
  rw [e]
  refine tone_silent m (m + 1) ?_ ?_ ?_ a φ level <;> omega

/-- The start-up configuration with the knock inputs set to `f`. -/
def knockSetTo (f : Fl) : Console :=
  { @dfltConsole exactFmt with cfg.knock := fun _ => ⟨f, fin 0, 0, 0, fin 0, fin 0, 0, fin 0, fin 0, fin 0⟩ }

/-- At 50000 samples a second an input set to 6250 listens for 7031.25. -/
theorem started_6250 : ∃ c, @StartedUp exactFmt _ 50000 (knockSetTo (fin 6250)) c ∧
    ∀ i, (c.cfg.knock i).frequency = fin 6250 ∧ (c.cfg.knock i).freq = 9 := by
  let _ := exactFmt
  have h : Fl.toU32 ((fin 6250 + Fl.ofU32 50000 / fin 64) / (Fl.ofU32 50000 / fin 64)) = .ok 9 := by decide +kernel
  have h1 : ∃ k', knockConfigure 50000 ⟨fin 6250, fin 0, 0, 0, fin 0, fin 0, 0, fin 0, fin 0, fin 0⟩ = .ok k' ∧
      k'.frequency = fin 6250 ∧ k'.freq = 9 := by
    unfold knockConfigure
    dsimp only
    rw [h]
    exact ⟨_, rfl, rfl, rfl⟩
  obtain ⟨k', hk, hf, hn⟩ := h1
  refine ⟨_, ⟨k', k', hk, hk, rfl⟩, fun i => ?_⟩
  dsimp only
  split <;> exact ⟨hf, hn⟩

theorem C93_full_false : ¬ C93_full := by
  intro h
  obtain ⟨c, hc, hk⟩ := started_6250
  let _ := exactFmt
  have h1 := h 50000 "" [] _ c c 0 6250 (by decide) hc (.refl c) (by norm_num) (hk 0).1
  unfold centre binWidth at h1
  rw [(hk 0).2, show (9 : BitVec 32).toNat = 9 from rfl, show (50000 : BitVec 32).toNat = 50000 from rfl] at h1
  have h2 := le_of_abs_le h1
  norm_num at h2

/-- The hypotheses of the theorems are met: after start-up and the first ten samples, a tone of 6250 Hz is not
heard. -/
example : ∃ c c', @StartedUp exactFmt _ 50000 (knockSetTo (fin 6250)) c ∧ @Hearing exactFmt _ 50000 "" [] c c' ∧
    ∀ a φ level, power64 (c'.cfg.knock 0).freq.toNat (tone 50000 6250 a φ level) = 0 := by
  obtain ⟨c, hc, hk⟩ := started_6250
  have hb : binWidth 50000 = 781.25 := by
    unfold binWidth
    rw [show (50000 : BitVec 32).toNat = 50000 from rfl]
    norm_num
  let _ := exactFmt
  have hh := Hearing.samples (rate := 50000) (version := "") (struct := []) (.refl c) 0 (List.replicate 10 (fin 1))
  refine ⟨c, _, hc, hh, fun a φ level => ?_⟩
  have hf := (knockAdd_keeps (List.replicate 10 (fin 1)) (c.cfg.knock 0)).1
  have h := C93_deaf 50000 "" [] (by decide) hc hh 0 8 (by decide)
    (by rw [hb]; refine (hf.trans (hk 0).1).trans ?_; norm_num) a φ level
  have e : (((8 : ℕ) * binWidth 50000 : ℚ) : ℝ) = 6250 := by rw [hb]; norm_num
  rw [e] at h
  exact h

end
end Verif
