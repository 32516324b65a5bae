/-
C37 knock filter.
-/
import Verif.Model.Sensors
import Verif.Proofs.Fl
import Verif.Proofs.Util
import Mathlib.Analysis.Complex.Trigonometric
import Mathlib.Analysis.SpecialFunctions.Trigonometric.Basic
import Mathlib.Algebra.BigOperators.Fin
import Mathlib.Tactic.LinearCombination
import Mathlib.Tactic.FieldSimp

namespace Verif
open Fl FloatFmt

/-- Squared magnitude of the Fourier sum of a block at angular frequency `ω` (radians per sample). -/
noncomputable def binPower (ω : ℝ) (xs : List ℚ) : ℝ :=
  Complex.normSq (∑ k : Fin xs.length, (xs[k] : ℂ) * Complex.exp (-(Complex.I * ω * (k : ℕ))))

/-- The filter's recursion on a list of samples, from the state `(p, p2)`. -/
def goertzel (c : ℚ) : ℚ × ℚ → List ℚ → ℚ × ℚ
  | s, [] => s
  | s, x :: xs => goertzel c (x + 2 * c * s.1 - s.2, s.1) xs

/-- What the recursion computes: from rest, `p - e^{-iω} p2` is the sum of `x_k e^{iω(n-1-k)}`. -/
theorem goertzel_sum (ω : ℝ) (c : ℚ) (hc : Real.cos ω = c) (xs : List ℚ) (s : ℚ × ℚ) :
    ((goertzel c s xs).1 : ℂ) - Complex.exp (-(Complex.I * ω)) * (goertzel c s xs).2 =
      Complex.exp (Complex.I * ω * xs.length) *
        (((s.1 : ℂ) - Complex.exp (-(Complex.I * ω)) * s.2) +
          ∑ k : Fin xs.length, (xs[k] : ℂ) * Complex.exp (-(Complex.I * ω * ((k : ℕ) + 1)))) := by
  induction xs generalizing s with
  | nil => simp [goertzel]
  | cons x xs ih =>
    unfold goertzel
    rw [ih]
    have hz : Complex.exp (Complex.I * ω) * Complex.exp (-(Complex.I * ω)) = 1 := by
      rw [← Complex.exp_add]; simp
    have hc2 : (2 : ℂ) * (c : ℂ) = Complex.exp (Complex.I * ω) + Complex.exp (-(Complex.I * ω)) := by
      have h1 : (c : ℂ) = Complex.cos ω := by rw [← Complex.ofReal_cos, hc]; simp
      rw [h1, Complex.cos]
      rw [show (ω : ℂ) * Complex.I = Complex.I * ω by ring, show -(ω : ℂ) * Complex.I = -(Complex.I * ω) by ring]
      ring
    have hE : Complex.exp (Complex.I * ω * ((x :: xs).length : ℕ)) =
        Complex.exp (Complex.I * ω * xs.length) * Complex.exp (Complex.I * ω) := by
      rw [← Complex.exp_add]; congr 1; push_cast [List.length_cons]; ring
    have hS : (∑ k : Fin (x :: xs).length, ((x :: xs)[k] : ℂ) * Complex.exp (-(Complex.I * ω * ((k : ℕ) + 1)))) =
        x * Complex.exp (-(Complex.I * ω)) + Complex.exp (-(Complex.I * ω)) *
          ∑ k : Fin xs.length, (xs[k] : ℂ) * Complex.exp (-(Complex.I * ω * ((k : ℕ) + 1))) := by
      rw [show (∑ k : Fin (x :: xs).length, ((x :: xs)[k] : ℂ) * Complex.exp (-(Complex.I * ω * ((k : ℕ) + 1)))) =
        ∑ k : Fin (xs.length + 1), ((x :: xs)[k] : ℂ) * Complex.exp (-(Complex.I * ω * ((k : ℕ) + 1))) from rfl,
        Fin.sum_univ_succ, Finset.mul_sum]
      congr 1
      · simp
      · apply Finset.sum_congr rfl
        intro k _
        have : Complex.exp (-(Complex.I * ω * (((k.succ : Fin _) : ℕ) + 1))) =
            Complex.exp (-(Complex.I * ω)) * Complex.exp (-(Complex.I * ω * ((k : ℕ) + 1))) := by
          rw [← Complex.exp_add]; congr 1; push_cast [Fin.val_succ]; ring
        rw [this]
        simp only [Fin.getElem_fin, Fin.val_succ, List.getElem_cons_succ]
        ring
    rw [hE, hS]
    push_cast
    generalize Complex.exp (Complex.I * ω * xs.length) = E
    generalize (∑ k : Fin xs.length, (xs[k] : ℂ) * Complex.exp (-(Complex.I * ω * ((k : ℕ) + 1)))) = S
    generalize Complex.exp (Complex.I * ω) = z at *
    generalize Complex.exp (-(Complex.I * ω)) = y at *
    linear_combination (-E * S - E * x + E * s.2) * hz + E * s.1 * hc2

/-- The value the filter forms from its state is the power of the block. -/
theorem goertzel_power (ω : ℝ) (c : ℚ) (hc : Real.cos ω = c) (xs : List ℚ) :
    let s := goertzel c (0, 0) xs
    ((s.1 * s.1 + s.2 * s.2 - s.1 * s.2 * c * 2 : ℚ) : ℝ) = binPower ω xs := by
  intro s
  have h := goertzel_sum ω c hc xs (0, 0)
  have hn := congrArg Complex.normSq h
  have hu : ∀ t : ℝ, Complex.normSq (Complex.exp (Complex.I * t)) = 1 := by
    intro t
    rw [mul_comm, Complex.normSq_eq_norm_sq, Complex.norm_exp_ofReal_mul_I]; norm_num
  have hfac : ∀ n : ℕ, Complex.normSq (Complex.exp (Complex.I * ω * n)) = 1 := by
    intro n
    have := hu (ω * n)
    push_cast at this
    rw [← mul_assoc] at this
    exact this
  rw [Complex.normSq_mul, hfac, one_mul] at hn
  have hsum : ((0 : ℚ) : ℂ) - Complex.exp (-(Complex.I * ω)) * ((0 : ℚ) : ℂ) +
      ∑ k : Fin xs.length, (xs[k] : ℂ) * Complex.exp (-(Complex.I * ω * ((k : ℕ) + 1))) =
      Complex.exp (-(Complex.I * ω)) * ∑ k : Fin xs.length, (xs[k] : ℂ) * Complex.exp (-(Complex.I * ω * (k : ℕ))) := by
    rw [Finset.mul_sum]
    simp only [Rat.cast_zero, mul_zero, sub_zero, zero_add]
    apply Finset.sum_congr rfl
    intro k _
    have : Complex.exp (-(Complex.I * ω * ((k : ℕ) + 1))) =
        Complex.exp (-(Complex.I * ω)) * Complex.exp (-(Complex.I * ω * (k : ℕ))) := by
      rw [← Complex.exp_add]; congr 1; ring
    rw [this]; ring
  rw [hsum, Complex.normSq_mul] at hn
  have hneg : Complex.normSq (Complex.exp (-(Complex.I * ω))) = 1 := by
    have := hu (-ω)
    push_cast at this
    rw [← this]; congr 2; ring
  rw [hneg, one_mul] at hn
  unfold binPower
  rw [← hn]
  have hexp : Complex.exp (-(Complex.I * ω)) = (Real.cos ω : ℂ) - Real.sin ω * Complex.I := by
    rw [show -(Complex.I * (ω : ℂ)) = (-ω : ℂ) * Complex.I by ring, Complex.exp_mul_I]
    push_cast
    rw [Complex.cos_neg, Complex.sin_neg]; ring
  rw [hexp]
  have e1 : ((s.1 : ℂ)) - ((Real.cos ω : ℂ) - Real.sin ω * Complex.I) * (s.2 : ℂ) =
      ((s.1 - Real.cos ω * s.2 : ℝ) : ℂ) + ((Real.sin ω * s.2 : ℝ) : ℂ) * Complex.I := by
    push_cast; ring
  change _ = Complex.normSq (((s.1 : ℂ)) - ((Real.cos ω : ℂ) - Real.sin ω * Complex.I) * (s.2 : ℂ))
  rw [e1, Complex.normSq_add_mul_I]
  have hsc := Real.sin_sq_add_cos_sq ω
  rw [hc] at hsc ⊢
  push_cast
  linear_combination -(s.2 : ℝ) ^ 2 * hsc

/-- A filter at the start of a block. -/
def AtRest (k : Knock) : Prop := k.nSamples = 0 ∧ k.sprev = fin 0 ∧ k.sprev2 = fin 0

theorem exact_feed (k : Knock) (c p p2 : ℚ) (xs : List ℚ) (hc : k.cr = fin c) (hp : k.sprev = fin p)
    (hp2 : k.sprev2 = fin p2) (hn : k.nSamples.toNat + xs.length < 64) :
    (xs.map fin).foldl (@knockAdd exactFmt) k =
      { k with nSamples := k.nSamples + BitVec.ofNat 32 xs.length, sprev := fin (goertzel c (p, p2) xs).1,
               sprev2 := fin (goertzel c (p, p2) xs).2 } := by
  let _ := exactFmt
  induction xs generalizing k p p2 with
  | nil => cases k; simp_all [goertzel]
  | cons x xs ih =>
    rw [List.length_cons] at hn
    have hne : ¬ (k.nSamples + 1 = 64) := by
      intro h
      have := congrArg BitVec.toNat h
      rw [BitVec.toNat_add] at this
      simp at this
      omega
    have hs : knockAdd k (fin x) =
        { k with nSamples := k.nSamples + 1, sprev := fin (x + 2 * c * p - p2), sprev2 := fin p } := by
      unfold knockAdd
      simp only [hne, if_false, hc, hp, hp2, fin_mul, exact_rnd, fin_add, fin_sub]
      rw [mul_comm c 2]
    rw [List.map_cons, List.foldl_cons, hs,
      ih { k with nSamples := k.nSamples + 1, sprev := fin (x + 2 * c * p - p2), sprev2 := fin p }
        (x + 2 * c * p - p2) p hc rfl rfl]
    · simp only [goertzel, List.length_cons]
      congr 1
      rw [BitVec.ofNat_add, BitVec.add_assoc]
      congr 1
      rw [BitVec.add_comm]; rfl
    · have : (k.nSamples + 1).toNat = k.nSamples.toNat + 1 := by
        rw [BitVec.toNat_add]; simp; omega
      simp only [this]; omega

theorem goertzel_append (c : ℚ) (s : ℚ × ℚ) (xs ys : List ℚ) :
    goertzel c s (xs ++ ys) = goertzel c (goertzel c s xs) ys := by
  induction xs generalizing s with
  | nil => rfl
  | cons x xs ih => simp only [List.cons_append, goertzel]; exact ih _

/-- One complete block from rest. -/
theorem exact_block (k : Knock) (c : ℚ) (xs : List ℚ) (hc : k.cr = fin c) (hr : AtRest k) (hl : xs.length = 64) :
    (xs.map fin).foldl (@knockAdd exactFmt) k =
      { k with value := fin (let s := goertzel c (0, 0) xs; s.1 * s.1 + s.2 * s.2 - s.1 * s.2 * c * 2) } := by
  let _ := exactFmt
  obtain ⟨h0, h1, h2⟩ := hr
  obtain ⟨ys, y, rfl⟩ : ∃ ys y, xs = ys ++ [y] := by
    have hne : xs ≠ [] := by intro h; rw [h] at hl; simp at hl
    exact ⟨xs.dropLast, xs.getLast hne, (List.dropLast_append_getLast hne).symm⟩
  rw [List.length_append, List.length_singleton] at hl
  rw [List.map_append, List.foldl_append, exact_feed k c 0 0 ys hc h1 h2 (by rw [h0]; simp; omega)]
  have hy : ys.length = 63 := by omega
  rw [goertzel_append]
  rcases hg : goertzel c (0, 0) ys with ⟨p, p2⟩
  simp only [List.map_cons, List.map_nil, List.foldl_cons, List.foldl_nil, goertzel]
  unfold knockAdd
  simp only [hc, hy, h0]
  rw [if_pos (by decide)]
  simp only [fin_mul, exact_rnd, fin_add, fin_sub]
  cases k
  simp_all
  ring

/-- C37: in real arithmetic, after any number of complete blocks the knock value is the power of the last
complete block at the filter's angular frequency, whatever part of the next block has already been seen. -/
theorem C37_power (k : Knock) (ω : ℝ) (c : ℚ) (hcr : k.cr = fin c) (hω : Real.cos ω = c) (hr : AtRest k)
    (pre block post : List ℚ) (hpre : pre.length % 64 = 0) (hb : block.length = 64) (hpost : post.length < 64) :
    ∃ v : ℚ, (((pre ++ block ++ post).map fin).foldl (@knockAdd exactFmt) k).value = fin v ∧
      (v : ℝ) = binPower ω block := by
  let _ := exactFmt
  -- complete blocks leave the filter at rest
  have key : ∀ (n : ℕ) (l : List ℚ), l.length = 64 * n → ∃ v, (l.map fin).foldl knockAdd k = { k with value := v } := by
    intro n
    induction n with
    | zero => intro l hl; rw [List.length_eq_zero_iff.mp (show l.length = 0 by omega)]; exact ⟨k.value, rfl⟩
    | succ n ih =>
      intro l hl
      obtain ⟨v, hv⟩ := ih (l.take (64 * n)) (by rw [List.length_take]; omega)
      rw [← List.take_append_drop (64 * n) l, List.map_append, List.foldl_append, hv,
        exact_block { k with value := v } c (l.drop (64 * n)) hcr hr (by rw [List.length_drop]; omega)]
      exact ⟨_, rfl⟩
  obtain ⟨v, hv⟩ := key (pre.length / 64) pre (by omega)
  rw [List.map_append, List.map_append, List.foldl_append, List.foldl_append, hv,
    exact_block { k with value := v } c block hcr hr hb]
  simp only
  generalize hv2 : fin _ = v2
  rw [exact_feed { k with value := v2 } c 0 0 post hcr hr.2.1 hr.2.2 (by simp only [hr.1]; simpa using hpost)]
  simp only
  rw [← hv2]
  exact ⟨_, rfl, goertzel_power ω c hω block⟩

/-- The samples of an input in a sequence of updates, each for input 0 or another one. -/
def samplesFor (i : Fin 2) (us : List (Int × List Fl)) : List Fl :=
  (us.filter fun u => decide ((if u.1 = 0 then (0 : Fin 2) else 1) = i)).flatMap Prod.snd

/-- C37: how the samples are split into updates does not matter, nor do the other input's updates (any
float format). -/
theorem C37_split [FloatFmt] (ks : Fin 2 → Knock) (us : List (Int × List Fl)) (i : Fin 2) :
    us.foldl (fun ks u => updateKnock ks u.1 u.2) ks i = (samplesFor i us).foldl knockAdd (ks i) := by
  induction us generalizing ks with
  | nil => rfl
  | cons u us ih =>
    rw [List.foldl_cons, ih]
    unfold samplesFor
    by_cases h : (if u.1 = 0 then (0 : Fin 2) else 1) = i
    · rw [List.filter_cons_of_pos (by simpa using h), List.flatMap_cons, List.foldl_append]
      congr 1
      unfold updateKnock
      simp only [h, if_true]
    · rw [List.filter_cons_of_neg (by simpa using h)]
      congr 1
      unfold updateKnock
      simp only [Ne.symm h, if_false]

/-- A configured filter is at rest, and its angular frequency is that of bin `⌊f / width⌋ + 1`. -/
theorem C37_configure [LibM] (rate : BitVec 32) (f : ℚ) (k k' : Knock) (hf : k.frequency = fin f)
    (h : @knockConfigure exactFmt _ rate k = .ok k') (hr : rate ≠ 0) (h0 : 0 ≤ f) :
    AtRest k' ∧ k'.cr = LibM.cosf k'.w ∧ (k'.freq.toNat : ℤ) = ⌊f / (rate.toNat / 64 : ℚ)⌋ + 1 := by
  let _ := exactFmt
  unfold knockConfigure at h
  obtain ⟨b, hb, h2⟩ := bind_eq_ok.mp h
  rw [← Except.ok.inj h2]
  refine ⟨⟨rfl, rfl, rfl⟩, rfl, ?_⟩
  simp only
  have hrn : (0 : ℚ) < rate.toNat := by
    have : rate.toNat ≠ 0 := fun h => hr (BitVec.eq_of_toNat_eq h)
    exact_mod_cast Nat.pos_of_ne_zero this
  have e : (k.frequency + Fl.ofU32 rate / fin 64) / (Fl.ofU32 rate / fin 64) =
      fin (f / (rate.toNat / 64 : ℚ) + 1) := by
    unfold Fl.ofU32
    rw [hf, exact_rnd, fin_div _ _ (by norm_num), exact_rnd, fin_add, exact_rnd,
      fin_div _ _ (by positivity), exact_rnd]
    congr 1
    field_simp
  rw [e] at hb
  obtain ⟨q, hq, -, -, hv⟩ := toU32_ok hb
  cases hq
  rw [hv, Int.floor_add_one, Int.toNat_of_nonneg]
  have : 0 ≤ ⌊f / (rate.toNat / 64 : ℚ)⌋ := Int.floor_nonneg.mpr (by positivity)
  omega

/-- A filter tuned to a sixth of the sampling rate (cosine 1/2): the hypotheses are met. -/
example : AtRest ⟨fin 7000, fin 0, 64, 0, fin 0, fin (1 / 2), 0, fin 0, fin 0, fin 0⟩ ∧
    Real.cos (Real.pi / 3) = ((1 / 2 : ℚ) : ℝ) := by
  refine ⟨⟨rfl, rfl, rfl⟩, ?_⟩
  rw [Real.cos_pi_div_three]; norm_num

end Verif
