/-
Lemmas for tracking a missing-tooth wheel.
-/
import Verif.Spec.Wheel
import Verif.Proofs.Decoder
import Verif.Proofs.Time
import Mathlib.Tactic.LinearCombination

namespace Verif

/-- The tooth's number after the gap. -/
def wheelIdx (N s n : ℕ) : ℕ := (s + n) % (N - 1)

theorem wheel_split {N s n : ℕ} (hN : 2 ≤ N) :
    wheelIdx N s n < N - 1 ∧ ∃ q, s + n = (N - 1) * q + wheelIdx N s n ∧ wheelPos N s n = N * q + wheelIdx N s n :=
  ⟨Nat.mod_lt _ (by omega), (s + n) / (N - 1), (Nat.div_add_mod _ _).symm, rfl⟩

theorem wheel_unique {N s n q j : ℕ} (hj : j < N - 1) (h : s + n = (N - 1) * q + j) :
    wheelIdx N s n = j ∧ wheelPos N s n = N * q + j := by
  have := (Nat.div_mod_unique (a := s + n) (b := N - 1) (c := j) (d := q) (by omega)).mpr ⟨by omega, hj⟩
  unfold wheelIdx wheelPos
  rw [this.1, this.2]
  exact ⟨rfl, rfl⟩

/-- One tooth on: either one pitch to the next tooth, or two pitches over the gap. -/
theorem wheel_step {N s n : ℕ} (hN : 2 ≤ N) :
    (wheelIdx N s n + 1 = N - 1 ∧ wheelIdx N s (n + 1) = 0 ∧ wheelPos N s (n + 1) = wheelPos N s n + 2) ∨
    (wheelIdx N s n + 1 < N - 1 ∧ wheelIdx N s (n + 1) = wheelIdx N s n + 1 ∧
      wheelPos N s (n + 1) = wheelPos N s n + 1) := by
  obtain ⟨hlt, q, h1, h2⟩ := wheel_split (N := N) (s := s) (n := n) hN
  generalize wheelIdx N s n = j at *
  rcases Nat.lt_or_ge (j + 1) (N - 1) with h | h
  · right
    obtain ⟨h3, h4⟩ := wheel_unique (N := N) (s := s) (n := n + 1) (q := q) h (by omega)
    exact ⟨h, h3, by omega⟩
  · left
    obtain ⟨h3, h4⟩ := wheel_unique (N := N) (s := s) (n := n + 1) (q := q + 1) (j := 0) (by omega)
      (by rw [Nat.mul_add]; omega)
    exact ⟨by omega, h3, by rw [h4, h2, Nat.mul_add]; omega⟩

/-- The pitches in a window of `R - 1` tooth gaps. -/
theorem wheel_window {N s n R : ℕ} (hR : 2 ≤ R) (hRN : R + 1 ≤ N) (hn : R ≤ n + 1) :
    (wheelPos N s n : ℤ) - wheelPos N s (n + 1 - R) = if wheelIdx N s n < R - 1 then (R : ℤ) else R - 1 := by
  obtain ⟨hlt, q, h1, h2⟩ := wheel_split (N := N) (s := s) (n := n) (by omega)
  generalize wheelIdx N s n = j at *
  by_cases h : j < R - 1
  · rw [if_pos h]
    have hq : q ≠ 0 := by rintro rfl; omega
    obtain ⟨q', rfl⟩ := Nat.exists_eq_succ_of_ne_zero hq
    obtain ⟨h3, h4⟩ := wheel_unique (N := N) (s := s) (n := n + 1 - R) (q := q') (j := N - 1 + j - (R - 1)) (by omega)
      (by rw [Nat.succ_eq_add_one, Nat.mul_add] at h1; omega)
    rw [h4, h2, Nat.succ_eq_add_one, Nat.mul_add]
    omega
  · rw [if_neg h]
    obtain ⟨h3, h4⟩ := wheel_unique (N := N) (s := s) (n := n + 1 - R) (q := q) (j := j - (R - 1)) (by omega) (by omega)
    rw [h4, h2]
    omega

/-- The times form a history. -/
theorem steady_span {N s R : ℕ} {v : ℚ} {T : ℕ → ℤ} (h : SteadyTeeth N s R v T) (n k : ℕ) :
    T n + k ≤ T (n + k) ∧ T (n + k) ≤ T n + k * 2 ^ 24 := by
  induction k with
  | zero => simp
  | succ k ih =>
      have h1 := h.later (n + k)
      have h2 := h.close (n + k)
      rw [← Nat.add_assoc]
      push_cast
      constructor
      · omega
      · omega

variable [FloatFmt]
open FloatFmt

/-- A tooth time measured against an average, not as long as a gap. -/
theorem not_missing {gap avg : BitVec 32} {v : ℚ} (hv1 : v ≤ 7 / 16) (hg : gap.toNat ≤ 2 ^ 24)
    (ha : 0 < avg.toNat) (h : 16 * gap.toNat ≤ 23 * avg.toNat) :
    okMissing (Fl.ofU32 gap / Fl.ofU32 avg) (.fin v) = false := by
  have r0 : rnd 0 = Fl.fin 0 := rnd_zero
  have r1 : rnd (23 / 16) = Fl.fin (23 / 16) := by
    have := rnd_dyadic 23 (-4) (by norm_num) (by norm_num)
    norm_num at this ⊢; exact this
  have r2 : rnd (25 / 16) = Fl.fin (25 / 16) := by
    have := rnd_dyadic 25 (-4) (by norm_num) (by norm_num)
    norm_num at this ⊢; exact this
  have hgq : Fl.ofU32 gap = .fin (gap.toNat : ℚ) := rnd_nat _ hg
  obtain ⟨y, hy, hy0, hyg⟩ : ∃ y : ℚ, Fl.ofU32 avg = .fin y ∧ 0 < y ∧ (gap.toNat : ℚ) ≤ 23 / 16 * y := by
    rcases Nat.lt_or_ge (2 ^ 24) avg.toNat with hgt | hle
    rotate_left
    · refine ⟨avg.toNat, rnd_nat _ hle, by exact_mod_cast ha, ?_⟩
      have : (16 * gap.toNat : ℚ) ≤ 23 * avg.toNat := by exact_mod_cast h
      linarith
    · have rb : rnd ((2 ^ 24 : ℕ) : ℚ) = Fl.fin ((2 ^ 24 : ℕ) : ℚ) := rnd_nat _ (le_refl _)
      have rt : rnd ((2 : ℚ) ^ 32) = Fl.fin (2 ^ 32) := by
        have := rnd_dyadic 1 32 (by norm_num) (by norm_num)
        norm_num at this ⊢; exact this
      obtain ⟨y, hy, hy0, hy1⟩ := rnd_between (x := (avg.toNat : ℚ)) (by exact_mod_cast hgt.le)
        (show ((avg.toNat : ℕ) : ℚ) ≤ 2 ^ 32 by exact_mod_cast avg.isLt.le) rb rt
      have hg' : (gap.toNat : ℚ) ≤ ((2 ^ 24 : ℕ) : ℚ) := by exact_mod_cast hg
      have hp : (0 : ℚ) < ((2 ^ 24 : ℕ) : ℚ) := by norm_num
      exact ⟨y, hy, by linarith, by linarith⟩
  have hq0 : (0 : ℚ) ≤ gap.toNat / y := div_nonneg (Nat.cast_nonneg _) hy0.le
  have hq1 : (gap.toNat : ℚ) / y ≤ 23 / 16 := by rw [div_le_iff₀ hy0]; exact hyg
  obtain ⟨z, hz, hz0, hz1⟩ := rnd_between hq0 hq1 r0 r1
  unfold okMissing
  rw [hgq, hy, Fl.fin_div _ _ hy0.ne', hz, Fl.fin_sub]
  have hlow : Fl.le (.fin (25 / 16)) (rnd (2 - v)) = true := le_rnd_of_le (by linarith) r2
  have : Fl.le (rnd (2 - v)) (.fin z) = false := by
    by_contra hc
    have := Fl.le_trans hlow (by simpa using hc)
    simp only [Fl.le_fin, decide_eq_true_eq] at this
    linarith
  rw [this]; rfl

theorem ratio_rnd {gap avg : BitVec 32} (hg : gap.toNat ≤ 2 ^ 24) (ha : 0 < avg.toNat) (ha2 : avg.toNat ≤ 2 ^ 24) :
    Fl.ofU32 gap / Fl.ofU32 avg = rnd ((gap.toNat : ℚ) / avg.toNat) := by
  have h1 : Fl.ofU32 gap = .fin (gap.toNat : ℚ) := rnd_nat _ hg
  have h2 : Fl.ofU32 avg = .fin (avg.toNat : ℚ) := rnd_nat _ ha2
  rw [h1, h2, Fl.fin_div _ _ (by exact_mod_cast ha.ne')]

/-- A gap measured against an average. -/
theorem is_missing {gap avg : BitVec 32} {v : ℚ} (hg : gap.toNat ≤ 2 ^ 24)
    (ha : 0 < avg.toNat) (ha2 : avg.toNat ≤ 2 ^ 24) (h1 : (2 - v) * avg.toNat ≤ gap.toNat)
    (h2 : (gap.toNat : ℚ) ≤ (2 + v) * avg.toNat) :
    okMissing (Fl.ofU32 gap / Fl.ofU32 avg) (.fin v) = true := by
  have hp : (0 : ℚ) < avg.toNat := by exact_mod_cast ha
  unfold okMissing
  rw [ratio_rnd hg ha ha2, Fl.fin_sub, Fl.fin_add, Bool.and_eq_true]
  exact ⟨rnd_mono (by rw [le_div_iff₀ hp]; exact h1), rnd_mono (by rw [div_le_iff₀ hp]; exact h2)⟩

/-- A normal tooth measured against an average. -/
theorem is_normal {gap avg : BitVec 32} {v : ℚ} (hg : gap.toNat ≤ 2 ^ 24)
    (ha : 0 < avg.toNat) (ha2 : avg.toNat ≤ 2 ^ 24) (h1 : (1 - v) * avg.toNat ≤ gap.toNat)
    (h2 : (gap.toNat : ℚ) ≤ (1 + v) * avg.toNat) :
    okNormal (Fl.ofU32 gap / Fl.ofU32 avg) (.fin v) = true := by
  have hp : (0 : ℚ) < avg.toNat := by exact_mod_cast ha
  unfold okNormal
  rw [ratio_rnd hg ha ha2, Fl.fin_sub, Fl.fin_add, Bool.and_eq_true]
  exact ⟨rnd_mono (by rw [le_div_iff₀ hp]; exact h1), rnd_mono (by rw [div_le_iff₀ hp]; exact h2)⟩

/-- The decoder's tooth history holds the latest `R + 1` tooth times. -/
def HistOk (d : Decoder) (T : ℕ → ℤ) (n R : ℕ) : Prop :=
  ∀ (i : ℕ) (h : i < 37), i ≤ R → d.times ⟨i, h⟩ = stamp (T (n - i))

omit [FloatFmt] in
theorem histOk_push {d : Decoder} {T : ℕ → ℤ} {n R : ℕ} (h : HistOk d T n R) :
    HistOk (pushTime d (stamp (T (n + 1)))) T (n + 1) (R + 1) := by
  intro i hi hR
  unfold pushTime
  simp only
  by_cases h0 : i = 0
  · rw [dif_pos h0, h0]; rfl
  · rw [dif_neg h0, h (i - 1) (by omega) (by omega)]
    congr 2
    omega

omit [FloatFmt] in
theorem histOk_mono {d : Decoder} {T : ℕ → ℤ} {n R R' : ℕ} (h : HistOk d T n R) (hR : R' ≤ R) : HistOk d T n R' :=
  fun i hi hr => h i hi (le_trans hr hR)

omit [FloatFmt] in
theorem timeAt_hist {d : Decoder} {T : ℕ → ℤ} {n R : ℕ} (h : HistOk d T n R) {i : BitVec 32} (hi : i.toNat ≤ R)
    (h37 : i.toNat < 37) : timeAt d i = .ok (stamp (T (n - i.toNat))) := by
  unfold timeAt
  rw [rd_ok d.times i.toNat h37, h i.toNat h37 hi]

/-- What the decoder measures on tooth `n + 1`. -/
theorem ratio_measured {d : Decoder} {N s R : ℕ} {v : ℚ} {T : ℕ → ℤ} {n : ℕ} (hT : SteadyTeeth N s R v T)
    (hh : HistOk d T (n + 1) R) (hreq : d.requiredTriggersRpm.toNat = R) (hR : 2 ≤ R) (hR36 : R ≤ 36)
    (hn : R ≤ n + 1) :
    ∃ gap avg : BitVec 32, missingRatio d = .ok (Fl.ofU32 gap / Fl.ofU32 avg) ∧
      (gap.toNat : ℤ) = T (n + 1) - T n ∧
      (avg.toNat : ℤ) = (T n - T (n + 1 - R)) /
        (if d.state = .sync ∧ d.triggersSinceLastSync.toNat < R - 1 then (R : ℤ) else R - 1) := by
  have h0 : timeAt d 0 = .ok (stamp (T (n + 1))) := timeAt_hist hh (i := 0) (Nat.zero_le _) (by decide)
  have h1 : timeAt d 1 = .ok (stamp (T n)) := timeAt_hist hh (i := 1) (by show 1 ≤ R; omega) (by decide)
  have h2 : timeAt d d.requiredTriggersRpm = .ok (stamp (T (n + 1 - R))) := by
    rw [timeAt_hist hh (by omega) (by omega), hreq]
  have hspan := steady_span hT (n + 1 - R) (R - 1)
  have hidx : n + 1 - R + (R - 1) = n := by omega
  rw [hidx] at hspan
  have hstep1 := hT.later n
  have hstep2 := hT.close n
  have hR1 : ((R - 1 : ℕ) : ℤ) = (R : ℤ) - 1 := by omega
  rw [hR1] at hspan
  unfold missingRatio
  rw [h0, except_bind_ok, h1, except_bind_ok, h2, except_bind_ok]
  have hc1 : (d.requiredTriggersRpm - 1).toNat = R - 1 := by
    generalize d.requiredTriggersRpm = r at *
    bv_omega
  have hc2 : (d.requiredTriggersRpm - 1 + 1).toNat = R := by
    generalize d.requiredTriggersRpm = r at *
    bv_omega
  have hgap : ((stamp (T (n + 1)) - stamp (T n)).toNat : ℤ) = T (n + 1) - T n := by
    rw [stamp_sub]; exact stamp_toNat (by omega) (by omega)
  have hwin : ((stamp (T n) - stamp (T (n + 1 - R))).toNat : ℤ) = T n - T (n + 1 - R) := by
    rw [stamp_sub]; exact stamp_toNat (by omega) (by omega)
  have hdiv : ∀ c : BitVec 32, (((stamp (T n) - stamp (T (n + 1 - R))).udiv c).toNat : ℤ) =
      (T n - T (n + 1 - R)) / (c.toNat : ℤ) := by
    intro c
    rw [← hwin]
    generalize stamp (T n) - stamp (T (n + 1 - R)) = w
    have : w.udiv c = w / c := rfl
    rw [this, BitVec.toNat_udiv]
    push_cast
    rfl
  simp only
  rw [hc1]
  by_cases hc : d.state = .sync ∧ d.triggersSinceLastSync.toNat < R - 1
  · rw [if_pos hc, if_pos hc]
    have hne : ¬ (d.requiredTriggersRpm - 1 + 1 = 0) := by
      intro h; rw [h] at hc2; change 0 = R at hc2; omega
    rw [if_neg hne]
    refine ⟨_, _, rfl, hgap, ?_⟩
    rw [hdiv, hc2]
  · rw [if_neg hc, if_neg hc]
    have hne : ¬ (d.requiredTriggersRpm - 1 = 0) := by
      intro h; rw [h] at hc1; change 0 = R - 1 at hc1; omega
    rw [if_neg hne]
    refine ⟨_, _, rfl, hgap, ?_⟩
    rw [hdiv, hc1, hR1]

/-- The decoder is configured for this wheel. -/
structure WheelCfg (d : Decoder) (N R : ℕ) (v g : ℚ) : Prop where
  count : d.numTriggers.toNat = N
  required : d.requiredTriggersRpm.toNat = R
  tolerance : d.maxRpmChange = .fin v
  pitch : d.degreesPerTrigger = .fin g
  v0 : 0 ≤ v
  v1 : v ≤ 7 / 16
  R2 : 2 ≤ R
  R36 : R ≤ 36
  RN : R + 1 ≤ N

omit [FloatFmt] in
theorem avg_bound {N s R : ℕ} {v : ℚ} {T : ℕ → ℤ} (hT : SteadyTeeth N s R v T) {n : ℕ} (hR : 2 ≤ R)
    (hn : R ≤ n + 1) {c : ℤ} (hc : (R : ℤ) - 1 ≤ c) : (T n - T (n + 1 - R)) / c ≤ 2 ^ 24 := by
  have hspan := steady_span hT (n + 1 - R) (R - 1)
  have hidx : n + 1 - R + (R - 1) = n := by omega
  rw [hidx] at hspan
  have hR1 : ((R - 1 : ℕ) : ℤ) = (R : ℤ) - 1 := by omega
  rw [hR1] at hspan
  have hc0 : 0 < c := by omega
  apply Int.le_of_lt_add_one
  rw [Int.ediv_lt_iff_lt_mul hc0]
  nlinarith

/-- A tooth in sync, within tolerance: the decoder stays in sync and moves on by the distance the wheel
moved. -/
theorem sync_step {d d' : Decoder} {N s R n : ℕ} {v g : ℚ} {T : ℕ → ℤ} {b : Bool} (hw : WheelCfg d N R v g)
    (hT : SteadyTeeth N s R v T) (hh : HistOk d T n n) (hn : R ≤ n) (hs : d.state = .sync)
    (hk : d.triggersSinceLastSync.toNat = wheelIdx N s n) (hcur : R ≤ d.currentTriggersRpm.toNat)
    (h : missingTriggerUpdate d (stamp (T (n + 1))) = .ok (d', b)) :
    ∃ k c cc e a m, d' = { pushTime d (stamp (T (n + 1))) with
        currentTriggersRpm := c, state := .sync, curRpmChange := cc, triggersSinceLastSync := k,
        lastTriggerAngle := a, lastTriggerTime := stamp (T (n + 1)), expiration := e } ∧
      k.toNat = wheelIdx N s (n + 1) ∧ R ≤ c.toNat ∧ m = wheelPos N s (n + 1) - wheelPos N s n ∧
      (m = 1 ∨ m = 2) ∧
      a = (if Fl.le (Fl.fin 720) (d.lastTriggerAngle + d.degreesPerTrigger * Fl.fin (m : ℚ)) then
            (d.lastTriggerAngle + d.degreesPerTrigger * Fl.fin (m : ℚ)) - Fl.fin 720
          else d.lastTriggerAngle + d.degreesPerTrigger * Fl.fin (m : ℚ)) := by
  have hN2 : 2 ≤ N := by have := hw.R2; have := hw.RN; omega
  have hbump : R ≤ (missingBump d (stamp (T (n + 1)))).currentTriggersRpm.toNat := by
    rcases missingBump_count d (stamp (T (n + 1))) with h1 | h1
    · omega
    · rw [h1]; exact hcur
  have hreq : d.requiredTriggersRpm.toNat ≤ (missingBump d (stamp (T (n + 1)))).currentTriggersRpm.toNat := by
    rw [hw.required]; exact hbump
  rw [mtu_sync hreq hs] at h
  have hhp : HistOk (missingBump d (stamp (T (n + 1)))) T (n + 1) R :=
    fun i hi hr => histOk_push hh i hi (by omega)
  obtain ⟨gap, avg, hratio, hgap, havg⟩ := ratio_measured hT hhp hw.required hw.R2 hw.R36 (by omega)
  have hst : (missingBump d (stamp (T (n + 1)))).state = .sync := hs
  have hkk : (missingBump d (stamp (T (n + 1)))).triggersSinceLastSync.toNat = wheelIdx N s n := hk
  rw [hst, hkk] at havg
  simp only [true_and] at havg
  have hwin := wheel_window (N := N) (s := s) (n := n) hw.R2 hw.RN (by omega)
  rw [← hwin] at havg
  have htol := hT.steady (n + 1) (by omega)
  simp only [Nat.add_sub_cancel] at htol
  rw [← havg] at htol
  have hgapq : (gap.toNat : ℚ) = T (n + 1) - T n := by exact_mod_cast hgap
  rw [← hgapq] at htol
  have hstep1 := hT.later n
  have hstep2 := hT.close n
  have hg24 : gap.toNat ≤ 2 ^ 24 := by omega
  have ha24 : avg.toNat ≤ 2 ^ 24 := by
    have := avg_bound hT (n := n) hw.R2 (by omega) (c := (wheelPos N s n : ℤ) - wheelPos N s (n + 1 - R))
      (by rw [hwin]; split_ifs <;> omega)
    omega
  have hgpos : (0 : ℚ) < gap.toNat := by
    have : 0 < gap.toNat := by omega
    exact_mod_cast this
  have hv0 := hw.v0
  have hv1 := hw.v1
  rw [hratio, except_bind_ok, hw.tolerance] at h
  rcases wheel_step (N := N) (s := s) (n := n) hN2 with ⟨e1, e2, e3⟩ | ⟨e1, e2, e3⟩
  · have hp : ((wheelPos N s (n + 1) : ℕ) : ℚ) - wheelPos N s n = 2 := by rw [e3]; push_cast; ring
    rw [hp] at htol
    have hapos : 0 < avg.toNat := by
      rcases Nat.eq_zero_or_pos avg.toNat with h0 | h0
      · rw [h0] at htol; push_cast at htol; linarith [htol.2]
      · exact h0
    have hm : okMissing (Fl.ofU32 gap / Fl.ofU32 avg) (.fin v) = true :=
      is_missing hg24 hapos ha24 (by exact_mod_cast htol.1) (by exact_mod_cast htol.2)
    rw [hm] at h
    rw [bind_eq_ok] at h; obtain ⟨d2, hd2, h⟩ := h
    simp only [Except.ok.injEq, Prod.mk.injEq] at h
    rw [← h.1]
    unfold missingExpire at hd2
    simp only [bind_eq_ok] at hd2
    obtain ⟨ex, -, ext, -, t0, -, h2⟩ := hd2
    simp only [except_pure, Except.ok.injEq] at h2
    rw [← h2]
    unfold missingAngle missingCount
    have hp1 : (missingBump d (stamp (T (n + 1)))).triggersSinceLastSync = d.triggersSinceLastSync := rfl
    have hp2 : (missingBump d (stamp (T (n + 1)))).numTriggers = d.numTriggers := rfl
    have heq : d.triggersSinceLastSync + 1 = d.numTriggers - 1 := by
      have := hw.count
      generalize d.triggersSinceLastSync = k at *
      generalize d.numTriggers = nn at *
      apply BitVec.eq_of_toNat_eq
      bv_omega
    simp only [hp1, hp2, if_pos heq, if_true]
    refine ⟨0, _, missingChange (Fl.ofU32 gap / Fl.ofU32 avg), t0 + ext, _, 2, ?_, ?_, hbump, by rw [e3]; omega, .inr rfl, rfl⟩
    · rw [← hst]; rfl
    · rw [e2]; rfl
  · have hp : ((wheelPos N s (n + 1) : ℕ) : ℚ) - wheelPos N s n = 1 := by rw [e3]; push_cast; ring
    rw [hp] at htol
    have hapos : 0 < avg.toNat := by
      rcases Nat.eq_zero_or_pos avg.toNat with h0 | h0
      · rw [h0] at htol; push_cast at htol; linarith [htol.2]
      · exact h0
    have hnm : okNormal (Fl.ofU32 gap / Fl.ofU32 avg) (.fin v) = true :=
      is_normal hg24 hapos ha24 (by exact_mod_cast htol.1) (by exact_mod_cast htol.2)
    have hm : okMissing (Fl.ofU32 gap / Fl.ofU32 avg) (.fin v) = false := by
      refine not_missing hv1 hg24 hapos ?_
      have h2 : (gap.toNat : ℚ) ≤ (1 + v) * avg.toNat := by exact_mod_cast htol.2
      have ha : (0 : ℚ) ≤ avg.toNat := Nat.cast_nonneg _
      have : (16 * gap.toNat : ℚ) ≤ 23 * avg.toNat := by nlinarith
      exact_mod_cast this
    rw [hm, hnm] at h
    rw [bind_eq_ok] at h; obtain ⟨d2, hd2, h⟩ := h
    simp only [Except.ok.injEq, Prod.mk.injEq] at h
    rw [← h.1]
    unfold missingExpire at hd2
    simp only [bind_eq_ok] at hd2
    obtain ⟨ex, -, ext, -, t0, -, h2⟩ := hd2
    simp only [except_pure, Except.ok.injEq] at h2
    rw [← h2]
    unfold missingAngle missingCount
    have hp1 : (missingBump d (stamp (T (n + 1)))).triggersSinceLastSync = d.triggersSinceLastSync := rfl
    have hp2 : (missingBump d (stamp (T (n + 1)))).numTriggers = d.numTriggers := rfl
    have hne : ¬ (d.triggersSinceLastSync + 1 = d.numTriggers - 1) := by
      have := hw.count
      generalize d.triggersSinceLastSync = k at *
      generalize d.numTriggers = nn at *
      intro hc
      have hc' := congrArg BitVec.toNat hc
      bv_omega
    have hkn : (d.triggersSinceLastSync + 1).toNat = wheelIdx N s (n + 1) := by
      have := hw.count
      have := d.numTriggers.isLt
      rw [e2, ← hk]
      generalize d.triggersSinceLastSync = k at *
      bv_omega
    simp only [hp1, hp2, if_neg hne, Bool.not_true, Bool.false_eq_true, if_false]
    refine ⟨_, _, missingChange (Fl.ofU32 gap / Fl.ofU32 avg), t0 + ext, _, 1, ?_, hkn, hbump, by rw [e3]; omega, .inl rfl, by simp only [Nat.cast_one]; rfl⟩
    rw [← hst]; rfl

/-- Not in sync, a tooth that does not look like a gap does not give sync. -/
theorem rpm_stays {d d' : Decoder} {t : Time} {b : Bool} {ratio : Fl}
    (hreq : d.requiredTriggersRpm.toNat ≤ (missingBump d t).currentTriggersRpm.toNat) (hs : d.state ≠ .sync)
    (hr : missingRatio { missingBump d t with state := .rpm } = .ok ratio)
    (hm : okMissing ratio d.maxRpmChange = false) (h : missingTriggerUpdate d t = .ok (d', b)) :
    ∃ s cc l, d' = { missingBump d t with state := s, curRpmChange := cc, loss := l } ∧ s ≠ .sync := by
  rw [mtu_rpm hreq hs, hr, except_bind_ok, hm] at h
  simp only [Except.ok.injEq, Prod.mk.injEq] at h
  rw [← h.1]
  unfold missingFromRpm
  simp only [Bool.false_eq_true, if_false]
  split_ifs
  · exact ⟨.nosync, missingChange ratio, .variation, rfl, by decide⟩
  · exact ⟨.rpm, missingChange ratio, d.loss, rfl, by decide⟩

/-- Not in sync, a tooth that looks like a gap gives sync at the reference. -/
theorem rpm_gains {d d' : Decoder} {t : Time} {b : Bool} {ratio : Fl}
    (hreq : d.requiredTriggersRpm.toNat ≤ (missingBump d t).currentTriggersRpm.toNat) (hs : d.state ≠ .sync)
    (hr : missingRatio { missingBump d t with state := .rpm } = .ok ratio)
    (hm : okMissing ratio d.maxRpmChange = true) (h : missingTriggerUpdate d t = .ok (d', b)) :
    ∃ cc, d' = { missingBump d t with
      state := .sync, curRpmChange := cc, triggersSinceLastSync := 0, lastTriggerAngle := .fin 0 } := by
  rw [mtu_rpm hreq hs, hr, except_bind_ok, hm] at h
  simp only [Except.ok.injEq, Prod.mk.injEq] at h
  rw [← h.1]
  exact ⟨missingChange ratio, rfl⟩

/-- Not in sync, with a full history: sync is gained exactly on the tooth after the gap. -/
theorem acquire_step {d d' : Decoder} {N s R n : ℕ} {v g : ℚ} {T : ℕ → ℤ} {b : Bool} (hw : WheelCfg d N R v g)
    (hT : SteadyTeeth N s R v T) (hh : HistOk d T n n) (hn : R ≤ n + 1) (hs : d.state ≠ .sync)
    (hcur : R ≤ (missingBump d (stamp (T (n + 1)))).currentTriggersRpm.toNat)
    (h : missingTriggerUpdate d (stamp (T (n + 1))) = .ok (d', b)) :
    (wheelIdx N s (n + 1) = 0 → ∃ cc, d' = { missingBump d (stamp (T (n + 1))) with
      state := .sync, curRpmChange := cc, triggersSinceLastSync := 0, lastTriggerAngle := .fin 0 }) ∧
    (wheelIdx N s (n + 1) ≠ 0 → ∃ s cc l,
      d' = { missingBump d (stamp (T (n + 1))) with state := s, curRpmChange := cc, loss := l } ∧ s ≠ .sync) := by
  have hN2 : 2 ≤ N := by have := hw.R2; have := hw.RN; omega
  have hreq : d.requiredTriggersRpm.toNat ≤ (missingBump d (stamp (T (n + 1)))).currentTriggersRpm.toNat := by
    rw [hw.required]; exact hcur
  have hhp : HistOk { missingBump d (stamp (T (n + 1))) with state := .rpm } T (n + 1) R :=
    fun i hi hr => histOk_push hh i hi (by omega)
  obtain ⟨gap, avg, hratio, hgap, havg⟩ := ratio_measured hT hhp hw.required hw.R2 hw.R36 hn
  simp only [reduceCtorEq, false_and, if_false] at havg
  have hwin := wheel_window (N := N) (s := s) (n := n) hw.R2 hw.RN (by omega)
  have htol := hT.steady (n + 1) (by omega)
  simp only [Nat.add_sub_cancel] at htol
  have hgapq : (gap.toNat : ℚ) = T (n + 1) - T n := by exact_mod_cast hgap
  rw [← hgapq] at htol
  have hstep1 := hT.later n
  have hstep2 := hT.close n
  have hg24 : gap.toNat ≤ 2 ^ 24 := by omega
  have hv0 := hw.v0
  have hv1 := hw.v1
  have hspan := steady_span hT (n + 1 - R) (R - 1)
  have hidx : n + 1 - R + (R - 1) = n := by have := hw.R2; omega
  rw [hidx] at hspan
  have hR2 := hw.R2
  have ha24 : avg.toNat ≤ 2 ^ 24 := by
    have := avg_bound hT (n := n) hw.R2 hn (c := (R : ℤ) - 1) (le_refl _)
    omega
  constructor
  · intro hidx0
    rcases wheel_step (N := N) (s := s) (n := n) hN2 with ⟨e1, e2, e3⟩ | ⟨e1, e2, e3⟩
    · have hp : ((wheelPos N s (n + 1) : ℕ) : ℚ) - wheelPos N s n = 2 := by rw [e3]; push_cast; ring
      rw [if_neg (show ¬ wheelIdx N s n < R - 1 by have := hw.RN; omega)] at hwin
      rw [hwin, ← havg, hp] at htol
      have hgpos : (0 : ℚ) < gap.toNat := by
        have : 0 < gap.toNat := by omega
        exact_mod_cast this
      have hapos : 0 < avg.toNat := by
        rcases Nat.eq_zero_or_pos avg.toNat with h0 | h0
        · rw [h0] at htol; push_cast at htol; linarith [htol.2]
        · exact h0
      exact rpm_gains hreq hs hratio (by
        rw [hw.tolerance]
        exact is_missing hg24 hapos ha24 (by exact_mod_cast htol.1) (by exact_mod_cast htol.2)) h
    · omega
  · intro hidx0
    rcases wheel_step (N := N) (s := s) (n := n) hN2 with ⟨e1, e2, e3⟩ | ⟨e1, e2, e3⟩
    · exact absurd e2 hidx0
    · have hp : ((wheelPos N s (n + 1) : ℕ) : ℚ) - wheelPos N s n = 1 := by rw [e3]; push_cast; ring
      rw [hp] at htol
      have hgpos : (0 : ℚ) < gap.toNat := by
        have : 0 < gap.toNat := by omega
        exact_mod_cast this
      have hle : (T n - T (n + 1 - R)) / ((wheelPos N s n : ℤ) - wheelPos N s (n + 1 - R)) ≤ (avg.toNat : ℤ) := by
        rw [havg, hwin]
        split_ifs
        · have hpos : (0 : ℤ) < (R : ℤ) - 1 := by omega
          rw [Int.le_ediv_iff_mul_le hpos]
          have h1 : 0 ≤ (T n - T (n + 1 - R)) / (R : ℤ) := Int.ediv_nonneg (by omega) (by omega)
          have h2 := Int.ediv_mul_le (T n - T (n + 1 - R)) (b := (R : ℤ)) (by omega)
          nlinarith
        · exact le_refl _
      have hleq : (((T n - T (n + 1 - R)) / ((wheelPos N s n : ℤ) - wheelPos N s (n + 1 - R)) : ℤ) : ℚ) ≤ avg.toNat := by
        exact_mod_cast hle
      have h2 : (gap.toNat : ℚ) ≤ (1 + v) * avg.toNat :=
        le_trans htol.2 (mul_le_mul_of_nonneg_left hleq (by linarith))
      have ha : (0 : ℚ) ≤ avg.toNat := Nat.cast_nonneg _
      have hapos : 0 < avg.toNat := by
        rcases Nat.eq_zero_or_pos avg.toNat with h0 | h0
        · rw [h0] at h2; push_cast at h2; linarith
        · exact h0
      have h16 : (16 * gap.toNat : ℚ) ≤ 23 * avg.toNat := by nlinarith
      exact rpm_stays hreq hs hratio (by
        rw [hw.tolerance]
        exact not_missing hv1 hg24 hapos (by exact_mod_cast h16)) h

end Verif
