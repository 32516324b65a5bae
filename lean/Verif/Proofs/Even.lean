/-
Lemmas about the even-wheel decoder on steady teeth.
-/
import Verif.Proofs.Total
import Verif.Proofs.Decoder
import Verif.Spec.Even

namespace Verif

variable [FloatFmt]
open FloatFmt Fl

/-- Rounded rpms that are close to real speeds within tolerance are within tolerance. -/
theorem not_excessive {d : Decoder} {S A v : ℚ} {low : ℕ} (hv : d.maxRpmChange = .fin v) (hv0 : 0 ≤ v) (hv1 : v ≤ 1)
    (hlow : d.minRpm.toNat = low) (hS : (low : ℚ) + 2 ≤ S) (hS2 : S ≤ 100000) (hA2 : A ≤ 100000)
    (hband : |S - A| + 3 ≤ v * A)
    (ht1 : S * (1 - 1 / 2 ^ 21) - 1 ≤ (d.toothRpm.toNat : ℚ)) (ht2 : (d.toothRpm.toNat : ℚ) ≤ S * (1 + 1 / 2 ^ 21))
    (hr1 : A * (1 - 1 / 2 ^ 21) - 1 ≤ (d.rpm.toNat : ℚ)) (hr2 : (d.rpm.toNat : ℚ) ≤ A * (1 + 1 / 2 ^ 21)) :
    evenExcessive d = false := by
  have hlow0 : (0 : ℚ) ≤ low := Nat.cast_nonneg _
  have hb0 := abs_nonneg (S - A)
  have hb1 := le_abs_self (S - A)
  have hb2 := neg_abs_le (S - A)
  norm_num at ht1 ht2 hr1 hr2
  have hA3 : 3 ≤ A := by
    by_contra hc
    have : v * A ≤ 1 * 3 := by
      rcases le_or_gt 0 A with h | h
      · exact mul_le_mul hv1 (by linarith) h (by norm_num)
      · nlinarith
    rcases le_or_gt A 0 with h | h
    · nlinarith
    · nlinarith
  have hx2 : (d.toothRpm.toNat : ℚ) ≤ 100001 := by linarith
  have hy2 : (d.rpm.toNat : ℚ) ≤ 100001 := by linarith
  have hx24 : d.toothRpm.toNat ≤ 2 ^ 24 := by
    have : d.toothRpm.toNat ≤ 100001 := by exact_mod_cast hx2
    omega
  have hy24 : d.rpm.toNat ≤ 2 ^ 24 := by
    have : d.rpm.toNat ≤ 100001 := by exact_mod_cast hy2
    omega
  have hx : Fl.ofU32 d.toothRpm = .fin d.toothRpm.toNat := rnd_nat _ hx24
  have hy : Fl.ofU32 d.rpm = .fin d.rpm.toNat := rnd_nat _ hy24
  have hmin : ¬ d.toothRpm.toNat ≤ d.minRpm.toNat := by
    rw [hlow]
    intro hc
    have : (d.toothRpm.toNat : ℚ) ≤ low := by exact_mod_cast hc
    linarith
  have hxr : rnd (d.toothRpm.toNat : ℚ) = .fin d.toothRpm.toNat := rnd_nat _ hx24
  unfold evenExcessive
  rw [hx, hy, hv]
  generalize (d.toothRpm.toNat : ℚ) = x at *
  generalize (d.rpm.toNat : ℚ) = y at *
  have hvA : v * A ≤ 1 * A := mul_le_mul_of_nonneg_right hv1 (by linarith)
  have hyv : 3 / 2 ≤ y * v := by nlinarith
  have hyv2 : y * v ≤ 100001 := by nlinarith
  obtain ⟨a, ha, ha1, ha2⟩ := rnd_factor (x := y * v) (by
    refine le_trans ?_ hyv
    norm_num) (by
    refine le_trans hyv2 ?_
    norm_num)
  norm_num at ha1 ha2
  have hp1 : y * v - 1 / 100 ≤ y * v * a := by nlinarith
  have hp2 : y * v * a ≤ y * v + 1 / 100 := by nlinarith
  rw [fin_mul, ha, fin_add, fin_sub]
  generalize y * v * a = p at *
  -- upper side
  obtain ⟨b, hb, hb1', hb2'⟩ := rnd_factor (x := y + p) (by
    have : (1 : ℚ) ≤ y + p := by linarith
    refine le_trans ?_ this
    norm_num) (by
    have : y + p ≤ 300000 := by linarith
    refine le_trans this ?_
    norm_num)
  norm_num at hb1' hb2'
  have hup : y + p - 1 / 10 ≤ (y + p) * b := by nlinarith
  have hupper : Fl.lt (rnd (y + p)) (.fin x) = false := by
    rw [hb]
    have : ¬ ((y + p) * b < x) := by
      have h1 : (A - 1 - 1 / 10) * (1 + v) ≤ y * (1 + v) := mul_le_mul_of_nonneg_right (by linarith) (by linarith)
      nlinarith
    simpa using this
  -- lower side
  have hlo : y - p ≤ x - 1 / 10 := by
    have h1 : y * (1 - v) ≤ (A + 1 / 10) * (1 - v) := mul_le_mul_of_nonneg_right (by linarith) (by linarith)
    nlinarith
  have hlower : Fl.lt (.fin x) (rnd (y - p)) = false := by
    have := rnd_le_of_le (show y - p ≤ x by linarith) hxr
    exact not_lt_of_le this
  rw [hupper, hlower]
  simpa using hmin

/-- The settings of an even wheel with `N` teeth per cycle. -/
structure EvenCfg (d : Decoder) (N R W : ℕ) (v g : ℚ) (low : ℕ) : Prop where
  count : d.numTriggers.toNat = N
  required : d.requiredTriggersRpm.toNat = R
  window : d.rpmWindowSize.toNat = W
  tolerance : d.maxRpmChange = .fin v
  pitch : d.degreesPerTrigger = .fin g
  slowest : d.minRpm.toNat = low
  v0 : 0 ≤ v
  v1 : v ≤ 1
  R2 : 2 ≤ R
  W2 : 2 ≤ W
  W36 : W ≤ 36
  g1 : 1 ≤ g
  g360 : g ≤ 360
  grid : ∀ k : ℕ, k ≤ 36 → rnd (g * k) = .fin (g * k)

omit [FloatFmt] in
theorem later_le {T : ℕ → ℤ} (later : ∀ n, T n < T (n + 1)) (n k : ℕ) : T n + k ≤ T (n + k) := by
  induction k with
  | zero => simp
  | succ k ih =>
      have := later (n + k)
      rw [← Nat.add_assoc]
      push_cast
      omega

omit [FloatFmt] in
/-- A speed of at least 2 rpm over at most 12960 degrees takes less than 2^32 ticks. -/
theorem ticks_of_speed {deg : ℚ} {D : ℤ} (hD : 0 < D) (h : 2 ≤ speed deg D) (hdeg : deg ≤ 12000) :
    D ≤ 4000000000 := by
  unfold speed at h
  have hq : (0 : ℚ) < 360 * D := by
    have : (0 : ℚ) < D := by exact_mod_cast hD
    linarith
  rw [le_div_iff₀ hq] at h
  have : (D : ℚ) ≤ 4000000000 := by linarith
  exact_mod_cast this

theorem evenAdvance_sync {d : Decoder} {t : Time} {g : ℚ} (hs : d.state = .sync) (hp : d.degreesPerTrigger = .fin g) :
    evenAdvance d t = { d with
      lastTriggerTime := t,
      lastTriggerAngle :=
        if Fl.le (Fl.fin 720) (d.lastTriggerAngle + .fin g) then (d.lastTriggerAngle + .fin g) - Fl.fin 720
        else d.lastTriggerAngle + .fin g } := by
  unfold evenAdvance
  rw [if_pos hs, hp]

theorem evenWindowRpm_ok {d : Decoder} {w r : BitVec 32} {tw t0 : Time}
    (h1 : evenWindow d.currentTriggersRpm d.rpmWindowSize = w) (h2 : 1 < w.toNat) (h3 : timeAt d w = .ok tw)
    (h4 : timeAt d 0 = .ok t0) (h5 : rpmFromTimeDiff (t0 - tw) (d.degreesPerTrigger * Fl.ofU32 w) = .ok r) :
    ∃ cc, evenWindowRpm d = .ok { d with rpm := r, curRpmChange := cc } := by
  unfold evenWindowRpm
  simp only
  rw [h1, if_pos h2, h3, except_bind_ok, h4, except_bind_ok, h5, except_bind_ok]
  by_cases hr : r = 0
  · rw [if_neg (by simpa using hr)]; exact ⟨d.curRpmChange, rfl⟩
  · rw [if_pos hr]; exact ⟨_, rfl⟩

theorem evenUpdateRpm_ok {d d1 : Decoder} {tr x : BitVec 32} {t1 t0 : Time} (h0 : timeAt d 0 = .ok t0)
    (h1 : timeAt d 1 = .ok t1) (h2 : rpmFromTimeDiff (t0 - t1) d.degreesPerTrigger = .ok tr)
    (h3 : evenWindowRpm { d with toothRpm := tr } = .ok d1)
    (h4 : Fl.toU32 (Fl.ofU32 (t0 - t1) * Fl.fin (3 / 2)) = .ok x) :
    evenUpdateRpm d = .ok { evenChecks d1 with expiration := t0 + x } := by
  unfold evenUpdateRpm
  rw [h0, except_bind_ok, h1, except_bind_ok]
  simp only
  rw [h2, except_bind_ok, h3, except_bind_ok, h4, except_bind_ok]
  rfl

/-- The speed of a tooth within tolerance is accepted. -/
theorem even_update {d2 : Decoder} {T : ℕ → ℤ} {n N R W low : ℕ} {v g : ℚ} (hc : EvenCfg d2 N R W v g low)
    (hT : EvenSteady W R v g low T) (hd2h : HistOk d2 T (n + 1) (n + 1)) (hW : W ≤ n + 1)
    (hk : d2.triggersSinceLastSync.toNat ≤ N) (hcR : R ≤ d2.currentTriggersRpm.toNat)
    (_hc37 : d2.currentTriggersRpm.toNat ≤ 37) :
    ∃ tr r cc x, evenUpdateRpm d2 = .ok { d2 with toothRpm := tr, rpm := r, curRpmChange := cc, expiration := stamp (T (n + 1)) + x } ∧
      rpmFromTimeDiff (stamp (T (n + 1)) - stamp (T n)) (.fin g) = .ok tr ∧
      Fl.toU32 (Fl.ofU32 (stamp (T (n + 1)) - stamp (T n)) * Fl.fin (3 / 2)) = .ok x ∧
      ∃ w, 1 ≤ w ∧ w ≤ n + 1 ∧ speed (g * w) (T (n + 1) - T (n + 1 - w)) * (1 - 1 / 2 ^ 21) - 1 ≤ (r.toNat : ℚ) ∧
        (r.toNat : ℚ) ≤ speed (g * w) (T (n + 1) - T (n + 1 - w)) * (1 + 1 / 2 ^ 21) := by
  have hR2 := hc.R2
  have hW2 := hc.W2
  have hW36 := hc.W36
  have hdiff := hT.later n
  have hfast := hT.fast (n + 1) (by omega)
  rw [Nat.add_sub_cancel] at hfast
  have hlow0 : (0 : ℚ) ≤ low := Nat.cast_nonneg _
  have hD1 := ticks_of_speed (deg := g) (D := T (n + 1) - T n) (by omega) (by linarith) (by linarith [hc.g360])
  -- the window
  have hw : ∃ w : BitVec 32, evenWindow d2.currentTriggersRpm d2.rpmWindowSize = w ∧ 2 ≤ w.toNat ∧ min R W ≤ w.toNat ∧ w.toNat ≤ W := by
    unfold evenWindow
    rw [hc.window]
    split_ifs with h
    · exact ⟨d2.currentTriggersRpm, rfl, by omega, by omega, by omega⟩
    · exact ⟨_, rfl, by rw [hc.window]; omega, by rw [hc.window]; omega, by rw [hc.window]⟩
  obtain ⟨w, hw, hw2, hwR, hwW⟩ := hw
  obtain ⟨hband, hA2⟩ := hT.steady (n + 1) w.toNat hw2 hwR hwW (by omega)
  rw [Nat.add_sub_cancel] at hband
  have hspan := later_le hT.later (n + 1 - w.toNat) w.toNat
  rw [Nat.sub_add_cancel (by omega : w.toNat ≤ n + 1)] at hspan
  have hA3 : 3 ≤ speed (g * w.toNat) (T (n + 1) - T (n + 1 - w.toNat)) := by
    have h0 := abs_nonneg (speed g (T (n + 1) - T n) - speed (g * w.toNat) (T (n + 1) - T (n + 1 - w.toNat)))
    generalize speed (g * w.toNat) (T (n + 1) - T (n + 1 - w.toNat)) = A at *
    have h3 : 3 ≤ v * A := by linarith
    by_contra hlt
    rcases le_or_gt A 0 with h | h
    · nlinarith [hc.v0]
    · nlinarith [hc.v1]
  have hgw : g * w.toNat ≤ 12960 := by
    have : (w.toNat : ℚ) ≤ 36 := by exact_mod_cast (by omega : w.toNat ≤ 36)
    have := hc.g360
    have := hc.g1
    nlinarith
  have hgw1 : 1 ≤ g * w.toNat := by
    have : (1 : ℚ) ≤ w.toNat := by exact_mod_cast (by omega : 1 ≤ w.toNat)
    have := hc.g1
    nlinarith
  have hD2 : T (n + 1) - T (n + 1 - w.toNat) < 2 ^ 32 := by
    have hpos : 0 < T (n + 1) - T (n + 1 - w.toNat) := by omega
    unfold speed at hA3
    have hq : (0 : ℚ) < 360 * ((T (n + 1) - T (n + 1 - w.toNat) : ℤ) : ℚ) := by
      have : (0 : ℚ) < ((T (n + 1) - T (n + 1 - w.toNat) : ℤ) : ℚ) := by exact_mod_cast hpos
      linarith
    rw [le_div_iff₀ hq] at hA3
    have : ((T (n + 1) - T (n + 1 - w.toNat) : ℤ) : ℚ) < 4294967296 := by linarith
    have : T (n + 1) - T (n + 1 - w.toNat) < 4294967296 := by exact_mod_cast this
    omega
  have hgap : ((stamp (T (n + 1)) - stamp (T n)).toNat : ℤ) = T (n + 1) - T n := by
    rw [stamp_sub]; exact stamp_toNat (by omega) (by omega)
  have hgapw : ((stamp (T (n + 1)) - stamp (T (n + 1 - w.toNat))).toNat : ℤ) = T (n + 1) - T (n + 1 - w.toNat) := by
    rw [stamp_sub]; exact stamp_toNat (by omega) (by omega)
  -- the speeds
  obtain ⟨tr, htr, htr1, htr2⟩ := rpm_close (t := stamp (T (n + 1)) - stamp (T n)) (q := g) (by omega) hc.g1
    (by have := hc.g360; norm_num; linarith) (by
      have : ((stamp (T (n + 1)) - stamp (T n)).toNat : ℚ) = ((T (n + 1) - T n : ℤ) : ℚ) := by exact_mod_cast hgap
      rw [this]
      have h2 := hfast.2
      unfold speed at h2
      norm_num at h2 ⊢
      linarith)
  obtain ⟨r, hr, hr1, hr2⟩ := rpm_close (t := stamp (T (n + 1)) - stamp (T (n + 1 - w.toNat))) (q := g * w.toNat) (by omega) hgw1
    (by norm_num; linarith) (by
      have : ((stamp (T (n + 1)) - stamp (T (n + 1 - w.toNat))).toNat : ℚ) =
        ((T (n + 1) - T (n + 1 - w.toNat) : ℤ) : ℚ) := by exact_mod_cast hgapw
      rw [this]
      have h2 := hA2
      unfold speed at h2
      norm_num at h2 ⊢
      linarith)
  have e1 : ((stamp (T (n + 1)) - stamp (T n)).toNat : ℚ) = ((T (n + 1) - T n : ℤ) : ℚ) := by exact_mod_cast hgap
  have e2 : ((stamp (T (n + 1)) - stamp (T (n + 1 - w.toNat))).toNat : ℚ) =
    ((T (n + 1) - T (n + 1 - w.toNat) : ℤ) : ℚ) := by exact_mod_cast hgapw
  rw [e1] at htr1 htr2
  rw [e2] at hr1 hr2
  change speed g (T (n + 1) - T n) * _ - 1 ≤ _ at htr1
  change _ ≤ speed g (T (n + 1) - T n) * _ at htr2
  change speed (g * w.toNat) (T (n + 1) - T (n + 1 - w.toNat)) * _ - 1 ≤ _ at hr1
  change _ ≤ speed (g * w.toNat) (T (n + 1) - T (n + 1 - w.toNat)) * _ at hr2
  -- the extension of the expiry
  obtain ⟨x, hx⟩ : ∃ x, Fl.toU32 (Fl.ofU32 (stamp (T (n + 1)) - stamp (T n)) * Fl.fin (3 / 2)) = .ok x := by
    have hle : T (n + 1) - T n ≤ 2 ^ 30 := by
      have h2 : 2 ≤ speed g (T (n + 1) - T n) := by linarith [hfast.1]
      unfold speed at h2
      have hq : (0 : ℚ) < 360 * ((T (n + 1) - T n : ℤ) : ℚ) := by
        have : (0 : ℚ) < ((T (n + 1) - T n : ℤ) : ℚ) := by exact_mod_cast (by omega : 0 < T (n + 1) - T n)
        linarith
      rw [le_div_iff₀ hq] at h2
      have := hc.g360
      have : ((T (n + 1) - T n : ℤ) : ℚ) ≤ 1000000000 := by linarith
      have : T (n + 1) - T n ≤ 1000000000 := by exact_mod_cast this
      omega
    have h12 : (Fl.fin (3 / 2) : Fl) = Fl.fin 1 + Fl.fin (1 / 2) := by
      rw [fin_add]
      have := rnd_dyadic 3 (-1) (by norm_num) (by norm_num)
      norm_num at this ⊢
      exact this.symm
    rw [h12]
    exact lengthen_total (by omega) (by norm_num) (by norm_num)
  have h0 : timeAt d2 0 = .ok (stamp (T (n + 1))) := timeAt_hist hd2h (i := 0) (Nat.zero_le _) (by decide)
  have h1 : timeAt d2 1 = .ok (stamp (T n)) := timeAt_hist hd2h (i := 1) (by show 1 ≤ n + 1; omega) (by decide)
  have hwt : timeAt d2 w = .ok (stamp (T (n + 1 - w.toNat))) := timeAt_hist hd2h (by omega) (by omega)
  have hofw : d2.degreesPerTrigger * Fl.ofU32 w = .fin (g * w.toNat) := by
    unfold Fl.ofU32
    rw [rnd_nat _ (by omega), hc.pitch, fin_mul, hc.grid _ (by omega)]
  have hwin : ∃ cc, evenWindowRpm { d2 with toothRpm := tr } = .ok { d2 with toothRpm := tr, rpm := r, curRpmChange := cc } := by
    exact evenWindowRpm_ok (d := { d2 with toothRpm := tr }) (w := w) (by show evenWindow d2.currentTriggersRpm d2.rpmWindowSize = w; rw [hw])
      (by omega) hwt h0 (by show rpmFromTimeDiff _ (d2.degreesPerTrigger * Fl.ofU32 w) = _; rw [hofw]; exact hr)
  obtain ⟨cc, hwin⟩ := hwin
  have hchk : evenChecks { d2 with toothRpm := tr, rpm := r, curRpmChange := cc } =
      { d2 with toothRpm := tr, rpm := r, curRpmChange := cc } := by
    unfold evenChecks
    have hex : evenExcessive { d2 with toothRpm := tr, rpm := r, curRpmChange := cc } = false := by
      refine not_excessive (S := speed g (T (n + 1) - T n)) (A := speed (g * w.toNat) (T (n + 1) - T (n + 1 - w.toNat)))
        (v := v) (low := low) ?_ hc.v0 hc.v1 ?_ hfast.1 hfast.2 hA2 hband htr1 htr2 hr1 hr2
      · exact hc.tolerance
      · exact hc.slowest
    rw [hex]
    simp only [Bool.false_eq_true, if_false]
    rw [if_neg]
    have e3 := hc.count
    show ¬ (d2.numTriggers.toNat < d2.triggersSinceLastSync.toNat)
    omega
  have hupd : evenUpdateRpm d2 = .ok { d2 with toothRpm := tr, rpm := r, curRpmChange := cc, expiration := stamp (T (n + 1)) + x } := by
    rw [evenUpdateRpm_ok h0 h1 (by rw [hc.pitch]; exact htr) hwin hx, hchk]
  exact ⟨_, _, _, _, hupd, htr, hx, w.toNat, by omega, by omega, hr1, hr2⟩

/-- A tooth in sync and within tolerance. -/
theorem even_step {d : Decoder} {T : ℕ → ℤ} {n N R W low : ℕ} {v g : ℚ} (hc : EvenCfg d N R W v g low)
    (hT : EvenSteady W R v g low T) (hh : HistOk d T n n) (hW : W ≤ n + 1) (hs : d.state = .sync)
    (hk : d.triggersSinceLastSync.toNat < N) (hcur : R ≤ d.currentTriggersRpm.toNat)
    (hcur2 : d.currentTriggersRpm.toNat ≤ 37) :
    ∃ tr r cc e c, evenTriggerUpdate d (stamp (T (n + 1))) = .ok ({ pushTime d (stamp (T (n + 1))) with
        triggersSinceLastSync := d.triggersSinceLastSync + 1, currentTriggersRpm := c, toothRpm := tr, rpm := r,
        curRpmChange := cc, expiration := e, lastTriggerTime := stamp (T (n + 1)),
        lastTriggerAngle :=
          if Fl.le (Fl.fin 720) (d.lastTriggerAngle + .fin g) then (d.lastTriggerAngle + .fin g) - Fl.fin 720
          else d.lastTriggerAngle + .fin g }, true) ∧
      R ≤ c.toNat ∧ c.toNat ≤ 37 := by
  have hR2 := hc.R2
  have hW2 := hc.W2
  have hW36 := hc.W36
  -- the bookkeeping
  obtain ⟨c, hcc, hb⟩ : ∃ c : BitVec 32, (R ≤ c.toNat ∧ c.toNat ≤ 37) ∧ evenBook d (stamp (T (n + 1))) =
      { pushTime d (stamp (T (n + 1))) with
        triggersSinceLastSync := d.triggersSinceLastSync + 1, currentTriggersRpm := c } := by
    obtain ⟨c, s, hb, hs', hcc, -⟩ := evenBook_frame d (stamp (T (n + 1)))
    have hse : s = d.state := by
      rcases hs' with h | h
      · exact h
      · rw [hs] at h; exact absurd h.1 (by decide)
    refine ⟨c, ?_, by rw [hb, hse]; rfl⟩
    rcases hcc with ⟨h1, h2⟩ | h
    · have h1' : c.toNat ≤ 37 := h1
      omega
    · rw [h]; omega
  obtain ⟨hcR, hc37⟩ := hcc
  have hadv : evenAdvance (evenBook d (stamp (T (n + 1)))) (stamp (T (n + 1))) =
      { pushTime d (stamp (T (n + 1))) with
        triggersSinceLastSync := d.triggersSinceLastSync + 1, currentTriggersRpm := c,
        lastTriggerTime := stamp (T (n + 1)),
        lastTriggerAngle :=
          if Fl.le (Fl.fin 720) (d.lastTriggerAngle + .fin g) then (d.lastTriggerAngle + .fin g) - Fl.fin 720
          else d.lastTriggerAngle + .fin g } := by
    rw [hb]
    exact evenAdvance_sync (d := { pushTime d (stamp (T (n + 1))) with
        triggersSinceLastSync := d.triggersSinceLastSync + 1, currentTriggersRpm := c }) hs hc.pitch
  unfold evenTriggerUpdate
  simp only
  rw [hadv]
  generalize hd2 : ({ pushTime d (stamp (T (n + 1))) with
        triggersSinceLastSync := d.triggersSinceLastSync + 1, currentTriggersRpm := c,
        lastTriggerTime := stamp (T (n + 1)),
        lastTriggerAngle :=
          if Fl.le (Fl.fin 720) (d.lastTriggerAngle + .fin g) then (d.lastTriggerAngle + .fin g) - Fl.fin 720
          else d.lastTriggerAngle + .fin g } : Decoder) = d2
  have hd2s : d2.state = .sync := by rw [← hd2]; exact hs
  have hd2h : HistOk d2 T (n + 1) (n + 1) := by
    have := histOk_push hh
    rw [← hd2]; exact this
  have hd2c : d2.currentTriggersRpm = c := by rw [← hd2]
  have hcfg : EvenCfg d2 N R W v g low := by
    rw [← hd2]
    exact ⟨hc.count, hc.required, hc.window, hc.tolerance, hc.pitch, hc.slowest, hc.v0, hc.v1, hc.R2, hc.W2, hc.W36,
      hc.g1, hc.g360, hc.grid⟩
  have e4 : d2.triggersSinceLastSync.toNat = d.triggersSinceLastSync.toNat + 1 := by
    rw [← hd2]
    have := hc.count
    have := d.numTriggers.isLt
    show (d.triggersSinceLastSync + 1).toNat = _
    generalize d.triggersSinceLastSync = k at *
    bv_omega
  obtain ⟨tr, r, cc, e, hupd, -⟩ := even_update hcfg hT hd2h hW (by omega) (by rw [hd2c]; exact hcR) (by rw [hd2c]; exact hc37)
  rw [if_pos (Or.inr hd2s), hupd, except_bind_ok]
  refine ⟨tr, r, cc, stamp (T (n + 1)) + e, c, ?_, hcR, hc37⟩
  rw [← hd2]
  rfl

omit [FloatFmt] in
theorem evenBook_cur (d : Decoder) (t : Time) :
    ∃ c s, evenBook d t = { pushTime d t with
        triggersSinceLastSync := d.triggersSinceLastSync + 1, currentTriggersRpm := c, state := s } ∧
      s = (if d.state = .nosync ∧ d.requiredTriggersRpm.toNat ≤ c.toNat then .rpm else d.state) ∧
      c.toNat = if d.currentTriggersRpm.toNat < 37 then d.currentTriggersRpm.toNat + 1 else d.currentTriggersRpm.toNat := by
  unfold evenBook
  simp only
  by_cases h : (pushTime d t).currentTriggersRpm.toNat < maxTriggers + 1
  · simp only [if_pos h]
    have h' : d.currentTriggersRpm.toNat < 37 := h
    have hc : (d.currentTriggersRpm + 1).toNat = d.currentTriggersRpm.toNat + 1 := by bv_omega
    split_ifs with hs
    · have hs' : d.state = .nosync ∧ d.requiredTriggersRpm.toNat ≤ (d.currentTriggersRpm + 1).toNat := hs
      exact ⟨d.currentTriggersRpm + 1, .rpm, rfl, by rw [if_pos hs'], hc⟩
    · have hs' : ¬ (d.state = .nosync ∧ d.requiredTriggersRpm.toNat ≤ (d.currentTriggersRpm + 1).toNat) := hs
      exact ⟨d.currentTriggersRpm + 1, d.state, rfl, by rw [if_neg hs'], hc⟩
  · simp only [if_neg h]
    have h' : ¬ d.currentTriggersRpm.toNat < 37 := h
    rw [if_neg h']
    by_cases hs : (pushTime d t).state = .nosync ∧ (pushTime d t).requiredTriggersRpm.toNat ≤ (pushTime d t).currentTriggersRpm.toNat
    · rw [if_pos hs]
      have hs' : d.state = .nosync ∧ d.requiredTriggersRpm.toNat ≤ d.currentTriggersRpm.toNat := hs
      exact ⟨d.currentTriggersRpm, .rpm, rfl, by rw [if_pos hs'], rfl⟩
    · rw [if_neg hs]
      have hs' : ¬ (d.state = .nosync ∧ d.requiredTriggersRpm.toNat ≤ d.currentTriggersRpm.toNat) := hs
      exact ⟨d.currentTriggersRpm, d.state, rfl, by rw [if_neg hs'], rfl⟩

theorem evenTriggerUpdate_cur {d d' : Decoder} {t : Time} {b : Bool} (h : evenTriggerUpdate d t = .ok (d', b)) :
    d'.currentTriggersRpm = (evenBook d t).currentTriggersRpm := by
  unfold evenTriggerUpdate at h
  obtain ⟨a, lt, ha⟩ := evenAdvance_frame (evenBook d t) t
  simp only at h
  rw [ha] at h
  split_ifs at h
  · rw [bind_eq_ok] at h; obtain ⟨d2, hd2, h⟩ := h
    obtain ⟨tr, r, cc, s', l, e, rfl, hs'⟩ := evenUpdateRpm_frame hd2
    simp only [except_pure, Except.ok.injEq, Prod.mk.injEq] at h
    rw [← h.1]
  · simp only [except_pure, Except.ok.injEq, Prod.mk.injEq] at h
    rw [← h.1]

/-- A tooth within tolerance, before synchronisation, with enough teeth seen. -/
theorem even_ready {d : Decoder} {T : ℕ → ℤ} {n N R W low : ℕ} {v g : ℚ} (hc : EvenCfg d N R W v g low)
    (hT : EvenSteady W R v g low T) (hh : HistOk d T n n) (hW : W ≤ n + 1) (hs : d.state ≠ .sync)
    (hk : d.triggersSinceLastSync.toNat = n + 1) (hnN : n + 1 < N) (hR : R ≤ min (n + 1 + 1) 37)
    (hcur : d.currentTriggersRpm.toNat = min (n + 1) 37) :
    ∃ d1, evenTriggerUpdate d (stamp (T (n + 1))) = .ok (d1, true) ∧ d1.state = .rpm ∧ d1.cfg = d.cfg := by
  obtain ⟨c, s, hb, hs', hcc⟩ := evenBook_cur d (stamp (T (n + 1)))
  have hcR : R ≤ c.toNat := by rw [hcc, hcur]; split_ifs <;> omega
  have hsr : s = .rpm := by
    rw [hs']
    by_cases h : d.state = .nosync
    · rw [if_pos ⟨h, by rw [hc.required]; exact hcR⟩]
    · rw [if_neg (fun hh => h hh.1)]
      cases hst : d.state
      · exact absurd hst h
      · rfl
      · exact absurd hst hs
  subst hsr
  have hadv : evenAdvance (evenBook d (stamp (T (n + 1)))) (stamp (T (n + 1))) = evenBook d (stamp (T (n + 1))) := by
    unfold evenAdvance
    rw [if_neg (by rw [hb]; show ¬ (DecState.rpm = .sync); decide)]
  unfold evenTriggerUpdate
  simp only
  rw [hadv]
  have hd2s : (evenBook d (stamp (T (n + 1)))).state = .rpm := by rw [hb]
  have hd2h : HistOk (evenBook d (stamp (T (n + 1)))) T (n + 1) (n + 1) := by
    rw [hb]; exact histOk_push hh
  have hd2c : (evenBook d (stamp (T (n + 1)))).currentTriggersRpm = c := by rw [hb]
  have hd2k : (evenBook d (stamp (T (n + 1)))).triggersSinceLastSync.toNat ≤ N := by
    rw [hb]
    show (d.triggersSinceLastSync + 1).toNat ≤ N
    have := hc.count
    have := d.numTriggers.isLt
    generalize d.triggersSinceLastSync = k at *
    bv_omega
  have hcf : (evenBook d (stamp (T (n + 1)))).cfg = d.cfg := by rw [hb]; rfl
  have hcfg : EvenCfg (evenBook d (stamp (T (n + 1)))) N R W v g low := by
    rw [hb]
    exact ⟨hc.count, hc.required, hc.window, hc.tolerance, hc.pitch, hc.slowest, hc.v0, hc.v1, hc.R2, hc.W2, hc.W36,
      hc.g1, hc.g360, hc.grid⟩
  generalize evenBook d (stamp (T (n + 1))) = d2 at *
  obtain ⟨tr, r, cc, e, hupd, -⟩ := even_update hcfg hT hd2h hW hd2k (by rw [hd2c]; exact hcR)
    (by rw [hd2c, hcc, hcur]; split_ifs <;> omega)
  rw [if_pos (Or.inl hd2s), hupd, except_bind_ok]
  exact ⟨_, rfl, hd2s, hcf⟩

end Verif
