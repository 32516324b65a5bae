/-
Lemmas for C66: the expiry time lies beyond the next tooth.
-/
import Verif.Proofs.Expire
import Verif.Props.CamTotal
import Verif.Spec.Turn

namespace Verif

variable [FloatFmt]
open FloatFmt

/-- An upper bound for the speeds reported on a wheel whose pitch takes at least `p` ticks. -/
def rpmCap (g : ℚ) (p : ℤ) : ℚ := 4000000 / 6 * g / p * (1 + 1 / 2 ^ 21)

omit [FloatFmt] in
theorem band_span {N s : ℕ} {p q : ℤ} {T : ℕ → ℤ} (h : SpeedBand N s p q T) (n k : ℕ) :
    p * ((wheelPos N s (n + k) : ℤ) - wheelPos N s n) ≤ T (n + k) - T n ∧
    T (n + k) - T n ≤ q * ((wheelPos N s (n + k) : ℤ) - wheelPos N s n) := by
  induction k with
  | zero => simp
  | succ k ih =>
      have h1 := h.low (n + k)
      have h2 := h.high (n + k)
      rw [← Nat.add_assoc]
      constructor <;> nlinarith [ih.1, ih.2]

/-- A measured speed is below the bound. -/
theorem rpm_capped {t : Time} {g c : ℚ} {p : ℤ} {r : BitVec 32} (hp : 5 ≤ p) (hg1 : 9 ≤ g) (hg2 : g ≤ 120)
    (hc1 : 1 ≤ c) (hc2 : c ≤ 37) (ht : (p : ℚ) * c ≤ t.toNat)
    (h : rpmFromTimeDiff t (Fl.fin (g * c)) = .ok r) : (r.toNat : ℚ) ≤ rpmCap g p := by
  have hpq : (5 : ℚ) ≤ p := by exact_mod_cast hp
  have hp0 : (0 : ℚ) < p := by linarith
  have ht0 : (0 : ℚ) < t.toNat := lt_of_lt_of_le (by positivity) ht
  have hS : g * c * (4000000 * 60) / (360 * t.toNat) ≤ 4000000 / 6 * g / p := by
    rw [div_le_div_iff₀ (by positivity) hp0]
    have : g * (p * c) ≤ g * t.toNat := mul_le_mul_of_nonneg_left ht (by linarith)
    nlinarith
  have hS2 : 4000000 / 6 * g / p ≤ 2 ^ 24 := by
    rw [div_le_iff₀ hp0]
    norm_num
    nlinarith
  obtain ⟨r', hr', -, hle⟩ := rpm_close (t := t) (q := g * c) (by exact_mod_cast ht0) (by nlinarith)
    (by norm_num; nlinarith) (le_trans hS hS2)
  rw [h] at hr'
  cases hr'
  refine le_trans hle ?_
  unfold rpmCap
  exact mul_le_mul_of_nonneg_right hS (by norm_num)

/-- The speeds stay below the bound. -/
theorem rpms_capped {d d' : Decoder} {N s R n : ℕ} {v g : ℚ} {T : ℕ → ℤ} {p q : ℤ} (later : ∀ n, T n < T (n + 1))
    (slow : ∀ n, T (n + 1) - T n ≤ 5000000) (hw : WheelCfg d N R v g) (turn : g * N = 360)
    (grid : ∀ k : ℕ, k ≤ 2 * N + 1 → rnd (g * k) = .fin (g * k)) (hN : N ≤ 37) (hh : HistOk d T n n)
    (hcur : d.currentTriggersRpm.toNat ≤ n + 1) (hn : d.state ≠ .nosync → 1 ≤ n) (hb : SpeedBand N s p q T) (hp : 5 ≤ p)
    (hz : d.state = .sync → d.triggersSinceLastSync = 0 → wheelIdx N s n = 0)
    (h1 : (d.rpm.toNat : ℚ) ≤ rpmCap g p) (h2 : (d.toothRpm.toNat : ℚ) ≤ rpmCap g p)
    (h : missingRpms d = .ok d') :
    (d'.rpm.toNat : ℚ) ≤ rpmCap g p ∧ (d'.toothRpm.toNat : ℚ) ≤ rpmCap g p := by
  have hN2 : 3 ≤ N := by have := hw.R2; have := hw.RN; omega
  have hNq : (3 : ℚ) ≤ N := by exact_mod_cast hN2
  have hNq' : (N : ℚ) ≤ 37 := by exact_mod_cast hN
  have hg1 : 9 ≤ g := by nlinarith
  have hg2 : g ≤ 120 := by nlinarith
  have span : ∀ k, k ≤ n → k ≤ 36 → 0 < k → (p : ℚ) * ((wheelPos N s n : ℚ) - wheelPos N s (n - k)) ≤
      (stamp (T n) - stamp (T (n - k))).toNat := by
    intro k hk h36 hk0
    have hs := span_slow later slow (n - k) k
    have hb' := (band_span hb (n - k) k).1
    rw [Nat.sub_add_cancel hk] at hs hb'
    have : ((stamp (T n) - stamp (T (n - k))).toNat : ℤ) = T n - T (n - k) := by
      rw [stamp_sub]; exact stamp_toNat (by omega) (by omega)
    rw [← this] at hb'
    exact_mod_cast hb'
  have htooth : ∀ r, 1 ≤ n → missingToothRpm d = .ok r → (r.toNat : ℚ) ≤ rpmCap g p := by
    intro r h1' hr
    unfold missingToothRpm at hr
    have e0 : timeAt d 0 = .ok (stamp (T n)) := timeAt_hist hh (i := 0) (Nat.zero_le _) (by decide)
    have e1 : timeAt d 1 = .ok (stamp (T (n - 1))) := timeAt_hist hh (i := 1) (by show 1 ≤ n; omega) (by decide)
    simp only at hr
    rw [e0, except_bind_ok, e1, except_bind_ok, hw.pitch] at hr
    have hsp := span 1 h1' (by omega) (by omega)
    have hstep := wheel_step (N := N) (s := s) (n := n - 1) (by omega)
    rw [Nat.sub_add_cancel h1'] at hstep
    have hp0 : (0 : ℚ) < p := by exact_mod_cast (by omega : 0 < p)
    by_cases hm : d.state = .sync ∧ d.triggersSinceLastSync = 0
    · rw [if_pos hm, Fl.fin_mul, show g * 2 = g * ((2 : ℕ) : ℚ) by norm_num, grid 2 (by omega)] at hr
      have hi := hz hm.1 hm.2
      have hpos : (wheelPos N s n : ℚ) - wheelPos N s (n - 1) = 2 := by
        rcases hstep with ⟨-, -, e⟩ | ⟨-, e', -⟩
        · rw [e]; push_cast; ring
        · omega
      rw [hpos] at hsp
      exact rpm_capped hp hg1 hg2 (by norm_num) (by norm_num) (by exact_mod_cast hsp) hr
    · rw [if_neg hm, Fl.fin_mul, show g * 1 = g * ((1 : ℕ) : ℚ) by norm_num, grid 1 (by omega)] at hr
      have hpos : 1 ≤ (wheelPos N s n : ℚ) - wheelPos N s (n - 1) := by
        rcases hstep with ⟨-, -, e⟩ | ⟨-, -, e⟩ <;> rw [e] <;> push_cast <;> linarith
      refine rpm_capped hp hg1 hg2 (by norm_num) (by norm_num) ?_ hr
      refine le_trans ?_ hsp
      push_cast
      nlinarith
  have havg : ∀ (tr r : BitVec 32), (tr.toNat : ℚ) ≤ rpmCap g p → missingAverageRpm { d with toothRpm := tr } = .ok r →
      (r.toNat : ℚ) ≤ rpmCap g p := by
    intro tr r htr hr
    unfold missingAverageRpm at hr
    simp only at hr
    by_cases hge : d.numTriggers.toNat ≤ d.currentTriggersRpm.toNat
    · rw [if_pos hge] at hr
      rw [hw.count] at hge
      by_cases hz : d.triggersSinceLastSync = 0
      · rw [if_pos hz] at hr
        have hidx : (d.numTriggers - 1).toNat = N - 1 := by
          have := hw.count
          generalize d.numTriggers = r at *
          bv_omega
        have hh' : HistOk { d with toothRpm := tr } T n n := hh
        have e0 : timeAt { d with toothRpm := tr } 0 = .ok (stamp (T n)) :=
          timeAt_hist hh' (i := 0) (Nat.zero_le _) (by decide)
        have e1 : timeAt { d with toothRpm := tr } (d.numTriggers - 1) = .ok (stamp (T (n - (N - 1)))) := by
          rw [timeAt_hist hh' (i := d.numTriggers - 1) (by rw [hidx]; omega) (by rw [hidx]; omega), hidx]
        rw [e0, except_bind_ok, e1, except_bind_ok] at hr
        have hdg : Fl.ofU32 d.numTriggers * d.degreesPerTrigger = .fin (g * N) := by
          unfold Fl.ofU32
          rw [hw.count, rnd_nat N (by omega), hw.pitch, Fl.fin_mul, mul_comm, grid N (by omega)]
        rw [hdg] at hr
        have hsp := span (N - 1) (by omega) (by omega) (by omega)
        have hpos : (wheelPos N s n : ℚ) - wheelPos N s (n - (N - 1)) = N := by
          have : wheelPos N s n = wheelPos N s (n - (N - 1)) + N := by
            unfold wheelPos
            have e : s + n = s + (n - (N - 1)) + (N - 1) := by omega
            rw [e, Nat.add_div_right _ (by omega), Nat.add_mod_right]
            rw [Nat.mul_add]
            omega
          rw [this]; push_cast; ring
        rw [hpos] at hsp
        exact rpm_capped hp hg1 hg2 (by linarith) hNq' hsp hr
      · rw [if_neg hz] at hr
        cases hr
        exact h1
    · rw [if_neg hge] at hr
      cases hr
      exact htr
  unfold missingRpms at h
  by_cases hs : d.state = .nosync
  · rw [if_neg (by simpa using hs), bind_eq_ok] at h
    obtain ⟨r, hr, h⟩ := h
    cases h
    exact ⟨havg d.toothRpm r h2 hr, h2⟩
  · rw [if_pos hs, bind_eq_ok] at h
    obtain ⟨tr, htr, h⟩ := h
    rw [bind_eq_ok] at h
    obtain ⟨r, hr, h⟩ := h
    cases h
    have := htooth tr (hn hs) htr
    exact ⟨havg tr r this hr, this⟩

/-- The expiry requested by a tooth in sync. -/
theorem mtu_expiry {d d1 : Decoder} {t : Time} {b : Bool} (hs : d.state = .sync)
    (hreq : d.requiredTriggersRpm.toNat ≤ (missingBump d t).currentTriggersRpm.toNat)
    (h : missingTriggerUpdate d t = .ok (d1, b)) :
    b = true ∧ ∃ e x, timeFromRpmDiff d.rpm (d.degreesPerTrigger *
        (if d1.triggersSinceLastSync = d.numTriggers - 2 then Fl.fin 2 else Fl.fin 1)) = .ok e ∧
      Fl.toU32 (Fl.ofU32 e * (Fl.fin 1 + d.maxRpmChange)) = .ok x ∧ d1.expiration = t + x := by
  rw [mtu_sync hreq hs] at h
  rw [bind_eq_ok] at h; obtain ⟨ratio, -, h⟩ := h
  rw [bind_eq_ok] at h; obtain ⟨d2, hd2, h⟩ := h
  simp only [Except.ok.injEq, Prod.mk.injEq] at h
  refine ⟨h.2.symm, ?_⟩
  rw [← h.1]
  generalize hd3 : missingAngle (missingCount { missingBump d t with curRpmChange := missingChange ratio }
        (okMissing ratio d.maxRpmChange) (okNormal ratio d.maxRpmChange)) (okMissing ratio d.maxRpmChange) t = d3 at hd2
  have hk : d3.rpm = d.rpm ∧ d3.degreesPerTrigger = d.degreesPerTrigger ∧ d3.maxRpmChange = d.maxRpmChange ∧
      d3.numTriggers = d.numTriggers ∧ d3.times = (pushTime d t).times := by
    rw [← hd3]
    unfold missingAngle missingCount
    simp only
    split_ifs <;> exact ⟨rfl, rfl, rfl, rfl, rfl⟩
  obtain ⟨k1, k2, k3, k4, k5⟩ := hk
  unfold missingExpire at hd2
  simp only [bind_eq_ok] at hd2
  obtain ⟨e, he, x, hx, t0, ht0, h2⟩ := hd2
  simp only [except_pure, Except.ok.injEq] at h2
  rw [← h2]
  rw [k1, k2, k4] at he
  rw [k3] at hx
  refine ⟨e, x, he, hx, ?_⟩
  show t0 + x = t + x
  unfold timeAt at ht0
  rw [k5] at ht0
  have : rd (pushTime d t).times ((0 : BitVec 32).toNat : ℕ) = .ok t := rd_ok _ 0 (by decide)
  rw [this] at ht0
  cases ht0
  rfl

/-- How long after a tooth the decoder waits for the next one: `c` pitches away at speed `r`. -/
theorem wait_bounds {r e x : BitVec 32} {g v c : ℚ} {p q : ℤ} (hp : 5 ≤ p) (hg1 : 9 ≤ g) (hg2 : g ≤ 120)
    (hv0 : 0 ≤ v) (hv1 : v ≤ 7 / 16) (hc : c = 1 ∨ c = 2) (hr1 : 1 ≤ r.toNat) (hr2 : (r.toNat : ℚ) ≤ rpmCap g p)
    (hq : (q : ℚ) + 4 ≤ (1 + v) * (1 - 1 / 2 ^ 18) * p)
    (he : timeFromRpmDiff r (Fl.fin (g * c)) = .ok e)
    (hx : Fl.toU32 (Fl.ofU32 e * (Fl.fin 1 + Fl.fin v)) = .ok x) : q * c < x.toNat ∧ x.toNat < 2 ^ 30 := by
  have hpq : (5 : ℚ) ≤ p := by exact_mod_cast hp
  have hp0 : (0 : ℚ) < p := by linarith
  have hrq : (1 : ℚ) ≤ r.toNat := by exact_mod_cast hr1
  have hc1 : 1 ≤ c := by rcases hc with h | h <;> rw [h] <;> norm_num
  have hc2 : c ≤ 2 := by rcases hc with h | h <;> rw [h] <;> norm_num
  obtain ⟨e', he', hlo, hhi⟩ := time_close (r := r) (q := g * c) hr1 (by nlinarith) (by norm_num; nlinarith)
  rw [he] at he'
  cases he'
  generalize hR : (r.toNat : ℚ) = ρ at *
  have hρ0 : 0 < ρ := by linarith
  have hgc0 : 0 ≤ g * c := by nlinarith
  have hgc : g * c ≤ 240 := by nlinarith
  have hy1 : p * (1 - 1 / 2 ^ 21) ≤ 4000000 / 6 * g / ρ := by
    rw [le_div_iff₀ hρ0]
    unfold rpmCap at hr2
    have hx : p * (1 - 1 / 2 ^ 21) * ρ ≤ p * (1 - 1 / 2 ^ 21) * (4000000 / 6 * g / p * (1 + 1 / 2 ^ 21)) :=
      mul_le_mul_of_nonneg_left hr2 (mul_nonneg hp0.le (by norm_num))
    refine le_trans hx ?_
    have : p * (1 - 1 / 2 ^ 21) * (4000000 / 6 * g / p * (1 + 1 / 2 ^ 21)) =
        4000000 / 6 * g * ((1 - 1 / 2 ^ 21) * (1 + 1 / 2 ^ 21)) := by
      field_simp
    rw [this]
    have h0 : 0 ≤ 4000000 / 6 * g := by linarith
    nlinarith
  have hsplit : 4000000 / 6 * (g * c) / ρ = 4000000 / 6 * g / ρ * c := by ring
  have hy2 : 4000000 / 6 * (g * c) / ρ ≤ 160000000 := by
    rw [div_le_iff₀ hρ0]
    nlinarith
  rw [hsplit] at hlo
  generalize 4000000 / 6 * g / ρ = y at *
  have helo : p * c * ((1 - 1 / 2 ^ 21) * (1 - 1 / 2 ^ 21)) - 1 ≤ (e.toNat : ℚ) := by
    have h1 : p * (1 - 1 / 2 ^ 21) * (c * (1 - 1 / 2 ^ 21)) ≤ y * (c * (1 - 1 / 2 ^ 21)) :=
      mul_le_mul_of_nonneg_right hy1 (mul_nonneg (by linarith) (by norm_num))
    nlinarith
  have hehi : (e.toNat : ℚ) ≤ 2 ^ 28 := by
    refine le_trans hhi ?_
    norm_num at *
    linarith
  have hehi' : e.toNat ≤ 2 ^ 28 := by exact_mod_cast hehi
  obtain ⟨x', hx', hxlo, hxhi⟩ := lengthen_close (e := e) (v := v) (by omega) hv0 (by linarith)
  rw [hx] at hx'
  cases hx'
  constructor
  · have h1 : (p * c * ((1 - 1 / 2 ^ 21) * (1 - 1 / 2 ^ 21)) - 1) * ((1 + v) * (1 - 1 / 2 ^ 22)) ≤
        (e.toNat : ℚ) * ((1 + v) * (1 - 1 / 2 ^ 22)) :=
      mul_le_mul_of_nonneg_right helo (mul_nonneg (by linarith) (by norm_num))
    have h2 : (1 + v) * p * c * (1 - 1 / 2 ^ 18) ≤ (1 + v) * p * c * ((1 - 1 / 2 ^ 21) * (1 - 1 / 2 ^ 21) * (1 - 1 / 2 ^ 22)) := by
      refine mul_le_mul_of_nonneg_left (by norm_num) ?_
      exact mul_nonneg (mul_nonneg (by linarith) hp0.le) (by linarith)
    have h3 : (q + 4) * c ≤ (1 + v) * (1 - 1 / 2 ^ 18) * p * c := mul_le_mul_of_nonneg_right hq (by linarith)
    nlinarith
  · have h1 : (e.toNat : ℚ) * (1 + v) ≤ 2 ^ 28 * (1 + v) := mul_le_mul_of_nonneg_right hehi (by linarith)
    have h3 : (e.toNat : ℚ) * (1 + v) * (1 + 1 / 2 ^ 22) ≤ 2 ^ 28 * (23 / 16) * (1 + 1 / 2 ^ 22) := by
      refine mul_le_mul_of_nonneg_right (le_trans h1 ?_) (by norm_num)
      exact mul_le_mul_of_nonneg_left (by linarith) (by norm_num)
    have h2 : (x.toNat : ℚ) < 2 ^ 30 := by
      refine lt_of_le_of_lt (le_trans hxhi h3) ?_
      norm_num
    exact_mod_cast h2

end Verif
