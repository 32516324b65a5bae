/-
C40: no conversion faults while a missing-tooth wheel is tracked, and the cases in which tracking
fails.
-/
import Verif.Proofs.Total
import Verif.Props.Wheel

namespace Verif

variable [FloatFmt]
open FloatFmt

omit [FloatFmt] in
theorem span_slow {T : ℕ → ℤ} (later : ∀ n, T n < T (n + 1)) (slow : ∀ n, T (n + 1) - T n ≤ 5000000) (n k : ℕ) :
    T n + k ≤ T (n + k) ∧ T (n + k) ≤ T n + k * 5000000 := by
  induction k with
  | zero => simp
  | succ k ih =>
      have h1 := later (n + k)
      have h2 := slow (n + k)
      rw [← Nat.add_assoc]
      push_cast
      constructor <;> omega

omit [FloatFmt] in
theorem stamp_span {T : ℕ → ℤ} (later : ∀ n, T n < T (n + 1)) (slow : ∀ n, T (n + 1) - T n ≤ 5000000) {n k : ℕ}
    (hk : k ≤ n) (h36 : k ≤ 36) (hk0 : 0 < k) :
    0 < (stamp (T n) - stamp (T (n - k))).toNat ∧ (stamp (T n) - stamp (T (n - k))).toNat ≤ k * 5000000 := by
  have h := span_slow later slow (n - k) k
  rw [Nat.sub_add_cancel hk] at h
  have : ((stamp (T n) - stamp (T (n - k))).toNat : ℤ) = T n - T (n - k) := by
    rw [stamp_sub]; exact stamp_toNat (by omega) (by omega)
  omega

/-- The rpm calculations succeed on a wheel. -/
theorem rpms_total {d : Decoder} {N R n : ℕ} {v g : ℚ} {T : ℕ → ℤ} (later : ∀ n, T n < T (n + 1))
    (slow : ∀ n, T (n + 1) - T n ≤ 5000000) (hw : WheelCfg d N R v g) (turn : g * N = 360)
    (grid : ∀ k : ℕ, k ≤ 2 * N + 1 → rnd (g * k) = .fin (g * k)) (hN : N ≤ 37) (hh : HistOk d T n n)
    (hcur : d.currentTriggersRpm.toNat ≤ n + 1) (hn : d.state ≠ .nosync → 1 ≤ n) :
    ∃ d', missingRpms d = .ok d' ∧
      (d.state = .sync → (d.triggersSinceLastSync ≠ 0 → 1 ≤ d.rpm.toNat) → 1 ≤ d'.rpm.toNat) := by
  have hN2 : 3 ≤ N := by have := hw.R2; have := hw.RN; omega
  have hNq : (3 : ℚ) ≤ N := by exact_mod_cast hN2
  have hNq' : (N : ℚ) ≤ 37 := by exact_mod_cast hN
  have hg1 : 9 ≤ g := by nlinarith
  have hg2 : g ≤ 120 := by nlinarith
  have hdeg : ∀ p : Prop, [Decidable p] → ∃ q, d.degreesPerTrigger * (if p then Fl.fin 2 else Fl.fin 1) = .fin q ∧
      9 ≤ q ∧ q ≤ 240 := by
    intro p _
    rw [hw.pitch]
    by_cases hp : p
    · rw [if_pos hp, Fl.fin_mul]
      refine ⟨g * 2, ?_, by linarith, by linarith⟩
      have := grid 2 (by omega)
      push_cast at this
      exact this
    · rw [if_neg hp, Fl.fin_mul]
      refine ⟨g * 1, ?_, by linarith, by linarith⟩
      have := grid 1 (by omega)
      push_cast at this
      exact this
  have htooth : 1 ≤ n → ∃ r, missingToothRpm d = .ok r ∧ 1 ≤ r.toNat := by
    intro h1
    unfold missingToothRpm
    have h0 : timeAt d 0 = .ok (stamp (T n)) := timeAt_hist hh (i := 0) (Nat.zero_le _) (by decide)
    have h1' : timeAt d 1 = .ok (stamp (T (n - 1))) := timeAt_hist hh (i := 1) (by show 1 ≤ n; omega) (by decide)
    obtain ⟨q, hq, hq1, hq2⟩ := hdeg (d.state = .sync ∧ d.triggersSinceLastSync = 0)
    simp only
    rw [h0, except_bind_ok, h1', except_bind_ok, hq]
    obtain ⟨hs1, hs2⟩ := stamp_span later slow h1 (by omega) (by omega)
    obtain ⟨r, hr, hr1⟩ := rpm_total (t := stamp (T n) - stamp (T (n - 1))) (q := q) hs1 (by linarith)
      (by norm_num; linarith)
    refine ⟨r, hr, hr1 ?_⟩
    have : ((stamp (T n) - stamp (T (n - 1))).toNat : ℚ) ≤ 5000000 := by exact_mod_cast (by omega)
    linarith
  have havg : ∀ tr : BitVec 32, (d.state = .sync → 1 ≤ tr.toNat) →
      ∃ r, missingAverageRpm { d with toothRpm := tr } = .ok r ∧
      (d.state = .sync → (d.triggersSinceLastSync ≠ 0 → 1 ≤ d.rpm.toNat) → 1 ≤ r.toNat) := by
    intro tr htr
    unfold missingAverageRpm
    simp only
    by_cases hge : d.numTriggers.toNat ≤ d.currentTriggersRpm.toNat
    · rw [if_pos hge]
      rw [hw.count] at hge
      by_cases hz : d.triggersSinceLastSync = 0
      · rw [if_pos hz]
        have hidx : (d.numTriggers - 1).toNat = N - 1 := by
          have := hw.count
          generalize d.numTriggers = r at *
          bv_omega
        have hh' : HistOk { d with toothRpm := tr } T n n := hh
        have h0 : timeAt { d with toothRpm := tr } 0 = .ok (stamp (T n)) :=
          timeAt_hist hh' (i := 0) (Nat.zero_le _) (by decide)
        have h1 : timeAt { d with toothRpm := tr } (d.numTriggers - 1) = .ok (stamp (T (n - (N - 1)))) := by
          rw [timeAt_hist hh' (i := d.numTriggers - 1) (by rw [hidx]; omega) (by rw [hidx]; omega), hidx]
        rw [h0, except_bind_ok, h1, except_bind_ok]
        have hdg : Fl.ofU32 d.numTriggers * d.degreesPerTrigger = .fin 360 := by
          unfold Fl.ofU32
          rw [hw.count, rnd_nat N (by omega), hw.pitch, Fl.fin_mul, mul_comm, grid N (by omega), turn]
        rw [hdg]
        obtain ⟨hs1, hs2⟩ := stamp_span later slow (n := n) (k := N - 1) (by omega) (by omega) (by omega)
        obtain ⟨r, hr, hr1⟩ := rpm_total (t := stamp (T n) - stamp (T (n - (N - 1)))) (q := 360) hs1 (by norm_num)
          (by norm_num)
        refine ⟨r, hr, fun _ _ => hr1 ?_⟩
        have : ((stamp (T n) - stamp (T (n - (N - 1)))).toNat : ℚ) ≤ 180000000 := by exact_mod_cast (by omega)
        linarith
      · rw [if_neg hz]
        exact ⟨d.rpm, rfl, fun _ h => h hz⟩
    · rw [if_neg hge]
      exact ⟨tr, rfl, fun hs _ => htr hs⟩
  unfold missingRpms
  by_cases hs : d.state = .nosync
  · rw [if_neg (by simpa using hs)]
    obtain ⟨r, hr, -⟩ := havg d.toothRpm (by rw [hs]; intro h; cases h)
    rw [show missingAverageRpm d = .ok r from hr, except_bind_ok]
    exact ⟨_, rfl, by rw [hs]; intro h; cases h⟩
  · rw [if_pos hs]
    obtain ⟨tr, htr, htr1⟩ := htooth (hn hs)
    rw [htr, except_bind_ok]
    simp only
    obtain ⟨r, hr, hr1⟩ := havg tr (fun _ => htr1)
    rw [hr, except_bind_ok]
    exact ⟨_, rfl, hr1⟩

/-- The tooth calculations succeed on a wheel. -/
theorem mtu_total {d : Decoder} {N R : ℕ} {v g : ℚ} {t : Time} (hw : WheelCfg d N R v g) (turn : g * N = 360)
    (grid : ∀ k : ℕ, k ≤ 2 * N + 1 → rnd (g * k) = .fin (g * k)) (hrpm : d.state = .sync → 1 ≤ d.rpm.toNat) :
    ∃ d' b, missingTriggerUpdate d t = .ok (d', b) ∧ d'.rpm = d.rpm := by
  have hN2 : 3 ≤ N := by have := hw.R2; have := hw.RN; omega
  have hNq : (3 : ℚ) ≤ N := by exact_mod_cast hN2
  have hg0 : 0 ≤ g := by
    by_contra hc
    have : g * N ≤ 0 := mul_nonpos_of_nonpos_of_nonneg (not_le.mp hc).le (by linarith)
    linarith
  have hg2 : g ≤ 120 := by nlinarith
  have hR2 := hw.R2
  have hR36 := hw.R36
  rcases Nat.lt_or_ge (missingBump d t).currentTriggersRpm.toNat d.requiredTriggersRpm.toNat with hlt | hge
  · rw [mtu_wait hlt]
    exact ⟨_, _, rfl, rfl⟩
  by_cases hs : d.state = .sync
  · rw [mtu_sync hge hs]
    obtain ⟨ratio, hr⟩ := ratio_total (d := missingBump d t) (by show 2 ≤ d.requiredTriggersRpm.toNat; rw [hw.required]; omega)
      (by show d.requiredTriggersRpm.toNat ≤ 36; rw [hw.required]; omega)
    rw [hr, except_bind_ok]
    generalize hd2 : missingAngle (missingCount { missingBump d t with curRpmChange := missingChange ratio }
        (okMissing ratio d.maxRpmChange) (okNormal ratio d.maxRpmChange)) (okMissing ratio d.maxRpmChange) t = d2
    have hrpm2 : d2.rpm = d.rpm ∧ d2.degreesPerTrigger = .fin g ∧ d2.maxRpmChange = .fin v := by
      rw [← hd2]
      unfold missingAngle missingCount
      simp only
      refine ⟨?_, ?_, ?_⟩
      · split_ifs <;> rfl
      · rw [← hw.pitch]; split_ifs <;> rfl
      · rw [← hw.tolerance]; split_ifs <;> rfl
    unfold missingExpire
    rw [hrpm2.1, hrpm2.2.1, hrpm2.2.2]
    simp only
    have hgap : ∃ q, Fl.fin g * (if d2.triggersSinceLastSync = d2.numTriggers - 2 then Fl.fin 2 else Fl.fin 1) = .fin q ∧
        0 ≤ q ∧ q ≤ 2 ^ 10 := by
      split_ifs
      · refine ⟨g * 2, ?_, by linarith, by norm_num; linarith⟩
        rw [Fl.fin_mul]
        have := grid 2 (by omega)
        push_cast at this
        exact this
      · refine ⟨g * 1, ?_, by linarith, by norm_num; linarith⟩
        rw [Fl.fin_mul]
        have := grid 1 (by omega)
        push_cast at this
        exact this
    obtain ⟨q, hq, hq0, hq1⟩ := hgap
    obtain ⟨e, he, he1⟩ := time_total (r := d.rpm) (hrpm hs) hq0 hq1
    obtain ⟨x, hx⟩ := lengthen_total he1 hw.v0 (by have := hw.v1; linarith)
    rw [hq, he, except_bind_ok, hx, except_bind_ok]
    have h0 : timeAt d2 0 = .ok (d2.times 0) := by
      unfold timeAt
      exact rd_ok d2.times 0 (by decide)
    rw [h0, except_bind_ok]
    exact ⟨_, _, rfl, rfl⟩
  · rw [mtu_rpm hge hs]
    obtain ⟨ratio, hr⟩ := ratio_total (d := { missingBump d t with state := .rpm })
      (by show 2 ≤ d.requiredTriggersRpm.toNat; rw [hw.required]; omega)
      (by show d.requiredTriggersRpm.toNat ≤ 36; rw [hw.required]; omega)
    rw [hr, except_bind_ok]
    refine ⟨_, _, rfl, ?_⟩
    unfold missingFromRpm
    split_ifs <;> rfl

/-- What a tooth leaves of the history and the configuration. -/
theorem mtu_fed {d d1 : Decoder} {t : Time} {b : Bool} {N R : ℕ} {v g : ℚ} (_ : WheelCfg d N R v g)
    (h : missingTriggerUpdate d t = .ok (d1, b)) :
    d1.times = (pushTime d t).times ∧ d1.currentTriggersRpm = (missingBump d t).currentTriggersRpm ∧
      d1.cfg = d.cfg ∧ (d1.state = .sync → d1.triggersSinceLastSync ≠ 0 → d.state = .sync) := by
  rcases Nat.lt_or_ge (missingBump d t).currentTriggersRpm.toNat d.requiredTriggersRpm.toNat with hlt | hge
  · rw [mtu_wait hlt] at h
    simp only [Except.ok.injEq, Prod.mk.injEq] at h
    rw [← h.1]
    exact ⟨rfl, rfl, rfl, fun h _ => h⟩
  by_cases hs : d.state = .sync
  · rw [mtu_sync hge hs] at h
    rw [bind_eq_ok] at h; obtain ⟨ratio, -, h⟩ := h
    rw [bind_eq_ok] at h; obtain ⟨d2, hd2, h⟩ := h
    simp only [Except.ok.injEq, Prod.mk.injEq] at h
    rw [← h.1]
    unfold missingExpire at hd2
    simp only [bind_eq_ok] at hd2
    obtain ⟨ex, -, ext, -, t0, -, h2⟩ := hd2
    simp only [except_pure, Except.ok.injEq] at h2
    rw [← h2]
    refine ⟨?_, ?_, ?_, fun _ _ => hs⟩ <;>
    · unfold missingAngle missingCount
      simp only
      split_ifs <;> rfl
  · rw [mtu_rpm hge hs] at h
    rw [bind_eq_ok] at h; obtain ⟨ratio, -, h⟩ := h
    simp only [Except.ok.injEq, Prod.mk.injEq] at h
    rw [← h.1]
    unfold missingFromRpm
    split_ifs
    · exact ⟨rfl, rfl, rfl, fun _ h => absurd rfl h⟩
    · exact ⟨rfl, rfl, rfl, fun h _ => by cases h⟩
    · exact ⟨rfl, rfl, rfl, fun h _ => by cases h⟩

/-- The run does not fault, and the reported speed is not zero in sync. -/
theorem teeth_total_key {d0 : Decoder} {N s R : ℕ} {v g : ℚ} {T : ℕ → ℤ} {n0 : ℕ}
    (hw : WheelSetup d0 N s R v g T) (ht : d0.type = .missingNosync) (hg : FirstGap N s R n0) (hN : N ≤ 37)
    (slow : ∀ n, T (n + 1) - T n ≤ 5000000) (n : ℕ) : ∃ d, feedTeeth d0 T (n + 1) = .ok d ∧ (d.state = .sync → 1 ≤ d.rpm.toNat) := by
  have hR2 := hw.cfg.R2
  have key : ∀ n, ∃ d, feedTeeth d0 T (n + 1) = .ok d ∧ (d.state = .sync → 1 ≤ d.rpm.toNat) := by
    intro n
    induction n with
    | zero =>
        obtain ⟨d1, b, h1, hr1⟩ := mtu_total (t := stamp (T 0)) hw.cfg hw.turn hw.grid (by
          show DecState.nosync = .sync → _
          intro h; cases h)
        obtain ⟨hf, hd1⟩ := fed_first (d := d1) h1 (by rw [← hw.cfg.required] at hR2; exact hR2) rfl rfl
        have hst : d1.state = .nosync := by rw [hd1]; rfl
        have hcfg1 : WheelCfg d1 N R v g := cfg_wheel hw.cfg (by rw [hd1]; rfl)
        obtain ⟨d2, h2, -⟩ := rpms_total hw.teeth.later slow hcfg1 hw.turn hw.grid hN hf.hist (by rw [hf.cur]; omega)
          (fun h => absurd hst h)
        refine ⟨(decodeFinish (decoderInit d0).state d2 (expireReq d1 b)).d, ?_, ?_⟩
        · unfold feedTeeth
          rw [show feedTeeth d0 T 0 = .ok (decoderInit d0) from rfl, except_bind_ok]
          unfold decode
          rw [show (decoderInit d0).type = .missingNosync from ht]
          simp only
          unfold decodeMissingNosync
          simp only [if_true]
          rw [h1, except_bind_ok]
          simp only
          rw [h2, except_bind_ok]
          rfl
        · obtain ⟨tr, r, hd2⟩ := missingRpms_frame h2
          have hs2 : d2.state = .nosync := by rw [hd2]; exact hst
          unfold decodeFinish
          rw [if_neg (by rw [hs2]; decide),
            if_neg (show ¬ ((decoderInit d0).state = .sync) from show ¬ (DecState.nosync = .sync) by decide)]
          simp only
          rw [hs2]; intro h; cases h
    | succ n ih =>
        obtain ⟨d, hd, hrpm⟩ := ih
        obtain ⟨hcfg, hfed, hbefore, hafter⟩ := wheel_key hw ht hg hd
        have hdw : WheelCfg d N R v g := cfg_wheel hw.cfg hcfg
        obtain ⟨d1, b, h1, hr1⟩ := mtu_total (t := stamp (T (n + 1))) hdw hw.turn hw.grid hrpm
        have hf1 : Fed d0 d1 T (n + 1) ∧ d1.cfg = d.cfg ∧
            (d1.state = .sync → d1.triggersSinceLastSync ≠ 0 → 1 ≤ d1.rpm.toNat) := by
          obtain ⟨c1, c2, c3, c4⟩ := mtu_fed hdw h1
          refine ⟨fed_push hfed c1 c2, c3, fun hs hz => ?_⟩
          rw [hr1]
          exact hrpm (c4 hs hz)
        obtain ⟨hf1, hc1, hz⟩ := hf1
        obtain ⟨d2, h2, h2r⟩ := rpms_total hw.teeth.later slow (cfg_wheel hdw hc1) hw.turn hw.grid hN hf1.hist (by rw [hf1.cur]; omega)
          (fun _ => by omega)
        obtain ⟨tr, r, hd2⟩ := missingRpms_frame h2
        have hs2 : d2.state = d1.state := by rw [hd2]
        have hty : d.type = .missingNosync := by
          have : d.type = d0.type := congrArg DecConfig.type hcfg
          rw [this, ht]
        refine ⟨(decodeFinish d.state d2 (expireReq d1 b)).d, ?_, ?_⟩
        · rw [feedTeeth, hd, except_bind_ok]
          unfold decode
          rw [hty]
          simp only
          unfold decodeMissingNosync
          simp only [if_true]
          rw [h1, except_bind_ok]
          simp only
          rw [h2, except_bind_ok]
          rfl
        · unfold decodeFinish
          by_cases hs : d2.state = .sync
          · rw [if_pos hs]
            intro _
            rw [hs2] at hs
            exact h2r hs (hz hs)
          · rw [if_neg hs]
            split_ifs
            · intro h; cases h
            · intro h; exact absurd h hs
  exact key n

/-- C40: tracking involves no undefined conversion, division by zero or access outside an array, whatever the
number of teeth, if the wheel has at most 37 positions and consecutive teeth are at most 1.25 seconds apart. -/
theorem C40_no_fault {d0 : Decoder} {N s R : ℕ} {v g : ℚ} {T : ℕ → ℤ} {n0 : ℕ}
    (hw : WheelSetup d0 N s R v g T) (ht : d0.type = .missingNosync) (hg : FirstGap N s R n0) (hN : N ≤ 37)
    (slow : ∀ n, T (n + 1) - T n ≤ 5000000) (n : ℕ) : ∃ d, feedTeeth d0 T n = .ok d := by
  cases n with
  | zero => exact ⟨_, rfl⟩
  | succ n =>
      obtain ⟨d, hd, -⟩ := teeth_total_key hw ht hg hN slow n
      exact ⟨d, hd⟩

omit [FloatFmt] in
/-- A wheel turning at a constant speed of `p` ticks per pitch, first seen at time `a`. -/
theorem constant_speed {N s R : ℕ} {v : ℚ} {p a : ℤ} (hR : 2 ≤ R) (hRN : R + 1 ≤ N) (hv : 0 ≤ v) (hp : 0 < p)
    (hp2 : p ≤ 2 ^ 23) : SteadyTeeth N s R v fun n => p * wheelPos N s n + a := by
  refine ⟨fun n => ?_, fun n => ?_, fun n hn => ?_⟩
  · rcases wheel_step (N := N) (s := s) (n := n) (by omega) with ⟨_, _, e⟩ | ⟨_, _, e⟩ <;>
    · rw [e]; push_cast; nlinarith
  · rcases wheel_step (N := N) (s := s) (n := n) (by omega) with ⟨_, _, e⟩ | ⟨_, _, e⟩ <;>
    · rw [e]; push_cast; nlinarith
  · have hne : (wheelPos N s (n - 1) : ℤ) - wheelPos N s (n - R) ≠ 0 := by
      have := wheel_window (N := N) (s := s) (n := n - 1) (R := R) hR hRN (by omega)
      rw [show n - 1 + 1 - R = n - R by omega] at this
      rw [this]
      split_ifs <;> omega
    have hpitch : (p * wheelPos N s (n - 1) + a - (p * wheelPos N s (n - R) + a)) /
        ((wheelPos N s (n - 1) : ℤ) - wheelPos N s (n - R)) = p := by
      rw [show p * (wheelPos N s (n - 1) : ℤ) + a - (p * wheelPos N s (n - R) + a) =
        p * ((wheelPos N s (n - 1) : ℤ) - wheelPos N s (n - R)) by ring]
      exact Int.mul_ediv_cancel _ hne
    simp only
    rw [hpitch]
    push_cast
    have hpq : (0 : ℚ) < p := by exact_mod_cast hp
    constructor <;> nlinarith

omit [FloatFmt] in
theorem demo_gap : FirstGap 4 0 2 3 :=
  ⟨by decide, rfl, fun m h1 h2 => by
    have : m = 2 := by omega
    rw [this]; unfold afterGap; decide⟩

theorem demo_grid : ∀ k : ℕ, k ≤ 2 * 4 + 1 → rnd ((90 : ℚ) * k) = .fin (90 * k) := by
  intro k hk
  have := rnd_nat (90 * k) (by omega)
  push_cast at this
  exact this

/-- The hypotheses of C40 are met, by a wheel turning at constant speed for ever. -/
theorem demo_setup : WheelSetup (demoDecoder .missingNosync) 4 0 2 (3/8) 90
    (fun n => 40000 * wheelPos 4 0 n + 40000) := by
  refine ⟨⟨rfl, rfl, ?_, rfl, by norm_num, by norm_num, by norm_num, by norm_num, by norm_num⟩, by norm_num, demo_grid,
    constant_speed (by norm_num) (by norm_num) (by norm_num) (by norm_num) (by norm_num), ?_⟩
  · show (if Fl.feq (Fl.fin (3/8)) (Fl.fin 0) then _ else _) = _
    rw [if_neg (by simp [Fl.feq])]
    rfl
  · have : (stamp (40000 * ((wheelPos 4 0 0 : ℕ) : ℤ) + 40000) - (demoDecoder .missingNosync).times 0).toNat = 40000 := by
      decide +kernel
    show 16 * ((40000 * ((wheelPos 4 0 1 : ℕ) : ℤ) + 40000) - (40000 * ((wheelPos 4 0 0 : ℕ) : ℤ) + 40000)) ≤
      23 * (((stamp (40000 * ((wheelPos 4 0 0 : ℕ) : ℤ) + 40000) - (demoDecoder .missingNosync).times 0).toNat / 1 : ℕ) : ℤ)
    rw [this]
    decide

/-- So that the angle after 1000 teeth is known: a whole number of cycles after the gap and 90 degrees more. -/
example : ∃ d, feedTeeth (demoDecoder .missingNosync) (fun n => 40000 * wheelPos 4 0 n + 40000) 1001 = .ok d ∧
    d.valid = true ∧ d.lastTriggerAngle = .fin 90 := by
  obtain ⟨d, hd⟩ := C40_no_fault demo_setup rfl demo_gap (by norm_num) (fun n => by
    rcases wheel_step (N := 4) (s := 0) (n := n) (by omega) with ⟨_, _, e⟩ | ⟨_, _, e⟩ <;>
    · rw [e]; push_cast; omega) 1001
  obtain ⟨-, h⟩ := C40_tracked_partial demo_setup rfl demo_gap hd
  obtain ⟨h1, -, h2, -⟩ := h (by norm_num)
  refine ⟨d, hd, h1, ?_⟩
  rw [h2]
  have : (wheelPos 4 0 1000 - wheelPos 4 0 3) % (2 * 4) = 1 := by decide
  rw [this]
  norm_num

/-- The whole of C40: for every missing-tooth wheel and every timing within the configured tolerance (any
tolerance below one tooth), from the first gap with a full history on the decoder is synchronised and valid, and
reports the true angle and the time of the latest tooth. -/
def C40_full : Prop :=
  ∀ (d0 d : Decoder) (N s R : ℕ) (v g : ℚ) (T : ℕ → ℤ) (n n0 : ℕ),
    d0.type = .missingNosync → d0.numTriggers.toNat = N → d0.requiredTriggersRpm.toNat = R →
    d0.maxRpmChange = .fin v → d0.degreesPerTrigger = .fin g → 0 < v → v < 1 → 2 ≤ R → R ≤ 36 → R + 1 ≤ N →
    g * N = 360 → (∀ k : ℕ, k ≤ 2 * N + 1 → rnd (g * k) = .fin (g * k)) → SteadyTeeth N s R v T →
    FirstGap N s R n0 → feedTeeth d0 T (n + 1) = .ok d → n0 ≤ n →
    d.valid = true ∧ d.state = .sync ∧
      d.lastTriggerAngle = .fin (g * (((wheelPos N s n - wheelPos N s n0) % (2 * N) : ℕ) : ℚ)) ∧
      d.lastTriggerTime = stamp (T n)

omit [FloatFmt] in
/-- C40 in full is false: on the tooth that gains sync the decoder is valid with angle zero, but the time it
reports for that angle is not the time of the tooth (here it is still the zero from initialisation). -/
theorem C40_full_false : ¬ @C40_full binary32 := by
  let _ := binary32
  intro h
  obtain ⟨d, h1, h2⟩ := okAnd_ok (x := feedTeeth (demoDecoder .missingNosync) (fun n => 40000 * wheelPos 4 0 n + 40000) 4)
    (p := fun d => d.valid && decide (d.lastTriggerTime = 0)) (by decide +kernel)
  rw [Bool.and_eq_true] at h2
  obtain ⟨-, -, -, h3⟩ := h (demoDecoder .missingNosync) d 4 0 2 (3/8) 90 _ 3 3 rfl rfl rfl rfl rfl (by norm_num)
    (by norm_num) (by norm_num) (by norm_num) (by norm_num) (by norm_num) demo_grid
    (constant_speed (by norm_num) (by norm_num) (by norm_num) (by norm_num) (by norm_num)) demo_gap h1 (by norm_num)
  have h4 := of_decide_eq_true h2.2
  rw [h3] at h4
  revert h4
  decide +kernel

omit [FloatFmt] in
/-- Without the condition on the first measured tooth: a wheel turning at constant speed, whose first tooth is
seen half a pitch after time zero, makes the decoder claim a position on its second tooth, before any gap has
passed; and the claim is wrong, since the position is lost again at the real gap. -/
theorem C40_boot_false_sync :
    SteadyTeeth 4 0 2 (3/8) (fun n => 40000 * wheelPos 4 0 n + 20000) ∧
    (∀ m ≤ 2, 0 < m → ¬ afterGap 4 0 m) ∧
    (∃ d, @feedTeeth binary32 (demoDecoder .missingNosync) (fun n => 40000 * wheelPos 4 0 n + 20000) 2 = .ok d ∧
      d.valid = true ∧ d.state = .sync) ∧
    (∃ d, @feedTeeth binary32 (demoDecoder .missingNosync) (fun n => 40000 * wheelPos 4 0 n + 20000) 4 = .ok d ∧
      d.valid = false) := by
  let _ := binary32
  refine ⟨constant_speed (by norm_num) (by norm_num) (by norm_num) (by norm_num) (by norm_num), ?_, ?_, ?_⟩
  · intro m h1 h2
    unfold afterGap
    interval_cases m <;> decide
  · obtain ⟨d, h1, h2⟩ := okAnd_ok (x := feedTeeth (demoDecoder .missingNosync)
      (fun n => 40000 * wheelPos 4 0 n + 20000) 2) (p := fun d => d.valid && decide (d.state = .sync)) (by decide +kernel)
    rw [Bool.and_eq_true] at h2
    exact ⟨d, h1, h2.1, of_decide_eq_true h2.2⟩
  · obtain ⟨d, h1, h2⟩ := okAnd_ok (x := feedTeeth (demoDecoder .missingNosync)
      (fun n => 40000 * wheelPos 4 0 n + 20000) 4) (p := fun d => !d.valid) (by decide +kernel)
    exact ⟨d, h1, by simpa using h2⟩

omit [FloatFmt] in
/-- Without the bound on the tolerance: at the tolerance 1/2 that initialisation puts in place of zero, a tooth
that is half a pitch late, within tolerance, is counted as normal but moves the angle by two pitches.  The wheel
has turned 180 degrees since the gap and the decoder, valid, says 270. -/
theorem C40_wide_tolerance :
    (decoderInit { demoDecoder .missingNosync with maxRpmChange := .fin 0 }).maxRpmChange = .fin (1/2) ∧
    ∃ d, @Decoder.run binary32 (decoderInit { demoDecoder .missingNosync with maxRpmChange := .fin 0 })
        (teeth [40000, 80000, 120000, 200000, 240000, 300000]) = .ok d ∧
      d.valid = true ∧ d.triggersSinceLastSync = 2 ∧ d.lastTriggerAngle = .fin 270 := by
  let _ := binary32
  refine ⟨by decide +kernel, ?_⟩
  obtain ⟨d, h1, h2⟩ := okAnd_ok (x := (decoderInit { demoDecoder .missingNosync with maxRpmChange := .fin 0 }).run
    (teeth [40000, 80000, 120000, 200000, 240000, 300000]))
    (p := fun d => d.valid && decide (d.triggersSinceLastSync = 2) && decide (d.lastTriggerAngle = .fin 270))
    (by decide +kernel)
  simp only [Bool.and_eq_true, decide_eq_true_eq] at h2
  exact ⟨d, h1, h2.1.1, h2.1.2, h2.2⟩

end Verif
