/-
C76: on a missing-tooth wheel the decoder does know the crank.
-/
import Verif.Props.Spark
import Verif.Props.WheelTotal

namespace Verif

variable [FloatFmt]
open FloatFmt Fl

/-- While synchronised, the tooth speed is the one of the last two teeth in the history. -/
theorem tooth_speed {d : Decoder} {t : Time} {o : DecOut} (ht : d.type = .missingNosync) (h : decode d 0 t = .ok o)
    (hs : o.d.state = .sync) : missingToothRpm o.d = .ok o.d.toothRpm := by
  unfold decode at h
  simp only [ht] at h
  unfold decodeMissingNosync at h
  simp only [if_true] at h
  rw [bind_eq_ok] at h; obtain ⟨⟨d1, b⟩, h1, h⟩ := h
  rw [bind_eq_ok] at h; obtain ⟨d2, h2, h⟩ := h
  simp only [except_pure, Except.ok.injEq] at h
  subst h
  have hd2 : d2.state = .sync := by
    unfold decodeFinish at hs
    split_ifs at hs with h3 h4
    · exact h3
    · unfold invalidateDecoder at hs; cases hs
    · exact absurd hs h3
  have hfin : (decodeFinish d.state d2 (expireReq d1 b)).d = { d2 with valid := true, loss := .noLoss } := by
    unfold decodeFinish
    rw [if_pos hd2]
  rw [hfin]
  show missingToothRpm d2 = .ok d2.toothRpm
  have hd1 : d1.state = .sync := by
    obtain ⟨tr, r, e⟩ := missingRpms_frame h2
    rw [e] at hd2
    exact hd2
  unfold missingRpms at h2
  rw [if_pos (by rw [hd1]; exact fun h => nomatch h)] at h2
  simp only [bind_eq_ok, except_pure, Except.ok.injEq] at h2
  obtain ⟨tr, h3, r, -, rfl⟩ := h2
  exact h3

omit [FloatFmt] in
/-- The speed in whole revolutions per minute, computed from the angle `q` and time `D` between two teeth. -/
theorem speed_close {w D q σ r : ℚ} (hD : 0 < D) (s0 : 1 / 2 ^ 18 ≤ σ) (s1 : σ ≤ 1 / 10) (last : |w * D - q| ≤ σ / 2 * q)
    (fast : 6 * D ≤ σ * (4000000 / 6 * q)) (hr1 : q * (4000000 * 60) / (360 * D) * (1 - 1 / 2 ^ 21) - 1 ≤ r)
    (hr2 : r ≤ q * (4000000 * 60) / (360 * D) * (1 + 1 / 2 ^ 21)) : |w * (4000000 / 6) - r| ≤ σ * r := by
  obtain ⟨S, hS⟩ : ∃ S, S = q * (4000000 * 60) / (360 * D) := ⟨_, rfl⟩
  rw [← hS] at hr1 hr2
  have hq : q = S * D * (6 / 4000000) := by
    rw [hS]; field_simp; ring
  have hfast : 6 ≤ σ * S := by
    have h1 : 6 * D ≤ σ * S * D := by
      rw [hq] at fast
      linarith
    exact le_of_mul_le_mul_right h1 hD
  obtain ⟨l1, l2⟩ := abs_le.mp last
  have hw1 : w * (4000000 / 6) ≤ S * (1 + σ / 2) := by
    refine le_of_mul_le_mul_right (a := D) ?_ hD
    rw [hq] at l2
    linarith
  have hw2 : S * (1 - σ / 2) ≤ w * (4000000 / 6) := by
    refine le_of_mul_le_mul_right (a := D) ?_ hD
    rw [hq] at l1
    linarith
  have hS0 : 0 < S := by
    by_contra hc
    nlinarith
  have hS1 : S / 2 ^ 18 ≤ σ * S := by nlinarith
  rw [abs_le]
  have hr0 : σ * r ≥ σ * (S * (1 - 1 / 2 ^ 21) - 1) := mul_le_mul_of_nonneg_left hr1 (by linarith)
  have hx : σ * (S * (1 - 1 / 2 ^ 21) - 1) = σ * S - σ * S / 2 ^ 21 - σ := by ring
  rw [hx] at hr0
  have e1 : S * (1 - σ / 2) = S - σ * S / 2 := by ring
  have e2 : S * (1 + σ / 2) = S + σ * S / 2 := by ring
  rw [e1] at hw2
  rw [e2] at hw1
  generalize σ * S = y at *
  constructor <;> linarith

/-- A decoder which is in step with the wheel and reports the right time and angle knows the crank. -/
theorem sees_crank {d0 d : Decoder} {N s R : ℕ} {v g w : ℚ} {T : ℕ → ℤ} {m n0 : ℕ} {θ : ℤ → ℚ} {c : CrankTol}
    (hw : WheelSetup d0 N s R v g T) (hdw : WheelCfg d N R v g) (hh : HistOk d T (m + 1) (m + 1)) (hs : d.state = .sync)
    (hidx : d.triggersSinceLastSync.toNat = wheelIdx N s (m + 1)) (hrpm : missingToothRpm d = .ok d.toothRpm)
    (htime : d.lastTriggerTime = stamp (T (m + 1)))
    (hangle : d.lastTriggerAngle = .fin (g * (((wheelPos N s (m + 1) - wheelPos N s n0) % (2 * N) : ℕ) : ℚ)))
    (hn : n0 < m + 1) (hN : N ≤ 360)
    (place : |θ (T (m + 1)) - g * ((wheelPos N s (m + 1) : ℚ) - wheelPos N s n0)| ≤ c.angle)
    (w0 : 0 ≤ w) (w1 : w ≤ c.tick)
    (even : ∀ t, T (m + 1) ≤ t → w * (t - T (m + 1)) ≤ 810 → |θ t - θ (T (m + 1)) - w * (t - T (m + 1))| ≤ c.even)
    (last : |w * (T (m + 1) - T m) - g * ((wheelPos N s (m + 1) : ℚ) - wheelPos N s m)| ≤
      c.speed / 2 * (g * ((wheelPos N s (m + 1) : ℚ) - wheelPos N s m)))
    (s0 : 1 / 2 ^ 18 ≤ c.speed) (s1 : c.speed ≤ 1 / 10)
    (fast : 6 * (T (m + 1) - T m) ≤ c.speed * (4000000 / 6 * (g * ((wheelPos N s (m + 1) : ℚ) - wheelPos N s m))))
    (slow : 4000000 / 6 * (g * ((wheelPos N s (m + 1) : ℚ) - wheelPos N s m)) ≤ 2 ^ 24 * (T (m + 1) - T m)) :
    KnowsCrank θ c (T (m + 1)) d := by
  have hN3 : 3 ≤ N := by have := hw.cfg.R2; have := hw.cfg.RN; omega
  have hNq : (3 : ℚ) ≤ N := by exact_mod_cast hN3
  have hNq' : (N : ℚ) ≤ 360 := by exact_mod_cast hN
  have hg1 : 1 ≤ g := by nlinarith [hw.turn]
  have hg2 : g ≤ 120 := by nlinarith [hw.turn]
  have hmono := wheelPos_mono (s := s) (by omega : 2 ≤ N) hn.le
  have hlater := hw.teeth.later m
  have hclose := hw.teeth.close m
  have hspan : ((stamp (T (m + 1)) - stamp (T m)).toNat : ℤ) = T (m + 1) - T m := by
    rw [stamp_sub]
    exact stamp_toNat (by omega) (by omega)
  obtain ⟨q, hq, hq1, hq2, hqe⟩ : ∃ q, d.degreesPerTrigger *
      (if d.state = .sync ∧ d.triggersSinceLastSync = 0 then Fl.fin 2 else Fl.fin 1) = .fin q ∧ 1 ≤ q ∧ q ≤ 2 ^ 20 ∧
      g * ((wheelPos N s (m + 1) : ℚ) - wheelPos N s m) = q := by
    rw [hdw.pitch]
    rcases wheel_step (N := N) (s := s) (n := m) (by omega) with ⟨k1, k2, e⟩ | ⟨k1, k2, e⟩
    · have hz : d.triggersSinceLastSync = 0 := by
        have := hidx
        rw [k2] at this
        exact BitVec.eq_of_toNat_eq this
      rw [if_pos ⟨hs, hz⟩, Fl.fin_mul]
      refine ⟨g * 2, ?_, by linarith, by norm_num; linarith, ?_⟩
      · have := hw.grid 2 (by omega)
        push_cast at this
        exact this
      · rw [e]; push_cast; ring
    · have hz : d.triggersSinceLastSync ≠ 0 := by
        intro h0
        have := hidx
        rw [k2, h0] at this
        exact absurd this (by simp)
      rw [if_neg (fun h => hz h.2), Fl.fin_mul]
      refine ⟨g * 1, ?_, by linarith, by norm_num; linarith, ?_⟩
      · have := hw.grid 1 (by omega)
        push_cast at this
        exact this
      · rw [e]; push_cast; ring
  rw [hqe] at last fast slow
  have hD : ((stamp (T (m + 1)) - stamp (T m)).toNat : ℚ) = (T (m + 1) : ℚ) - T m := by exact_mod_cast hspan
  have hD0 : (0 : ℚ) < (T (m + 1) : ℚ) - T m := by
    have : ((T m : ℤ) : ℚ) < T (m + 1) := by exact_mod_cast hlater
    linarith
  obtain ⟨r, hr, hr1, hr2⟩ := rpm_close (t := stamp (T (m + 1)) - stamp (T m)) (q := q) (by omega) hq1 hq2 (by
    rw [hD, div_le_iff₀ (by linarith)]
    linarith)
  have hrd : r = d.toothRpm := by
    unfold missingToothRpm at hrpm
    simp only at hrpm
    rw [timeAt_hist hh (i := 0) (Nat.zero_le _) (by decide), except_bind_ok,
      timeAt_hist hh (i := 1) (by show 1 ≤ m + 1; omega) (by decide), except_bind_ok, hq] at hrpm
    have hr' : rpmFromTimeDiff (stamp (T (m + 1)) - stamp (T m)) (fin q) = .ok d.toothRpm := hrpm
    rw [hr] at hr'
    cases hr'
    rfl
  rw [hD, hrd] at hr1 hr2
  refine ⟨htime, ?_, w, w0, w1, ?_, even⟩
  · refine ⟨_, hangle, ?_, ?_, ?_⟩
    · positivity
    · have h1 : (wheelPos N s (m + 1) - wheelPos N s n0) % (2 * N) ≤ 2 * N := (Nat.mod_lt _ (by omega)).le
      have h2 : (((wheelPos N s (m + 1) - wheelPos N s n0) % (2 * N) : ℕ) : ℚ) ≤ 2 * N := by exact_mod_cast h1
      nlinarith [hw.turn]
    · refine ⟨((wheelPos N s (m + 1) - wheelPos N s n0) / (2 * N) : ℕ), ?_⟩
      have h1 := Nat.div_add_mod (wheelPos N s (m + 1) - wheelPos N s n0) (2 * N)
      have h2 : (2 * (N : ℚ)) * (((wheelPos N s (m + 1) - wheelPos N s n0) / (2 * N) : ℕ) : ℚ) +
          (((wheelPos N s (m + 1) - wheelPos N s n0) % (2 * N) : ℕ) : ℚ) =
          (wheelPos N s (m + 1) : ℚ) - wheelPos N s n0 := by
        rw [← Nat.cast_sub hmono]
        exact_mod_cast h1
      rw [Int.cast_natCast]
      generalize (((wheelPos N s (m + 1) - wheelPos N s n0) / (2 * N) : ℕ) : ℚ) = x at *
      generalize (((wheelPos N s (m + 1) - wheelPos N s n0) % (2 * N) : ℕ) : ℚ) = y at *
      rw [← h2] at place
      have h3 : θ (T (m + 1)) - g * y - 720 * x = θ (T (m + 1)) - g * (2 * N * x + y) := by
        linear_combination (2 * x) * hw.turn
      rw [h3]
      exact place
  · exact speed_close hD0 s0 s1 last (by linarith) hr1 hr2

/-- C76: after any tooth later than the one that synchronises it, the decoder knows the crank: the teeth pass where they are
(within `c.angle`), the crank keeps the speed `w` for the next cycle (within `c.even`), and this is the speed at which the
last tooth passed (within half of `c.speed`).  The speed is whole revolutions per minute, hence `fast`. -/
theorem C76_sees {d0 d : Decoder} {N s R : ℕ} {v g w : ℚ} {T : ℕ → ℤ} {n n0 : ℕ} {θ : ℤ → ℚ} {c : CrankTol}
    (hw : WheelSetup d0 N s R v g T) (ht : d0.type = .missingNosync) (hg : FirstGap N s R n0)
    (h : feedTeeth d0 T (n + 1) = .ok d) (hn : n0 < n) (hN : N ≤ 360)
    (place : |θ (T n) - g * ((wheelPos N s n : ℚ) - wheelPos N s n0)| ≤ c.angle)
    (w0 : 0 ≤ w) (w1 : w ≤ c.tick)
    (even : ∀ t, T n ≤ t → w * (t - T n) ≤ 810 → |θ t - θ (T n) - w * (t - T n)| ≤ c.even)
    (last : |w * (T n - T (n - 1)) - g * ((wheelPos N s n : ℚ) - wheelPos N s (n - 1))| ≤
      c.speed / 2 * (g * ((wheelPos N s n : ℚ) - wheelPos N s (n - 1))))
    (s0 : 1 / 2 ^ 18 ≤ c.speed) (s1 : c.speed ≤ 1 / 10)
    (fast : 6 * (T n - T (n - 1)) ≤ c.speed * (4000000 / 6 * (g * ((wheelPos N s n : ℚ) - wheelPos N s (n - 1)))))
    (slow : 4000000 / 6 * (g * ((wheelPos N s n : ℚ) - wheelPos N s (n - 1))) ≤ 2 ^ 24 * (T n - T (n - 1))) :
    KnowsCrank θ c (T n) d := by
  obtain ⟨hcfg, hfed, -, hat⟩ := wheel_key hw ht hg h
  obtain ⟨-, htr, htime⟩ := hat hn.le
  have hdw : WheelCfg d N R v g := cfg_wheel hw.cfg hcfg
  obtain ⟨m, rfl⟩ : ∃ m, n = m + 1 := ⟨n - 1, by omega⟩
  rw [Nat.add_sub_cancel] at last fast slow
  -- the tooth speed
  have hrpm : missingToothRpm d = .ok d.toothRpm := by
    rw [show feedTeeth d0 T (m + 1 + 1) = feedTeeth d0 T (m + 1) >>= fun d => decode d 0 (stamp (T (m + 1))) >>= fun o =>
      .ok o.d from rfl, bind_eq_ok] at h
    obtain ⟨d', hd', h⟩ := h
    rw [bind_eq_ok] at h
    obtain ⟨o, ho, h⟩ := h
    cases h
    obtain ⟨hc', -⟩ := wheel_key hw ht hg hd'
    have hty : d'.type = .missingNosync := by
      have : d'.type = (decoderInit d0).type := congrArg DecConfig.type hc'
      rw [this]; exact ht
    exact tooth_speed hty ho htr.sync
  exact sees_crank hw hdw hfed.hist htr.sync htr.idx hrpm (htime hn) htr.angle hn hN place w0 w1 even last s0 s1 fast slow

/-- The hypotheses are met: a wheel at constant speed, after a thousand and one teeth, with the speed known to half a
percent and the angle exactly. -/
example : ∃ d, feedTeeth (demoDecoder .missingNosync) (fun n => 40000 * wheelPos 4 0 n + 40000) 1001 = .ok d ∧
    KnowsCrank (fun t => 90 * ((t : ℚ) - 200000) / 40000) ⟨1 / 200, 0, 0, 1 / 400⟩ (40000 * wheelPos 4 0 1000 + 40000) d := by
  obtain ⟨d, hd⟩ := C40_no_fault demo_setup rfl demo_gap (by norm_num) (fun n => by
    rcases wheel_step (N := 4) (s := 0) (n := n) (by omega) with ⟨_, _, e⟩ | ⟨_, _, e⟩ <;>
    · rw [e]; push_cast; omega) 1001
  refine ⟨d, hd, ?_⟩
  have p0 : wheelPos 4 0 3 = 4 := by decide
  have p1 : wheelPos 4 0 1000 = 1333 := by decide
  have p2 : wheelPos 4 0 (1000 - 1) = 1332 := by decide
  refine C76_sees (T := fun n => 40000 * wheelPos 4 0 n + 40000) (n := 1000) (w := 90 / 40000) demo_setup rfl demo_gap hd (by norm_num)
    (by norm_num) ?_ (by norm_num) (by norm_num) ?_ ?_ (by norm_num) (by norm_num) ?_ ?_
  · rw [p0, p1]; norm_num
  · intro t _ _
    have : 90 * ((t : ℚ) - 200000) / 40000 - 90 * (((40000 * wheelPos 4 0 1000 + 40000 : ℤ) : ℚ) - 200000) / 40000 -
        90 / 40000 * (t - ((40000 * wheelPos 4 0 1000 + 40000 : ℤ) : ℚ)) = 0 := by ring
    rw [this]; norm_num
  · rw [p1, p2]; norm_num
  · rw [p1, p2]; norm_num
  · rw [p1, p2]; norm_num

end Verif
