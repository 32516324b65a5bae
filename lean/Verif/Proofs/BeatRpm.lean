/-
The average speed of a synchronised decoder is one of those of the wheel.
-/
import Verif.Props.EngineWheel

namespace Verif

variable [FloatFmt]
open FloatFmt

omit [FloatFmt] in
/-- The speed that a decoder computes from a true speed `S`. -/
theorem speed_in {g S : ℚ} {p q : ℤ} {r : BitVec 32} (h1 : 4000000 / 6 * g / q ≤ S) (h2 : S ≤ 4000000 / 6 * g / p)
    (h3 : S * (1 - 1 / 2 ^ 21) - 1 ≤ (r.toNat : ℚ)) (h4 : (r.toNat : ℚ) ≤ S * (1 + 1 / 2 ^ 21)) : SpeedIn g p q r := by
  unfold SpeedIn
  generalize 4000000 / 6 * g / (q : ℚ) = a at *
  generalize 4000000 / 6 * g / (p : ℚ) = b at *
  norm_num at *
  constructor <;> linarith

omit [FloatFmt] in
/-- A measured speed is at least half the slowest one. -/
theorem SpeedIn.floor {g : ℚ} {p q : ℤ} {r : BitVec 32} (h : SpeedIn g p q r) (hq0 : 0 < q) (hq : 8 * (q : ℚ) ≤ 4000000 / 6 * g) :
    4000000 / 6 * g ≤ 2 * q * r.toNat := by
  have hq1 : (0 : ℚ) < q := by exact_mod_cast hq0
  have h8 : 8 ≤ 4000000 / 6 * g / q := by rw [le_div_iff₀ hq1]; exact hq
  have hx : 4000000 / 6 * g = 4000000 / 6 * g / q * q := by field_simp
  have h1 := h.1
  generalize 4000000 / 6 * g / q = y at *
  rw [hx]
  have : y ≤ 2 * (r.toNat : ℚ) := by
    norm_num at h1
    linarith
  nlinarith

/-- A measured speed is one of those of the wheel. -/
theorem rpm_band {t : Time} {g c : ℚ} {p q : ℤ} {r : BitVec 32} (hp : 5 ≤ p) (hg1 : 9 ≤ g) (hg2 : g ≤ 120)
    (hc1 : 1 ≤ c) (hc2 : c ≤ 37) (ht : (p : ℚ) * c ≤ t.toNat) (ht' : (t.toNat : ℚ) ≤ q * c)
    (h : rpmFromTimeDiff t (Fl.fin (g * c)) = .ok r) : SpeedIn g p q r := by
  have hpq : (5 : ℚ) ≤ p := by exact_mod_cast hp
  have hp0 : (0 : ℚ) < p := by linarith
  have hc0 : (0 : ℚ) < c := by linarith
  have ht0 : (0 : ℚ) < t.toNat := lt_of_lt_of_le (by positivity) ht
  have hq0 : (0 : ℚ) < q := by
    by_contra hn
    nlinarith
  have hS : g * c * (4000000 * 60) / (360 * t.toNat) ≤ 4000000 / 6 * g / p := by
    rw [div_le_div_iff₀ (by positivity) hp0]
    have : g * (p * c) ≤ g * t.toNat := mul_le_mul_of_nonneg_left ht (by linarith)
    nlinarith
  have hS' : 4000000 / 6 * g / q ≤ g * c * (4000000 * 60) / (360 * t.toNat) := by
    rw [div_le_div_iff₀ hq0 (by positivity)]
    have : g * t.toNat ≤ g * (q * c) := mul_le_mul_of_nonneg_left ht' (by linarith)
    nlinarith
  have hS2 : 4000000 / 6 * g / p ≤ 2 ^ 24 := by
    rw [div_le_iff₀ hp0]
    norm_num
    nlinarith
  obtain ⟨r', hr', hge, hle⟩ := rpm_close (t := t) (q := g * c) (by exact_mod_cast ht0) (by nlinarith)
    (by norm_num; nlinarith) (le_trans hS hS2)
  rw [h] at hr'
  cases hr'
  exact speed_in hS' hS hge hle

/-- The speeds that a synchronised decoder computes after a tooth. -/
theorem rpms_band {d0 d d' : Decoder} {N s R n : ℕ} {v g : ℚ} {p q : ℤ} {T : ℕ → ℤ} (hu : TurnSetup d0 N s R v g p q T)
    (hdw : WheelCfg d N R v g) (hh : HistOk d T (n + 1) (n + 1)) (hs : d.state = .sync)
    (hcur : d.currentTriggersRpm.toNat ≤ n + 2) (hidx : d.triggersSinceLastSync.toNat = wheelIdx N s (n + 1))
    (hz0 : d.triggersSinceLastSync ≠ 0 → SpeedIn g p q d.rpm) (h : missingRpms d = .ok d') : SpeedIn g p q d'.rpm := by
  have hw := hu.wheel
  have hN3 : 3 ≤ N := by have := hw.cfg.R2; have := hw.cfg.RN; omega
  have hN37 := hu.size
  obtain ⟨hg1, hg2⟩ := pitch_range hw.turn hN3 hN37
  have hNq : (3 : ℚ) ≤ N := by exact_mod_cast hN3
  have hNq' : (N : ℚ) ≤ 37 := by exact_mod_cast hu.size
  unfold missingRpms at h
  rw [if_pos (by rw [hs]; exact fun h => nomatch h)] at h
  simp only [bind_eq_ok, except_pure, Except.ok.injEq] at h
  obtain ⟨tr, htooth, r, havg, rfl⟩ := h
  have span : ∀ k, k ≤ n + 1 → k ≤ 36 → 0 < k →
      (p : ℚ) * ((wheelPos N s (n + 1) : ℚ) - wheelPos N s (n + 1 - k)) ≤ (stamp (T (n + 1)) - stamp (T (n + 1 - k))).toNat ∧
      ((stamp (T (n + 1)) - stamp (T (n + 1 - k))).toNat : ℚ) ≤ q * ((wheelPos N s (n + 1) : ℚ) - wheelPos N s (n + 1 - k)) := by
    intro k hk h36 hk0
    have hs := span_slow hw.teeth.later hu.slow (n + 1 - k) k
    have hb' := band_span hu.band (n + 1 - k) k
    rw [Nat.sub_add_cancel hk] at hs hb'
    have : ((stamp (T (n + 1)) - stamp (T (n + 1 - k))).toNat : ℤ) = T (n + 1) - T (n + 1 - k) := by
      rw [stamp_sub]; exact stamp_toNat (by omega) (by omega)
    rw [← this] at hb'
    exact ⟨by exact_mod_cast hb'.1, by exact_mod_cast hb'.2⟩
  have hp := hu.fast
  have htf : SpeedIn g p q tr := by
    unfold missingToothRpm at htooth
    have e0 : timeAt d 0 = .ok (stamp (T (n + 1))) := timeAt_hist hh (i := 0) (Nat.zero_le _) (by decide)
    have e1 : timeAt d 1 = .ok (stamp (T n)) := timeAt_hist hh (i := 1) (by show 1 ≤ n + 1; omega) (by decide)
    simp only at htooth
    rw [e0, except_bind_ok, e1, except_bind_ok, hdw.pitch] at htooth
    have hsp := span 1 (by omega) (by omega) (by omega)
    rw [Nat.add_sub_cancel] at hsp
    rcases wheel_step (N := N) (s := s) (n := n) (by omega) with ⟨k1, k2, e⟩ | ⟨k1, k2, e⟩
    · have hz : d.triggersSinceLastSync = 0 := by
        have := hidx
        rw [k2] at this
        exact BitVec.eq_of_toNat_eq this
      rw [if_pos ⟨hs, hz⟩, Fl.fin_mul, show g * 2 = g * ((2 : ℕ) : ℚ) by norm_num, hw.grid 2 (by omega)] at htooth
      have hpos : (wheelPos N s (n + 1) : ℚ) - wheelPos N s n = ((2 : ℕ) : ℚ) := by rw [e]; push_cast; ring
      rw [hpos] at hsp
      exact rpm_band hp hg1 hg2 (by norm_num) (by norm_num) hsp.1 hsp.2 htooth
    · have hz : d.triggersSinceLastSync ≠ 0 := by
        intro h0
        have := hidx
        rw [k2, h0] at this
        exact absurd this (by simp)
      rw [if_neg (fun h => hz h.2), Fl.fin_mul, show g * 1 = g * ((1 : ℕ) : ℚ) by norm_num, hw.grid 1 (by omega)] at htooth
      have hpos : (wheelPos N s (n + 1) : ℚ) - wheelPos N s n = ((1 : ℕ) : ℚ) := by rw [e]; push_cast; ring
      rw [hpos] at hsp
      exact rpm_band hp hg1 hg2 (by norm_num) (by norm_num) hsp.1 hsp.2 htooth
  unfold missingAverageRpm at havg
  simp only at havg
  split_ifs at havg with hge hz
  · rw [hdw.count] at hge
    have hidx1 : (d.numTriggers - 1).toNat = N - 1 := by
      have := hdw.count
      generalize d.numTriggers = r at *
      bv_omega
    have hh' : HistOk { d with toothRpm := tr } T (n + 1) (n + 1) := hh
    have e0 : timeAt { d with toothRpm := tr } 0 = .ok (stamp (T (n + 1))) :=
      timeAt_hist hh' (i := 0) (Nat.zero_le _) (by decide)
    have e1 : timeAt { d with toothRpm := tr } (d.numTriggers - 1) = .ok (stamp (T (n + 1 - (N - 1)))) := by
      rw [timeAt_hist hh' (i := d.numTriggers - 1) (by rw [hidx1]; omega) (by rw [hidx1]; omega), hidx1]
    rw [e0, except_bind_ok, e1, except_bind_ok] at havg
    have hdg : Fl.ofU32 d.numTriggers * d.degreesPerTrigger = .fin (g * N) := by
      unfold Fl.ofU32
      rw [hdw.count, rnd_nat N (by omega), hdw.pitch, Fl.fin_mul, mul_comm, hw.grid N (by omega)]
    rw [hdg] at havg
    have hsp := span (N - 1) (by omega) (by omega) (by omega)
    have hpos : (wheelPos N s (n + 1) : ℚ) - wheelPos N s (n + 1 - (N - 1)) = N := by
      have : wheelPos N s (n + 1) = wheelPos N s (n + 1 - (N - 1)) + N := by
        unfold wheelPos
        have e : s + (n + 1) = s + (n + 1 - (N - 1)) + (N - 1) := by omega
        rw [e, Nat.add_div_right _ (by omega), Nat.add_mod_right]
        rw [Nat.mul_add]
        omega
      rw [this]; push_cast; ring
    rw [hpos] at hsp
    exact rpm_band hp hg1 hg2 (by linarith) hNq' hsp.1 hsp.2 havg
  · have hr : d.rpm = r := Except.ok.inj havg
    rw [← hr]
    exact hz0 hz
  · have hr : tr = r := Except.ok.inj havg
    rw [← hr]
    exact htf

/-- The average speed after any tooth from the synchronising one on. -/
theorem average_band {d0 d : Decoder} {N s R n n0 : ℕ} {v g : ℚ} {p q : ℤ} {T : ℕ → ℤ} (hu : TurnSetup d0 N s R v g p q T)
    (ht : d0.type = .missingNosync) (hg : FirstGap N s R n0)
    (h : feedTeeth d0 T (n + 1) = .ok d) (hn : n0 ≤ n) : SpeedIn g p q d.rpm := by
  have hw := hu.wheel
  have hR2 := hw.cfg.R2
  have hfull := hg.full
  induction n generalizing d with
  | zero => omega
  | succ n ih =>
      obtain ⟨hcfg, hfed, -, hat⟩ := wheel_key hw ht hg h
      obtain ⟨-, htr, -⟩ := hat hn
      have hdw : WheelCfg d N R v g := cfg_wheel hw.cfg hcfg
      rw [show feedTeeth d0 T (n + 1 + 1) = feedTeeth d0 T (n + 1) >>= fun d => decode d 0 (stamp (T (n + 1))) >>= fun o =>
        .ok o.d from rfl, bind_eq_ok] at h
      obtain ⟨d', hd', h⟩ := h
      rw [bind_eq_ok] at h
      obtain ⟨o, ho, h⟩ := h
      cases h
      obtain ⟨hc', -⟩ := wheel_key hw ht hg hd'
      have hty : d'.type = .missingNosync := by
        have : d'.type = (decoderInit d0).type := congrArg DecConfig.type hc'
        rw [this]; exact ht
      obtain ⟨d1, b, d2, h1, h2, rfl⟩ := nosync_tooth_rpms hty ho
      have hs := htr.sync
      have hd2 : d2.state = .sync := by
        unfold decodeFinish at hs
        split_ifs at hs with h3 h4
        · exact h3
        · unfold invalidateDecoder at hs; cases hs
        · exact absurd hs h3
      have hfin : (decodeFinish d'.state d2 (expireReq d1 b)).d = { d2 with valid := true, loss := .noLoss } := by
        unfold decodeFinish
        rw [if_pos hd2]
      rw [hfin] at hdw htr hfed ⊢
      obtain ⟨tr, r, e⟩ := missingRpms_frame h2
      have hr := (mtu_rpms h1).1
      have hd1 : d1 = { d2 with toothRpm := d1.toothRpm, rpm := d1.rpm } := by rw [e]
      show SpeedIn g p q d2.rpm
      refine rpms_band (n := n) (d := d1) hu ?_ ?_ ?_ ?_ ?_ ?_ h2
      · rw [hd1]; exact ⟨hdw.count, hdw.required, hdw.tolerance, hdw.pitch, hdw.v0, hdw.v1, hdw.R2, hdw.R36, hdw.RN⟩
      · rw [hd1]; exact hfed.hist
      · rw [hd1]; exact hd2
      · have := hfed.cur
        rw [hd1]
        show d2.currentTriggersRpm.toNat ≤ n + 2
        have h3 : d2.currentTriggersRpm.toNat = min (n + 2) 36 := this
        omega
      · rw [hd1]; exact htr.idx
      · intro hz
        rw [hr]
        refine ih hd' ?_
        by_contra hlt
        have hn0 : n0 = n + 1 := by omega
        have h0 := hg.gap
        rw [hn0] at h0
        refine hz (BitVec.eq_of_toNat_eq ?_)
        have hx : d1.triggersSinceLastSync.toNat = wheelIdx N s (n + 1) := by rw [hd1]; exact htr.idx
        rw [hx]
        exact h0

end Verif
