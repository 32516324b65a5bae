/-
C66: a turning wheel is not taken for a stopped one.
-/
import Verif.Proofs.Turn

namespace Verif

variable [FloatFmt]
open FloatFmt

/-- The wheel turns within a band of speeds narrower than the tolerance of the decoder, and not too slowly. -/
structure TurnSetup (d0 : Decoder) (N s R : ℕ) (v g : ℚ) (p q : ℤ) (T : ℕ → ℤ) : Prop where
  wheel : WheelSetup d0 N s R v g T
  size : N ≤ 37
  slow : ∀ n, T (n + 1) - T n ≤ 5000000
  band : SpeedBand N s p q T
  fast : 5 ≤ p
  narrow : (q : ℚ) + 4 ≤ (1 + v) * (1 - 1 / 2 ^ 18) * p

omit [FloatFmt] in
theorem pitch_range {N : ℕ} {g : ℚ} (turn : g * N = 360) (h3 : 3 ≤ N) (hN : N ≤ 37) : 9 ≤ g ∧ g ≤ 120 := by
  have hNq : (3 : ℚ) ≤ N := by exact_mod_cast h3
  have hNq' : (N : ℚ) ≤ 37 := by exact_mod_cast hN
  constructor <;> nlinarith

/-- A pending expiry lies between the next tooth, were it as late as the band of speeds allows, and four minutes. -/
def Pending (N s : ℕ) (q : ℤ) (T : ℕ → ℤ) (n : ℕ) (ex : Option Time) : Prop :=
  ∀ e, ex = some e → ∃ E : ℤ, e = stamp E ∧ T (n + 1) < E ∧ E < T n + 2 ^ 30 ∧
    T n + q * ((wheelPos N s (n + 1) : ℤ) - wheelPos N s n) < E

omit [FloatFmt] in
/-- A pending expiry does not run before the next tooth. -/
theorem pending_waits {N s : ℕ} {q : ℤ} {T : ℕ → ℤ} {n : ℕ} {d : Decoder} {ex : Option Time} {t : ℤ}
    (h : Pending N s q T n ex) (h1 : T n < t)
    (h2 : t ≤ T (n + 1)) : expireBy (d, ex) (stamp t) = (d, ex) := by
  unfold expireBy
  cases ex with
  | none => rfl
  | some e =>
      obtain ⟨E, rfl, h3, h4, -⟩ := h e rfl
      simp only
      rw [if_neg]
      unfold timeBeforeOrEqual
      rw [stamp_sub, stamp_toInt (by rw [abs_lt]; omega), decide_eq_true_eq]
      omega

/-- The expiry requested by a tooth. -/
theorem tooth_expiry {d0 d d1 : Decoder} {N s R n : ℕ} {v g : ℚ} {p q : ℤ} {T : ℕ → ℤ} {b : Bool} {ex : Option Time}
    (hu : TurnSetup d0 N s R v g p q T) (hd : WheelCfg d N R v g) (hh : HistOk d T n n)
    (hs : d.state = .sync → R ≤ n ∧ R ≤ d.currentTriggersRpm.toNat ∧ d.triggersSinceLastSync.toNat = wheelIdx N s n)
    (hr : d.state = .sync → 1 ≤ d.rpm.toNat) (hcap : (d.rpm.toNat : ℚ) ≤ rpmCap g p) (hex : d.state ≠ .sync → ex = none)
    (h : missingTriggerUpdate d (stamp (T (n + 1))) = .ok (d1, b)) :
    Pending N s q T (n + 1) ((expireReq d1 b).or ex) ∧ (d.state ≠ .sync → (expireReq d1 b).or ex = none) := by
  have hw := hu.wheel
  have hN3 : 3 ≤ N := by have := hd.R2; have := hd.RN; omega
  obtain ⟨hg1, hg2⟩ := pitch_range hw.turn hN3 hu.size
  by_cases hst : d.state = .sync
  · refine ⟨?_, fun h => absurd hst h⟩
    obtain ⟨i1, i2, i3⟩ := hs hst
    have hreq : d.requiredTriggersRpm.toNat ≤ (missingBump d (stamp (T (n + 1)))).currentTriggersRpm.toNat := by
      rw [hd.required]
      rcases missingBump_count d (stamp (T (n + 1))) with h1 | h1
      · omega
      · rw [h1]; exact i2
    obtain ⟨rfl, e, x, he, hx, hexp⟩ := mtu_expiry hst hreq h
    obtain ⟨kk, c, cc, e', a, m, hd1, hkk, -⟩ := sync_step hd hw.teeth hh i1 hst i3 i2 h
    have hidx : d1.triggersSinceLastSync.toNat = wheelIdx N s (n + 1) := by rw [hd1]; exact hkk
    clear hd1
    rw [hd.pitch] at he
    rw [hd.tolerance] at hx
    have hcount := hd.count
    have hiff : d1.triggersSinceLastSync = d.numTriggers - 2 ↔ wheelIdx N s (n + 1) + 2 = N := by
      rw [← hidx]
      generalize d1.triggersSinceLastSync = k at *
      generalize d.numTriggers = nn at *
      constructor
      · intro h; rw [h]; bv_omega
      · intro h; apply BitVec.eq_of_toNat_eq; bv_omega
    have hhigh := hu.band.high (n + 1)
    have hwait : q * ((wheelPos N s (n + 1 + 1) : ℤ) - wheelPos N s (n + 1)) < x.toNat ∧ x.toNat < 2 ^ 30 := by
      rcases wheel_step (N := N) (s := s) (n := n + 1) (by omega) with ⟨w1, w2, w3⟩ | ⟨w1, w2, w3⟩
      · rw [if_pos (hiff.mpr (by omega)), Fl.fin_mul, show g * 2 = g * ((2 : ℕ) : ℚ) by norm_num,
          hw.grid 2 (by omega)] at he
        obtain ⟨b1, b2⟩ := wait_bounds (c := ((2 : ℕ) : ℚ)) hu.fast hg1 hg2 hd.v0 hd.v1 (Or.inr (by norm_num)) (hr hst) hcap
          hu.narrow he hx
        refine ⟨?_, b2⟩
        have b1' : q * 2 < x.toNat := by exact_mod_cast b1
        rw [w3]
        push_cast
        linarith
      · rw [if_neg (fun h => by have := hiff.mp h; omega), Fl.fin_mul, show g * 1 = g * ((1 : ℕ) : ℚ) by norm_num,
          hw.grid 1 (by omega)] at he
        obtain ⟨b1, b2⟩ := wait_bounds (c := ((1 : ℕ) : ℚ)) hu.fast hg1 hg2 hd.v0 hd.v1 (Or.inl (by norm_num)) (hr hst) hcap
          hu.narrow he hx
        refine ⟨?_, b2⟩
        have b1' : q * 1 < x.toNat := by exact_mod_cast b1
        rw [w3]
        push_cast
        linarith
    intro e'' he''
    simp only [expireReq, if_true, Option.some_or, Option.some.injEq] at he''
    refine ⟨T (n + 1) + x.toNat, ?_, by linarith [hwait.1], by omega, by linarith [hwait.1]⟩
    rw [← he'', hexp, ← stamp_add, stamp_surj]
  · have hb : b = false := by
      rcases Nat.lt_or_ge (missingBump d (stamp (T (n + 1)))).currentTriggersRpm.toNat d.requiredTriggersRpm.toNat with hlt | hge
      · rw [mtu_wait hlt] at h
        simp only [Except.ok.injEq, Prod.mk.injEq] at h
        exact h.2.symm
      · rw [mtu_rpm hge hst, bind_eq_ok] at h
        obtain ⟨ratio, -, h⟩ := h
        simp only [Except.ok.injEq, Prod.mk.injEq] at h
        exact h.2.symm
    rw [hb, hex hst]
    refine ⟨fun e he => ?_, fun _ => rfl⟩
    cases he

/-- What holds after tooth `n` about the speeds and the expiry. -/
structure TurnInv (N s : ℕ) (q : ℤ) (d : Decoder) (ex : Option Time) (T : ℕ → ℤ) (g : ℚ) (p : ℤ) (n : ℕ) : Prop where
  rpm : (d.rpm.toNat : ℚ) ≤ rpmCap g p
  toothRpm : (d.toothRpm.toNat : ℚ) ≤ rpmCap g p
  quiet : d.state ≠ .sync → ex = none
  pending : Pending N s q T n ex

theorem mtu_rpms {d d1 : Decoder} {t : Time} {b : Bool} (h : missingTriggerUpdate d t = .ok (d1, b)) :
    d1.rpm = d.rpm ∧ d1.toothRpm = d.toothRpm := by
  obtain ⟨_, _, _, _, _, _, _, _, rfl, -⟩ := missingTriggerUpdate_frame h
  exact ⟨rfl, rfl⟩

omit [FloatFmt] in
theorem camRotation_rpms (d : Decoder) : (camRotation d).rpm = d.rpm ∧ (camRotation d).toothRpm = d.toothRpm := by
  unfold camRotation
  split_ifs <;> exact ⟨rfl, rfl⟩

omit [FloatFmt] in
theorem camPulse_rpms (d : Decoder) : (camPulse d).rpm = d.rpm ∧ (camPulse d).toothRpm = d.toothRpm := by
  unfold camPulse
  split_ifs <;> exact ⟨rfl, rfl⟩

theorem camFinish_rpms (w : Bool) (d : Decoder) (ex : Option Time) :
    (camFinish w d ex).d.rpm = d.rpm ∧ (camFinish w d ex).d.toothRpm = d.toothRpm ∧ (camFinish w d ex).expire = ex := by
  unfold camFinish
  simp only
  split_ifs <;> exact ⟨rfl, rfl, rfl⟩

omit [FloatFmt] in
theorem decodeFinish_rpms (st : DecState) (d : Decoder) (ex : Option Time) :
    (decodeFinish st d ex).d.rpm = d.rpm ∧ (decodeFinish st d ex).d.toothRpm = d.toothRpm ∧
      (decodeFinish st d ex).expire = ex := by
  unfold decodeFinish
  split_ifs <;> exact ⟨rfl, rfl, rfl⟩

theorem camsync_tooth_rpms {d : Decoder} {t : Time} {o : DecOut} (ht : d.type = .missingCamsync)
    (h : decode d 0 t = .ok o) :
    ∃ d1 b d2, missingTriggerUpdate d t = .ok (d1, b) ∧ missingRpms (camRotation d1) = .ok d2 ∧
      o = camFinish d.valid d2 (expireReq d1 b) := by
  unfold decode at h
  simp only [ht] at h
  unfold decodeMissingCamsync at h
  simp only [if_true] at h
  rw [bind_eq_ok] at h; obtain ⟨⟨d1, b⟩, h1, h⟩ := h
  rw [bind_eq_ok] at h; obtain ⟨d2, h2, h⟩ := h
  simp only [except_pure, Except.ok.injEq] at h
  exact ⟨d1, b, d2, h1, h2, h.symm⟩

theorem camsync_pulse_rpms {d : Decoder} {t : Time} {o : DecOut} (ht : d.type = .missingCamsync)
    (h : decode d 1 t = .ok o) :
    ∃ d2, missingRpms (camPulse d) = .ok d2 ∧ o = camFinish d.valid d2 none := by
  unfold decode at h
  simp only [ht] at h
  unfold decodeMissingCamsync at h
  simp only at h
  rw [if_neg (by decide)] at h
  simp only [if_true] at h
  rw [bind_eq_ok] at h; obtain ⟨d2, h2, h⟩ := h
  simp only [except_pure, Except.ok.injEq] at h
  exact ⟨d2, h2, h.symm⟩

theorem nosync_tooth_rpms {d : Decoder} {t : Time} {o : DecOut} (ht : d.type = .missingNosync)
    (h : decode d 0 t = .ok o) :
    ∃ d1 b d2, missingTriggerUpdate d t = .ok (d1, b) ∧ missingRpms d1 = .ok d2 ∧
      o = decodeFinish d.state d2 (expireReq d1 b) := by
  unfold decode at h
  simp only [ht] at h
  unfold decodeMissingNosync at h
  simp only [if_true] at h
  rw [bind_eq_ok] at h; obtain ⟨⟨d1, b⟩, h1, h⟩ := h
  rw [bind_eq_ok] at h; obtain ⟨d2, h2, h⟩ := h
  simp only [except_pure, Except.ok.injEq] at h
  exact ⟨d1, b, d2, h1, h2, h.symm⟩

/-- In sync, the tooth count is zero only after the gap. -/
theorem mtu_gap {d0 d d1 : Decoder} {N s R n : ℕ} {v g : ℚ} {T : ℕ → ℤ} {b : Bool} (hw : WheelSetup d0 N s R v g T)
    (hd : WheelCfg d N R v g) (hh : HistOk d T n n)
    (old : ∀ i (h : i < 37), n < i → d.times ⟨i, h⟩ = d0.times ⟨i - n - 1, lt_of_le_of_lt (by omega : i - n - 1 ≤ i) h⟩)
    (hs : d.state = .sync → R ≤ n ∧ R ≤ d.currentTriggersRpm.toNat ∧ d.triggersSinceLastSync.toNat = wheelIdx N s n)
    (hcur : d.currentTriggersRpm.toNat ≤ n + 1) (hcur36 : d.currentTriggersRpm.toNat ≤ 36)
    (h : missingTriggerUpdate d (stamp (T (n + 1))) = .ok (d1, b)) (h1 : d1.state = .sync)
    (h2 : d1.triggersSinceLastSync = 0) : wheelIdx N s (n + 1) = 0 := by
  by_cases hst : d.state = .sync
  · obtain ⟨i1, i2, i3⟩ := hs hst
    obtain ⟨kk, c, cc, e', a, m, hd1, hkk, -⟩ := sync_step hd hw.teeth hh i1 hst i3 i2 h
    have hidx : d1.triggersSinceLastSync.toNat = wheelIdx N s (n + 1) := by rw [hd1]; exact hkk
    rw [h2] at hidx
    exact hidx.symm
  · obtain ⟨hb1, hb2, hb3⟩ := bump_le (t := stamp (T (n + 1))) hcur hcur36
    rcases Nat.lt_or_ge (missingBump d (stamp (T (n + 1)))).currentTriggersRpm.toNat d.requiredTriggersRpm.toNat with hlt | hge
    · rw [mtu_wait hlt] at h
      simp only [Except.ok.injEq, Prod.mk.injEq] at h
      rw [← h.1] at h1
      exact absurd h1 hst
    · have hreq := hd.required
      rcases Nat.lt_or_ge (n + 1) R with hlt | hge2
      · obtain ⟨s', cc, l, rfl, hs'⟩ := boot_tooth hw hd hh old hst (by omega) hge h
        exact absurd h1 hs'
      · obtain ⟨ha, hb⟩ := acquire_step hd hw.teeth hh hge2 hst (by omega) h
        by_contra hz
        obtain ⟨s', cc, l, rfl, hs'⟩ := hb hz
        exact hs' h1

omit [FloatFmt] in
theorem cap_nonneg {g : ℚ} {p : ℤ} (hg : 9 ≤ g) (hp : 5 ≤ p) : 0 ≤ rpmCap g p := by
  have hpq : (5 : ℚ) ≤ p := by exact_mod_cast hp
  unfold rpmCap
  refine mul_nonneg (div_nonneg (by linarith) (by linarith)) (by norm_num)

/-- The first tooth. -/
theorem turn_first {d0 : Decoder} {o : DecOut} {N s R : ℕ} {v g : ℚ} {p q : ℤ} {T : ℕ → ℤ}
    (hu : TurnSetup d0 N s R v g p q T) (ht : d0.type = .missingCamsync ∨ d0.type = .missingNosync)
    (h : decode (decoderInit d0) 0 (stamp (T 0)) = .ok o) : TurnInv N s q o.d (o.expire.or none) T g p 0 := by
  have hw := hu.wheel
  have hN3 : 3 ≤ N := by have := hw.cfg.R2; have := hw.cfg.RN; omega
  obtain ⟨hg1, hg2⟩ := pitch_range hw.turn hN3 hu.size
  have hcap := cap_nonneg hg1 hu.fast
  have step : ∀ d1 b, missingTriggerUpdate (decoderInit d0) (stamp (T 0)) = .ok (d1, b) → b = false ∧ d1.state = .nosync ∧
      ∀ d2 d3, (d2.state = d1.state ∧ d2.times = d1.times ∧ d2.currentTriggersRpm = d1.currentTriggersRpm ∧
        d2.cfg = d1.cfg ∧ d2.rpm = d1.rpm ∧ d2.toothRpm = d1.toothRpm) → missingRpms d2 = .ok d3 →
      (d3.rpm.toNat : ℚ) ≤ rpmCap g p ∧ (d3.toothRpm.toNat : ℚ) ≤ rpmCap g p := by
    intro d1 b h1
    have hR2 := hw.cfg.R2
    obtain ⟨hf, hd1⟩ := fed_first (d := d1) h1 (by rw [← hw.cfg.required] at hR2; exact hR2) rfl rfl
    have hst : d1.state = .nosync := by rw [hd1]; rfl
    refine ⟨?_, hst, fun d2 d3 ⟨k1, k2, k3, k4, k5, k6⟩ h3 => ?_⟩
    · rcases Nat.lt_or_ge (missingBump (decoderInit d0) (stamp (T 0))).currentTriggersRpm.toNat
        (decoderInit d0).requiredTriggersRpm.toNat with hlt | hge
      · rw [mtu_wait hlt] at h1
        simp only [Except.ok.injEq, Prod.mk.injEq] at h1
        exact h1.2.symm
      · rw [mtu_rpm hge (show DecState.nosync ≠ .sync by decide), bind_eq_ok] at h1
        obtain ⟨ratio, -, h1⟩ := h1
        simp only [Except.ok.injEq, Prod.mk.injEq] at h1
        exact h1.2.symm
    · have hr0 : d1.rpm = 0 ∧ d1.toothRpm = 0 := mtu_rpms h1
      refine rpms_capped (d := d2) (n := 0) (s := s) hw.teeth.later hu.slow (cfg_wheel hw.cfg ?_) hw.turn hw.grid hu.size ?_ ?_ ?_ hu.band
        hu.fast ?_ ?_ ?_ h3
      · rw [k4, hd1]; rfl
      · unfold HistOk; rw [k2]; exact hf.hist
      · rw [k3, hf.cur]; omega
      · rw [k1, hst]; exact fun h => absurd rfl h
      · rw [k1, hst]; intro h; cases h
      · rw [k5, hr0.1]; exact_mod_cast hcap
      · rw [k6, hr0.2]; exact_mod_cast hcap
  rcases ht with ht | ht
  · obtain ⟨d1, b, d2, h1, h2, rfl⟩ := camsync_tooth_rpms (d := decoderInit d0) ht h
    obtain ⟨rfl, hst, hstep⟩ := step d1 b h1
    obtain ⟨k1, k2, k3, k4, k5, k6⟩ := camRotation_keeps d1
    obtain ⟨m1, m2⟩ := camRotation_rpms d1
    obtain ⟨c1, c2⟩ := hstep (camRotation d1) d2 ⟨k1, k4, k5, k6, m1, m2⟩ h2
    obtain ⟨f1, f2, f3⟩ := camFinish_rpms (decoderInit d0).valid d2 (expireReq d1 false)
    refine ⟨by rw [f1]; exact c1, by rw [f2]; exact c2, fun _ => ?_, ?_⟩
    · rw [f3]; rfl
    · rw [f3]; intro e he; cases he
  · obtain ⟨d1, b, d2, h1, h2, rfl⟩ := nosync_tooth_rpms (d := decoderInit d0) ht h
    obtain ⟨rfl, hst, hstep⟩ := step d1 b h1
    obtain ⟨c1, c2⟩ := hstep d1 d2 ⟨rfl, rfl, rfl, rfl, rfl, rfl⟩ h2
    obtain ⟨f1, f2, f3⟩ := decodeFinish_rpms (decoderInit d0).state d2 (expireReq d1 false)
    refine ⟨by rw [f1]; exact c1, by rw [f2]; exact c2, fun _ => ?_, ?_⟩
    · rw [f3]; rfl
    · rw [f3]; intro e he; cases he

/-- One more tooth of a wheel with a cam. -/
theorem turn_cam_tooth {d0 d : Decoder} {o : DecOut} {N s R k n : ℕ} {v g : ℚ} {p q : ℤ} {T : ℕ → ℤ} {ex : Option Time}
    (hu : TurnSetup d0 N s R v g p q T) (ht : d0.type = .missingCamsync) (hk : k < N - 1)
    (hi : CamInv d0 d T N s R k g n true) (hcur : d.currentTriggersRpm.toNat = min (n + 1) 36) (hm : Moving d n)
    (hv : TurnInv N s q d ex T g p n) (h : decode d 0 (stamp (T (n + 1))) = .ok o) :
    TurnInv N s q o.d (o.expire.or ex) T g p (n + 1) := by
  have hw := hu.wheel
  have hd : WheelCfg d N R v g := cfg_wheel hw.cfg hi.cfg
  have hty : d.type = .missingCamsync := by
    have : d.type = d0.type := congrArg DecConfig.type hi.cfg
    rw [this, ht]
  have hsy := (cam_advance hw ht hk hi hcur h).2.1
  obtain ⟨d1, b, d2, h1, h2, rfl⟩ := camsync_tooth_rpms hty h
  obtain ⟨c1, c2, c3, -⟩ := mtu_fed hd h1
  obtain ⟨r1, r2⟩ := mtu_rpms h1
  obtain ⟨k1, k2, k3, k4, k5, k6⟩ := camRotation_keeps d1
  obtain ⟨m1, m2⟩ := camRotation_rpms d1
  obtain ⟨f1, f2, f3⟩ := camFinish_rpms d.valid d2 (expireReq d1 b)
  have hs3 : d.state = .sync → R ≤ n ∧ R ≤ d.currentTriggersRpm.toNat ∧ d.triggersSinceLastSync.toNat = wheelIdx N s n :=
    fun hs => ⟨(hi.insync hs).1, (hi.insync hs).2.1, (hi.insync hs).2.2.1⟩
  obtain ⟨p1, p2⟩ := tooth_expiry hu hd hi.hist hs3 hm.1 hv.rpm hv.quiet h1
  obtain ⟨q1, q2⟩ := rpms_capped (d := camRotation d1) (n := n + 1) (s := s) hw.teeth.later hu.slow
    (cfg_wheel (cfg_wheel hd c3) k6) hw.turn hw.grid hu.size
    (by unfold HistOk; rw [k4, c1]; exact histOk_push hi.hist)
    (by rw [k5, c2]; exact (bump_le hi.cur hi.cur36).1) (fun _ => by omega) hu.band hu.fast
    (by rw [k1, k3]; exact mtu_gap hw hd hi.hist hi.old hs3 hi.cur hi.cur36 h1)
    (by rw [m1, r1]; exact hv.rpm) (by rw [m2, r2]; exact hv.toothRpm) h2
  refine ⟨by rw [f1]; exact q1, by rw [f2]; exact q2, fun hne => ?_, by rw [f3]; exact p1⟩
  rw [f3]
  exact p2 (fun hs => hne (hsy hs))

/-- A cam pulse. -/
theorem turn_cam_pulse {d0 d : Decoder} {o : DecOut} {N s R k n : ℕ} {v g : ℚ} {p q : ℤ} {T : ℕ → ℤ} {t : Time} {ex : Option Time}
    (hu : TurnSetup d0 N s R v g p q T) (ht : d0.type = .missingCamsync) (hm : n = 0 → d.state = .nosync)
    (hi : CamInv d0 d T N s R k g n false) (hp : pulseAfter N s k n)
    (hv : TurnInv N s q d ex T g p n) (h : decode d 1 t = .ok o) : TurnInv N s q o.d (o.expire.or ex) T g p n := by
  have hw := hu.wheel
  have hd : WheelCfg d N R v g := cfg_wheel hw.cfg hi.cfg
  have hty : d.type = .missingCamsync := by
    have : d.type = d0.type := congrArg DecConfig.type hi.cfg
    rw [this, ht]
  have hst := (cam_pulse_advance hw ht (by have := hu.size; omega) hi hp h).2
  obtain ⟨d2, h2, rfl⟩ := camsync_pulse_rpms hty h
  obtain ⟨k1, k2, k3, k4, k5, k6⟩ := camPulse_keeps d
  obtain ⟨m1, m2⟩ := camPulse_rpms d
  obtain ⟨f1, f2, f3⟩ := camFinish_rpms d.valid d2 none
  obtain ⟨q1, q2⟩ := rpms_capped (d := camPulse d) (n := n) (s := s) hw.teeth.later hu.slow
    (cfg_wheel hd k6) hw.turn hw.grid hu.size
    (by unfold HistOk; rw [k4]; exact hi.hist)
    (by rw [k5]; exact hi.cur) (by rw [k1]; intro h; by_contra h0; exact h (hm (by omega))) hu.band hu.fast
    (by rw [k1, k3]; intro hs hz
        have := (hi.insync hs).2.2.1
        rw [hz] at this; exact this.symm)
    (by rw [m1]; exact hv.rpm) (by rw [m2]; exact hv.toothRpm) h2
  refine ⟨by rw [f1]; exact q1, by rw [f2]; exact q2, fun hne => ?_, by rw [f3]; exact hv.pending⟩
  rw [f3]
  exact hv.quiet (fun hs => hne (hst.trans hs))

omit [FloatFmt] in
theorem bind_keep {α β : Type} {x : Except Fault α} {f : α → Except Fault β} {b : β} (h : (x >>= f) = .ok b) :
    ∃ a, x = .ok a ∧ f a = .ok b := bind_eq_ok.mp h

/-- The run with the expiry callback is the run without. -/
theorem cam_turn_key {d0 : Decoder} {N s R k : ℕ} {v g : ℚ} {p q : ℤ} {T P : ℕ → ℤ}
    (hu : TurnSetup d0 N s R v g p q T) (ht : d0.type = .missingCamsync) (hc : d0.camThis = false) (hk : k < N - 1)
    (hP : ∀ n, T n < P n ∧ P n < T (n + 1)) (n : ℕ) :
    ∃ d ex, camTurn d0 T P N s k (n + 1) = .ok (d, ex) ∧
      camRun d0 T (fun n => stamp (P n)) N s k noLosses noLosses (n + 1) = .ok d ∧ TurnInv N s q d ex T g p n := by
  have hw := hu.wheel
  have hN24 : N ≤ 2 ^ 24 := by have := hu.size; omega
  have hl := noLosses_early N s k
  -- the pulse
  have rest : ∀ (n : ℕ) (d1 d : Decoder) (ex : Option Time), CamInv d0 d1 T N s R k g n false → (n = 0 → d1.state = .nosync) →
      TurnInv N s q d1 ex T g p n →
      (if pulseAfter N s k n then decode d1 1 (stamp (P n)) >>= fun o => .ok o.d else .ok d1) = .ok d →
      ∃ ex', (if pulseAfter N s k n then turnTrigger (d1, ex) 1 (stamp (P n)) else .ok (d1, ex)) = .ok (d, ex') ∧
        TurnInv N s q d ex' T g p n := by
    intro n d1 d ex hi h0 hv h
    split_ifs at h ⊢ with hp
    · obtain ⟨o, ho, h⟩ := bind_keep h
      cases h
      unfold turnTrigger
      rw [pending_waits hv.pending (hP n).1 (hP n).2.le, ho, except_bind_ok]
      exact ⟨_, rfl, turn_cam_pulse hu ht h0 hi hp hv ho⟩
    · cases h
      exact ⟨ex, rfl, hv⟩
  induction n with
  | zero =>
      obtain ⟨d, hd, hm⟩ := cam_total_key (P := fun n => stamp (P n)) hw ht hc hk hu.size hu.slow hl 0
      have h := hd
      unfold camRun at h
      rw [show camRun d0 T (fun n => stamp (P n)) N s k noLosses noLosses 0 = .ok (decoderInit d0) from rfl, except_bind_ok] at h
      obtain ⟨o, ho, h⟩ := bind_keep h
      have hi := cam_first (k := k) hw ht hc ho
      have hv := turn_first hu (Or.inl ht) ho
      have h0 : o.d.state = .nosync := by
        by_contra hne
        by_cases hs : o.d.state = .sync
        · have h1 := (hi.insync hs).1
          have h2 := hw.cfg.R2
          omega
        · obtain ⟨d1, b, tr, r, h1, rfl⟩ := camsync_tooth (d := decoderInit d0) ht ho
          have hR2 := hw.cfg.R2
          obtain ⟨-, hd1⟩ := fed_first (d := d1) h1 (by rw [← hw.cfg.required] at hR2; exact hR2) rfl rfl
          rcases camFinish_keeps (decoderInit d0).valid { camRotation d1 with toothRpm := tr, rpm := r } (expireReq d1 b) with ⟨e1, -⟩ | e1
          · rw [e1] at hne
            apply hne
            show (camRotation d1).state = _
            rw [(camRotation_keeps d1).1, hd1]; rfl
          · exact hne e1
      obtain ⟨ex', hx, hv'⟩ := rest 0 o.d d _ hi (fun _ => h0) hv h
      refine ⟨d, ex', ?_, hd, hv'⟩
      unfold camTurn
      rw [show camTurn d0 T P N s k 0 = .ok (decoderInit d0, none) from rfl, except_bind_ok]
      unfold turnTrigger
      rw [show expireBy (decoderInit d0, none) (stamp (T 0)) = (decoderInit d0, none) from rfl, ho, except_bind_ok, except_bind_ok]
      exact hx
  | succ n ih =>
      obtain ⟨d, ex, h1, h2, hv⟩ := ih
      obtain ⟨d', hd', hm'⟩ := cam_total_key (P := fun n => stamp (P n)) hw ht hc hk hu.size hu.slow hl (n + 1)
      obtain ⟨d'', hd'', hm⟩ := cam_total_key (P := fun n => stamp (P n)) hw ht hc hk hu.size hu.slow hl n
      rw [h2] at hd''
      cases hd''
      have hi := cam_key hw ht hc hk hN24 hl h2
      have hcur := (cam_acquire (n0 := R * (N - 1) + (N - 1 - s % (N - 1))) hw ht hc hk hN24 (by
          have : 1 ≤ N - 1 := by omega
          nlinarith) (by
          unfold afterGap
          have hlt := Nat.mod_lt s (by omega : 0 < N - 1)
          have h3 := Nat.div_add_mod s (N - 1)
          have : s + (R * (N - 1) + (N - 1 - s % (N - 1))) = (N - 1) * (s / (N - 1) + R + 1) := by
            rw [Nat.mul_add, Nat.mul_add, Nat.mul_comm (N - 1) R]
            omega
          rw [this, Nat.mul_mod_right]) h2).1
      have h := hd'
      rw [camRun, h2, except_bind_ok] at h
      obtain ⟨o, ho, h⟩ := bind_keep h
      have hi' := (cam_tooth hw ht hk hi ho).1
      have hv' := turn_cam_tooth hu ht hk hi hcur hm hv ho
      obtain ⟨ex', hx, hv''⟩ := rest (n + 1) o.d d' _ hi' (fun h => by omega) hv' h
      refine ⟨d', ex', ?_, hd', hv''⟩
      rw [camTurn, h1, except_bind_ok]
      unfold turnTrigger
      rw [pending_waits hv.pending (hw.teeth.later n) le_rfl, ho, except_bind_ok, except_bind_ok]
      exact hx

/-- One more tooth of a wheel without a cam. -/
theorem turn_tooth {d0 d : Decoder} {o : DecOut} {N s R n n0 : ℕ} {v g : ℚ} {p q : ℤ} {T : ℕ → ℤ} {ex : Option Time}
    (hu : TurnSetup d0 N s R v g p q T) (ht : d0.type = .missingNosync) (hg : FirstGap N s R n0)
    (h' : feedTeeth d0 T (n + 1) = .ok d) (hr : d.state = .sync → 1 ≤ d.rpm.toNat)
    (hv : TurnInv N s q d ex T g p n) (h : decode d 0 (stamp (T (n + 1))) = .ok o) :
    TurnInv N s q o.d (o.expire.or ex) T g p (n + 1) := by
  have hw := hu.wheel
  obtain ⟨hcfg, hfed, hbefore, hafter⟩ := wheel_key hw ht hg h'
  have hd : WheelCfg d N R v g := cfg_wheel hw.cfg hcfg
  have hty : d.type = .missingNosync := by
    have : d.type = d0.type := congrArg DecConfig.type hcfg
    rw [this, ht]
  have hsn : d.state = .sync → n0 ≤ n := by
    intro hs
    by_contra hlt
    exact (hbefore (by omega)).2 hs
  have hsy : d.state = .sync → o.d.state = .sync := by
    intro hs
    obtain ⟨-, -, -, hafter'⟩ := wheel_key (n := n + 1) hw ht hg (d := o.d) (by rw [feedTeeth, h', except_bind_ok, h]; rfl)
    exact (hafter' (by have := hsn hs; omega)).2.1.sync
  obtain ⟨d1, b, d2, h1, h2, rfl⟩ := nosync_tooth_rpms hty h
  obtain ⟨c1, c2, c3, -⟩ := mtu_fed hd h1
  obtain ⟨r1, r2⟩ := mtu_rpms h1
  obtain ⟨f1, f2, f3⟩ := decodeFinish_rpms d.state d2 (expireReq d1 b)
  have hR36 := hd.R36
  have hs3 : d.state = .sync → R ≤ n ∧ R ≤ d.currentTriggersRpm.toNat ∧ d.triggersSinceLastSync.toNat = wheelIdx N s n := by
    intro hs
    have hn := hsn hs
    have h3 := hg.full
    refine ⟨by omega, by rw [hfed.cur]; omega, (hafter hn).2.1.idx⟩
  obtain ⟨p1, p2⟩ := tooth_expiry hu hd hfed.hist hs3 hr hv.rpm hv.quiet h1
  have hcur : d.currentTriggersRpm.toNat ≤ n + 1 := by rw [hfed.cur]; omega
  have hcur36 : d.currentTriggersRpm.toNat ≤ 36 := by rw [hfed.cur]; omega
  obtain ⟨q1, q2⟩ := rpms_capped (d := d1) (n := n + 1) (s := s) hw.teeth.later hu.slow
    (cfg_wheel hd c3) hw.turn hw.grid hu.size
    (by unfold HistOk; rw [c1]; exact histOk_push hfed.hist)
    (by rw [c2]; exact (bump_le hcur hcur36).1) (fun _ => by omega) hu.band hu.fast
    (mtu_gap hw hd hfed.hist hfed.old hs3 hcur hcur36 h1)
    (by rw [r1]; exact hv.rpm) (by rw [r2]; exact hv.toothRpm) h2
  refine ⟨by rw [f1]; exact q1, by rw [f2]; exact q2, fun hne => ?_, by rw [f3]; exact p1⟩
  rw [f3]
  exact p2 (fun hs => hne (hsy hs))

/-- The run with the expiry callback is the run without. -/
theorem teeth_turn_key {d0 : Decoder} {N s R n0 : ℕ} {v g : ℚ} {p q : ℤ} {T : ℕ → ℤ}
    (hu : TurnSetup d0 N s R v g p q T) (ht : d0.type = .missingNosync) (hg : FirstGap N s R n0) (n : ℕ) :
    ∃ d ex, teethTurn d0 T (n + 1) = .ok (d, ex) ∧ feedTeeth d0 T (n + 1) = .ok d ∧ TurnInv N s q d ex T g p n := by
  have hw := hu.wheel
  induction n with
  | zero =>
      obtain ⟨d, hd, hm⟩ := teeth_total_key hw ht hg hu.size hu.slow 0
      have h := hd
      unfold feedTeeth at h
      rw [show feedTeeth d0 T 0 = .ok (decoderInit d0) from rfl, except_bind_ok] at h
      obtain ⟨o, ho, h⟩ := bind_keep h
      cases h
      refine ⟨o.d, _, ?_, hd, turn_first hu (Or.inr ht) ho⟩
      unfold teethTurn
      rw [show teethTurn d0 T 0 = .ok (decoderInit d0, none) from rfl, except_bind_ok]
      unfold turnTrigger
      rw [show expireBy (decoderInit d0, none) (stamp (T 0)) = (decoderInit d0, none) from rfl, ho, except_bind_ok]
  | succ n ih =>
      obtain ⟨d, ex, h1, h2, hv⟩ := ih
      obtain ⟨d', hd', -⟩ := teeth_total_key hw ht hg hu.size hu.slow (n + 1)
      obtain ⟨d'', hd'', hm⟩ := teeth_total_key hw ht hg hu.size hu.slow n
      rw [h2] at hd''
      cases hd''
      have h := hd'
      rw [feedTeeth, h2, except_bind_ok] at h
      obtain ⟨o, ho, h⟩ := bind_keep h
      cases h
      refine ⟨o.d, _, ?_, hd', turn_tooth hu ht hg h2 hm hv ho⟩
      rw [teethTurn, h1, except_bind_ok]
      unfold turnTrigger
      rw [pending_waits hv.pending (hw.teeth.later n) le_rfl, ho, except_bind_ok]

/-- C66 (partial), crank wheel only: while every pitch takes between `p` and `q` ticks, `q` being less than `p` lengthened
by the tolerance, the expiry callback never comes before the next tooth.  So from the first gap with a full history on the
decoder is valid for ever, at the true angle. -/
theorem C66_crank_partial {d0 : Decoder} {N s R n0 : ℕ} {v g : ℚ} {p q : ℤ} {T : ℕ → ℤ}
    (hu : TurnSetup d0 N s R v g p q T) (ht : d0.type = .missingNosync) (hg : FirstGap N s R n0) (n : ℕ) (hn : n0 ≤ n) :
    ∃ d ex, teethTurn d0 T (n + 1) = .ok (d, ex) ∧ d.valid = true ∧
      d.lastTriggerAngle = .fin (g * (((wheelPos N s n - wheelPos N s n0) % (2 * N) : ℕ) : ℚ)) ∧
      ∀ e, ex = some e → timeBefore (stamp (T (n + 1))) e = true := by
  obtain ⟨d, ex, h1, h2, hv⟩ := teeth_turn_key hu ht hg n
  obtain ⟨-, h3⟩ := C40_tracked_partial hu.wheel ht hg h2
  obtain ⟨k1, -, k3, -⟩ := h3 hn
  refine ⟨d, ex, h1, k1, k3, fun e he => ?_⟩
  obtain ⟨E, rfl, b1, b2, -⟩ := hv.pending e he
  have hl := hu.wheel.teeth.later n
  unfold timeBefore
  rw [stamp_sub, stamp_toInt (by rw [abs_lt]; omega), decide_eq_true_eq]
  omega

/-- C66 (partial), crank wheel and cam: under the same condition on the speed, from the first cam pulse after the first gap
with a full history on the decoder is valid for ever, at the true angle of the engine cycle. -/
theorem C66_cam_partial {d0 : Decoder} {N s R k n0 m : ℕ} {v g : ℚ} {p q : ℤ} {T P : ℕ → ℤ}
    (hu : TurnSetup d0 N s R v g p q T) (ht : d0.type = .missingCamsync) (hc : d0.camThis = false) (hk : k < N - 1)
    (hP : ∀ n, T n < P n ∧ P n < T (n + 1)) (hR : R ≤ n0) (hg : afterGap N s n0) (hm : n0 ≤ m) (hp : pulseAfter N s k m)
    (n : ℕ) (hn : m ≤ n) :
    ∃ d ex, camTurn d0 T P N s k (n + 1) = .ok (d, ex) ∧ d.valid = true ∧
      d.lastTriggerAngle = .fin (g * ((wheelPos N s n % (2 * N) : ℕ) : ℚ)) ∧
      ∀ e, ex = some e → timeBefore (stamp (T (n + 1))) e = true := by
  have hN24 : N ≤ 2 ^ 24 := by have := hu.size; omega
  obtain ⟨d, ex, h1, h2, hv⟩ := cam_turn_key hu ht hc hk hP n
  have hval := C42_acquired hu.wheel ht hc hk hN24 hR hg hm hp hn h2
  obtain ⟨-, h3, -⟩ := C42_phase_partial hu.wheel ht hc hk hN24 (noLosses_early N s k) h2 hval
  refine ⟨d, ex, h1, hval, h3, fun e he => ?_⟩
  obtain ⟨E, rfl, b1, b2, -⟩ := hv.pending e he
  have hl := hu.wheel.teeth.later n
  unfold timeBefore
  rw [stamp_sub, stamp_toInt (by rw [abs_lt]; omega), decide_eq_true_eq]
  omega

omit [FloatFmt] in
/-- A wheel whose speed varies by no more than half the tolerance is within the tolerance at every tooth. -/
theorem band_steady {N s R : ℕ} {v : ℚ} {p q : ℤ} {T : ℕ → ℤ} (hb : SpeedBand N s p q T) (hR : 2 ≤ R) (hRN : R + 1 ≤ N)
    (hv0 : 0 ≤ v) (hv1 : v ≤ 1) (hp : 0 < p) (hq : 2 * (q : ℚ) ≤ (2 + v) * p) (close : ∀ n, T (n + 1) - T n ≤ 2 ^ 24) :
    SteadyTeeth N s R v T := by
  have hpq : (0 : ℚ) < p := by exact_mod_cast hp
  refine ⟨fun n => ?_, close, fun n hn => ?_⟩
  · have h1 := hb.low n
    rcases wheel_step (N := N) (s := s) (n := n) (by omega) with ⟨_, _, e⟩ | ⟨_, _, e⟩ <;>
    · rw [e] at h1; push_cast at h1; nlinarith
  · have hw := wheel_window (N := N) (s := s) (n := n - 1) (R := R) hR hRN (by omega)
    rw [show n - 1 + 1 - R = n - R by omega] at hw
    have hb1 := band_span hb (n - R) (R - 1)
    rw [show n - R + (R - 1) = n - 1 by omega] at hb1
    have hD : 0 < (wheelPos N s (n - 1) : ℤ) - wheelPos N s (n - R) := by rw [hw]; split_ifs <;> omega
    simp only
    generalize (wheelPos N s (n - 1) : ℤ) - wheelPos N s (n - R) = D at *
    have hlo : p ≤ (T (n - 1) - T (n - R)) / D := by rw [Int.le_ediv_iff_mul_le hD]; exact hb1.1
    have hhi : (T (n - 1) - T (n - R)) / D ≤ q := by
      apply Int.le_of_lt_add_one
      rw [Int.ediv_lt_iff_lt_mul hD]
      nlinarith [hb1.2]
    generalize (T (n - 1) - T (n - R)) / D = pitch at *
    have hloq : (p : ℚ) ≤ pitch := by exact_mod_cast hlo
    have hhiq : (pitch : ℚ) ≤ q := by exact_mod_cast hhi
    have h1 := hb.low (n - 1)
    have h2 := hb.high (n - 1)
    have hstep := wheel_step (N := N) (s := s) (n := n - 1) (by omega)
    rw [show n - 1 + 1 = n by omega] at h1 h2 hstep
    have h1q : (p : ℚ) * ((wheelPos N s n : ℚ) - wheelPos N s (n - 1)) ≤ T n - T (n - 1) := by exact_mod_cast h1
    have h2q : (T n : ℚ) - T (n - 1) ≤ q * ((wheelPos N s n : ℚ) - wheelPos N s (n - 1)) := by exact_mod_cast h2
    rcases hstep with ⟨_, _, e⟩ | ⟨_, _, e⟩
    · have hx : (wheelPos N s n : ℚ) - wheelPos N s (n - 1) = 2 := by rw [e]; push_cast; ring
      rw [hx] at h1q h2q ⊢
      constructor
      · refine le_trans ?_ h1q
        have : (2 - v) * pitch ≤ (2 - v) * ((2 + v) * p / 2) := mul_le_mul_of_nonneg_left (by linarith) (by linarith)
        nlinarith [mul_nonneg (mul_nonneg hv0 hv0) hpq.le]
      · refine le_trans h2q ?_
        have : (2 + v) * p ≤ (2 + v) * pitch := mul_le_mul_of_nonneg_left hloq (by linarith)
        linarith
    · have hx : (wheelPos N s n : ℚ) - wheelPos N s (n - 1) = 1 := by rw [e]; push_cast; ring
      rw [hx] at h1q h2q ⊢
      constructor
      · refine le_trans ?_ h1q
        have : (1 - v) * pitch ≤ (1 - v) * ((2 + v) * p / 2) := mul_le_mul_of_nonneg_left (by linarith) (by linarith)
        nlinarith [mul_nonneg (mul_nonneg hv0 hv0) hpq.le, mul_nonneg hv0 hpq.le]
      · refine le_trans h2q ?_
        have : (1 + v) * p ≤ (1 + v) * pitch := mul_le_mul_of_nonneg_left hloq (by linarith)
        nlinarith [mul_nonneg hv0 hpq.le]

/-- C66 in full, crank wheel only: every tooth within the tolerance of the decoder, measured against the teeth just
before it. -/
def C66_full : Prop :=
  ∀ (d0 : Decoder) (N s R n0 : ℕ) (v g : ℚ) (T : ℕ → ℤ), WheelSetup d0 N s R v g T → d0.type = .missingNosync →
    FirstGap N s R n0 → N ≤ 37 → (∀ n, T (n + 1) - T n ≤ 5000000) → ∀ n, n0 ≤ n →
    ∃ d ex, teethTurn d0 T (n + 1) = .ok (d, ex) ∧ d.valid = true

/-- A wheel that slows down from 40000 ticks per pitch over 54000 to 72000. -/
def slowingWheel (n : ℕ) : ℤ :=
  if n ≤ 6 then 40000 * wheelPos 4 0 n + 40000 else if n = 7 then 414000 else 72000 * wheelPos 4 0 n - 234000

omit [FloatFmt] in
theorem slowing_steady : SteadyTeeth 4 0 2 (3/8) slowingWheel := by
  have hc := constant_speed (N := 4) (s := 0) (R := 2) (v := 3/8) (p := 72000) (a := -234000) (by norm_num) (by norm_num)
    (by norm_num) (by norm_num) (by norm_num)
  have late : ∀ n, 8 ≤ n → slowingWheel n = 72000 * (wheelPos 4 0 n : ℤ) + -234000 := by
    intro n hn
    unfold slowingWheel
    rw [if_neg (by omega), if_neg (by omega)]
    ring
  refine ⟨fun n => ?_, fun n => ?_, fun n hn => ?_⟩
  · rcases Nat.lt_or_ge n 8 with h | h
    · interval_cases n <;> decide +kernel
    · rw [late n h, late (n + 1) (by omega)]; exact hc.later n
  · rcases Nat.lt_or_ge n 8 with h | h
    · interval_cases n <;> decide +kernel
    · rw [late n h, late (n + 1) (by omega)]; exact hc.close n
  · rcases Nat.lt_or_ge n 10 with h | h
    · interval_cases n <;> decide +kernel
    · have := hc.steady n hn
      simp only at this ⊢
      rw [late n (by omega), late (n - 1) (by omega), late (n - 2) (by omega)]
      exact this

omit [FloatFmt] in
theorem slowing_slow (n : ℕ) : slowingWheel (n + 1) - slowingWheel n ≤ 5000000 := by
  rcases Nat.lt_or_ge n 8 with h | h
  · interval_cases n <;> decide +kernel
  · unfold slowingWheel
    rw [if_neg (by omega), if_neg (by omega), if_neg (by omega), if_neg (by omega)]
    rcases wheel_step (N := 4) (s := 0) (n := n) (by norm_num) with ⟨-, -, e⟩ | ⟨-, -, e⟩ <;> rw [e] <;> push_cast <;> omega

omit [FloatFmt] in
/-- The expiry is measured by the speed at the last gap, not by the teeth just before: each tooth of this wheel comes within
the tolerance, and it has turned at constant speed for two turns, but the second tooth of the slowing down comes after
the expiry: the decoder drops sync on a turning wheel. -/
theorem C66_full_false : ¬ @C66_full binary32 := by
  let _ := binary32
  intro h
  have hs : WheelSetup (demoDecoder .missingNosync) 4 0 2 (3/8) 90 slowingWheel :=
    ⟨demo_setup.cfg, demo_setup.turn, demo_setup.grid, slowing_steady, by decide +kernel⟩
  obtain ⟨d, ex, h1, h2⟩ := h _ 4 0 2 3 (3/8) 90 slowingWheel hs rfl demo_gap (by norm_num) slowing_slow 8 (by norm_num)
  obtain ⟨x, h3, h4⟩ := okAnd_ok (x := teethTurn (demoDecoder .missingNosync) slowingWheel 9)
    (p := fun x => !x.1.valid) (by decide +kernel)
  rw [h1] at h3
  cases h3
  simp only [h2] at h4
  cases h4

/-- A wheel that turns unevenly, between 39500 and 40500 ticks per pitch. -/
def unevenWheel (n : ℕ) : ℤ := 40000 * wheelPos 4 0 n + 500 * (n % 2 : ℕ) + 40000

omit [FloatFmt] in
theorem uneven_band : SpeedBand 4 0 39500 40500 unevenWheel := by
  constructor <;> intro n <;> unfold unevenWheel <;>
  rcases wheel_step (N := 4) (s := 0) (n := n) (by norm_num) with ⟨-, -, e⟩ | ⟨-, -, e⟩ <;> rw [e] <;> push_cast <;> omega

omit [FloatFmt] in
theorem uneven_slow (n : ℕ) : unevenWheel (n + 1) - unevenWheel n ≤ 5000000 := by
  unfold unevenWheel
  rcases wheel_step (N := 4) (s := 0) (n := n) (by norm_num) with ⟨-, -, e⟩ | ⟨-, -, e⟩ <;> rw [e] <;> push_cast <;> omega

/-- The hypotheses of C66 are met by a wheel whose speed varies. -/
theorem uneven_setup {ty : DecType} (h : ty = .missingNosync ∨ ty = .missingCamsync) :
    TurnSetup (demoDecoder ty) 4 0 2 (3/8) 90 39500 40500 unevenWheel := by
  have hcfg : WheelCfg (decoderInit (demoDecoder ty)) 4 2 (3/8) 90 := by
    rcases h with rfl | rfl
    · exact demo_setup.cfg
    · exact demo_cam_setup.cfg
  refine ⟨⟨hcfg, demo_setup.turn, demo_setup.grid, ?_, ?_⟩, by norm_num, uneven_slow, uneven_band, by norm_num, by norm_num⟩
  · exact band_steady uneven_band (by norm_num) (by norm_num) (by norm_num) (by norm_num) (by norm_num) (by norm_num)
      (fun n => le_trans (uneven_slow n) (by norm_num))
  · rcases h with rfl | rfl <;> decide +kernel

example (n : ℕ) (hn : 3 ≤ n) : ∃ d ex, @teethTurn exactFmt (demoDecoder .missingNosync) unevenWheel (n + 1) = .ok (d, ex) ∧
    d.valid = true := by
  let _ := exactFmt
  obtain ⟨d, ex, h1, h2, -⟩ := C66_crank_partial (uneven_setup (Or.inl rfl)) rfl demo_gap n hn
  exact ⟨d, ex, h1, h2⟩

example (n : ℕ) (hn : 7 ≤ n) : ∃ d ex, @camTurn exactFmt (demoDecoder .missingCamsync) unevenWheel
    (fun n => unevenWheel n + 10000) 4 0 1 (n + 1) = .ok (d, ex) ∧ d.valid = true := by
  let _ := exactFmt
  obtain ⟨d, ex, h1, h2, -⟩ := C66_cam_partial (uneven_setup (Or.inr rfl)) rfl rfl (by norm_num : 1 < 4 - 1) (P := fun n => unevenWheel n + 10000)
    (fun n => by
      have := uneven_band.low n
      rcases wheel_step (N := 4) (s := 0) (n := n) (by norm_num) with ⟨-, -, e⟩ | ⟨-, -, e⟩ <;> rw [e] at this <;>
        push_cast at this <;> omega)
    (n0 := 3) (m := 7) (by norm_num) (by unfold afterGap; norm_num) (by norm_num) (by decide) n hn
  exact ⟨d, ex, h1, h2⟩

end Verif
