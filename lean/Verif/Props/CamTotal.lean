/-
C42: no conversion faults while the cam phase is tracked.
-/
import Verif.Props.Cam

namespace Verif

variable [FloatFmt]
open FloatFmt

omit [FloatFmt] in
theorem camRotation_keeps (d : Decoder) : (camRotation d).state = d.state ∧ (camRotation d).rpm = d.rpm ∧
    (camRotation d).triggersSinceLastSync = d.triggersSinceLastSync ∧ (camRotation d).times = d.times ∧
    (camRotation d).currentTriggersRpm = d.currentTriggersRpm ∧ (camRotation d).cfg = d.cfg := by
  unfold camRotation
  split_ifs <;> exact ⟨rfl, rfl, rfl, rfl, rfl, rfl⟩

omit [FloatFmt] in
theorem camPulse_keeps (d : Decoder) : (camPulse d).state = d.state ∧ (camPulse d).rpm = d.rpm ∧
    (camPulse d).triggersSinceLastSync = d.triggersSinceLastSync ∧ (camPulse d).times = d.times ∧
    (camPulse d).currentTriggersRpm = d.currentTriggersRpm ∧ (camPulse d).cfg = d.cfg := by
  unfold camPulse
  split_ifs <;> exact ⟨rfl, rfl, rfl, rfl, rfl, rfl⟩

/-- The end of a decode keeps the state and the speed, or loses sync. -/
theorem camFinish_keeps (w : Bool) (d : Decoder) (ex : Option Time) :
    ((camFinish w d ex).d.state = d.state ∧ (camFinish w d ex).d.rpm = d.rpm) ∨ (camFinish w d ex).d.state = .nosync := by
  unfold camFinish
  simp only
  split_ifs <;> first | exact Or.inl ⟨rfl, rfl⟩ | exact Or.inr rfl

/-- What is carried from tooth to tooth. -/
def Moving (d : Decoder) (n : ℕ) : Prop := (d.state = .sync → 1 ≤ d.rpm.toNat) ∧ (n = 0 → d.state = .nosync)

omit [FloatFmt] in
theorem moving_lose {d : Decoder} {n : ℕ} {l : Option DecLoss} (h : Moving d n) : Moving (loseIf d l) n := by
  cases l with
  | none => exact h
  | some r => exact ⟨fun h => (by cases h), fun _ => rfl⟩

theorem moving_finish {w : Bool} {d : Decoder} {ex : Option Time} {n : ℕ} (h : Moving d n) :
    Moving (camFinish w d ex).d n := by
  rcases camFinish_keeps w d ex with ⟨h1, h2⟩ | h1
  · unfold Moving; rw [h1, h2]; exact h
  · exact ⟨fun h => (by rw [h1] at h; cases h), fun _ => h1⟩

/-- The run does not fault, and the reported speed is not zero in sync. -/
theorem cam_total_key {d0 : Decoder} {N s R k : ℕ} {v g : ℚ} {T : ℕ → ℤ} {P : ℕ → Time}
    {B A : ℕ → Option DecLoss} (hw : WheelSetup d0 N s R v g T) (ht : d0.type = .missingCamsync)
    (hc : d0.camThis = false) (hk : k < N - 1) (hN : N ≤ 37) (slow : ∀ n, T (n + 1) - T n ≤ 5000000)
    (hl : LossesEarly N s k B A) (n : ℕ) : ∃ d, camRun d0 T P N s k B A (n + 1) = .ok d ∧ Moving d n := by
  have hR2 := hw.cfg.R2
  have hN24 : N ≤ 2 ^ 24 := by omega
  -- one tooth
  have tooth : ∀ (n : ℕ) (d d1 : Decoder) (b : Bool), d.type = .missingCamsync →
      missingTriggerUpdate d (stamp (T n)) = .ok (d1, b) → WheelCfg d1 N R v g → HistOk d1 T n n →
      d1.currentTriggersRpm.toNat ≤ n + 1 → (d1.state ≠ .nosync → 1 ≤ n) →
      (d1.state = .sync → d1.triggersSinceLastSync ≠ 0 → 1 ≤ d1.rpm.toNat) →
      ∃ o, decode d 0 (stamp (T n)) = .ok o ∧ Moving o.d n := by
    intro n d d1 b hty h1 hw1 hh hcur hn hz
    obtain ⟨k1, k2, k3, k4, k5, k6⟩ := camRotation_keeps d1
    obtain ⟨d2, h2, h2r⟩ := rpms_total (d := camRotation d1) hw.teeth.later slow (cfg_wheel hw1 k6) hw.turn hw.grid hN
      (show HistOk (camRotation d1) T n n by unfold HistOk; rw [k4]; exact hh) (by rw [k5]; exact hcur) (by rw [k1]; exact hn)
    obtain ⟨tr, r, hd2⟩ := missingRpms_frame h2
    refine ⟨camFinish d.valid d2 (expireReq d1 b), ?_, moving_finish ⟨fun hs => h2r ?_ ?_, fun h0 => ?_⟩⟩
    · unfold decode
      rw [hty]
      simp only
      unfold decodeMissingCamsync
      simp only [if_true]
      rw [h1, except_bind_ok]
      simp only
      rw [h2, except_bind_ok]
      rfl
    · rw [hd2] at hs; exact hs
    · rw [k2, k3]
      intro hne
      refine hz ?_ hne
      rw [hd2] at hs; rw [← k1]; exact hs
    · rw [hd2]
      show (camRotation d1).state = .nosync
      rw [k1]
      by_contra hne
      have := hn hne
      omega
  -- the place of the cam pulse
  have rest : ∀ (n : ℕ) (d1 : Decoder), CamInv d0 d1 T N s R k g n false → Moving d1 n →
      ∃ d, (if pulseAfter N s k n then decode (loseIf d1 (B n)) 1 (P n) >>= fun o => .ok (loseIf o.d (A n))
        else .ok (loseIf (loseIf d1 (B n)) (A n))) = .ok d ∧ Moving d n := by
    intro n d1 hi hm
    have hi' := cam_lose hi (hl n).1
    have hm' : Moving (loseIf d1 (B n)) n := moving_lose hm
    generalize loseIf d1 (B n) = d at hi' hm'
    split_ifs with hp
    · have hty : d.type = .missingCamsync := by
        have : d.type = d0.type := congrArg DecConfig.type hi'.cfg
        rw [this, ht]
      obtain ⟨k1, k2, k3, k4, k5, k6⟩ := camPulse_keeps d
      obtain ⟨d2, h2, h2r⟩ := rpms_total (d := camPulse d) hw.teeth.later slow
        (cfg_wheel (cfg_wheel hw.cfg hi'.cfg) k6) hw.turn hw.grid hN
        (show HistOk (camPulse d) T n n by unfold HistOk; rw [k4]; exact hi'.hist) (by rw [k5]; exact hi'.cur)
        (by rw [k1]; intro h; by_contra h0; exact h (hm'.2 (by omega)))
      obtain ⟨tr, r, hd2⟩ := missingRpms_frame h2
      have hdec : decode d 1 (P n) = .ok (camFinish d.valid d2 none) := by
        unfold decode
        rw [hty]
        simp only
        unfold decodeMissingCamsync
        simp only
        rw [if_neg (by decide)]
        simp only [if_true]
        rw [h2, except_bind_ok]
        rfl
      refine ⟨loseIf (camFinish d.valid d2 none).d (A n), by rw [hdec]; rfl, moving_lose (moving_finish ⟨fun hs => h2r ?_ ?_, fun h0 => ?_⟩)⟩
      · rw [hd2] at hs; exact hs
      · rw [k2]
        intro _
        refine hm'.1 ?_
        rw [hd2] at hs; rw [← k1]; exact hs
      · rw [hd2]
        show (camPulse d).state = .nosync
        rw [k1]
        exact hm'.2 h0
    · exact ⟨_, rfl, moving_lose hm'⟩
  have key : ∀ n, ∃ d, camRun d0 T P N s k B A (n + 1) = .ok d ∧ Moving d n := by
    intro n
    induction n with
    | zero =>
        obtain ⟨d1, b, h1, hr1⟩ := mtu_total (t := stamp (T 0)) hw.cfg hw.turn hw.grid (by
          show DecState.nosync = .sync → _
          intro h; cases h)
        obtain ⟨hf, hd1⟩ := fed_first (d := d1) h1 (by rw [← hw.cfg.required] at hR2; exact hR2) rfl rfl
        have hst : d1.state = .nosync := by rw [hd1]; rfl
        obtain ⟨o, ho, hm⟩ := tooth 0 (decoderInit d0) d1 b ht h1 (cfg_wheel hw.cfg (by rw [hd1]; rfl)) hf.hist
          (by rw [hf.cur]; omega) (fun h => absurd hst h) (fun h => by rw [hst] at h; cases h)
        obtain ⟨d, hd, hmd⟩ := rest 0 o.d (cam_first hw ht hc ho) hm
        refine ⟨d, ?_, hmd⟩
        unfold camRun
        rw [show camRun d0 T P N s k B A 0 = .ok (decoderInit d0) from rfl, except_bind_ok, ho, except_bind_ok]
        exact hd
    | succ n ih =>
        obtain ⟨d, hd, hm⟩ := ih
        have hi := cam_key hw ht hc hk hN24 hl hd
        have hdw : WheelCfg d N R v g := cfg_wheel hw.cfg hi.cfg
        have hty : d.type = .missingCamsync := by
          have : d.type = d0.type := congrArg DecConfig.type hi.cfg
          rw [this, ht]
        obtain ⟨d1, b, h1, hr1⟩ := mtu_total (t := stamp (T (n + 1))) hdw hw.turn hw.grid hm.1
        obtain ⟨c1, c2, c3, c4⟩ := mtu_fed hdw h1
        have hcur : d1.currentTriggersRpm.toNat ≤ n + 1 + 1 := by
          rw [c2]
          have := hi.cur
          exact bump_le this hi.cur36 |>.1
        obtain ⟨o, ho, hmo⟩ := tooth (n + 1) d d1 b hty h1 (cfg_wheel hdw c3)
          (by unfold HistOk; rw [c1]; exact histOk_push hi.hist) hcur (fun _ => by omega)
          (fun hs hz => by rw [hr1]; exact hm.1 (c4 hs hz))
        obtain ⟨d', hd', hmd⟩ := rest (n + 1) o.d (cam_tooth hw ht hk hi ho).1 hmo
        refine ⟨d', ?_, hmd⟩
        rw [camRun, hd, except_bind_ok, ho, except_bind_ok]
        exact hd'
  exact key n

/-- C42: tracking the cam phase involves no undefined conversion, division by zero or access outside an array, whatever the
number of teeth, the times of the cam pulses and the losses of sync. -/
theorem C42_no_fault {d0 : Decoder} {N s R k : ℕ} {v g : ℚ} {T : ℕ → ℤ} {P : ℕ → Time}
    {B A : ℕ → Option DecLoss} (hw : WheelSetup d0 N s R v g T) (ht : d0.type = .missingCamsync)
    (hc : d0.camThis = false) (hk : k < N - 1) (hN : N ≤ 37) (slow : ∀ n, T (n + 1) - T n ≤ 5000000)
    (hl : LossesEarly N s k B A) (n : ℕ) : ∃ d, camRun d0 T P N s k B A n = .ok d := by
  cases n with
  | zero => exact ⟨_, rfl⟩
  | succ n =>
      obtain ⟨d, hd, -⟩ := cam_total_key (P := P) hw ht hc hk hN slow hl n
      exact ⟨d, hd⟩

/-- Unless it loses sync, the end of a decode keeps the state and the tooth count. -/
theorem camFinish_state {w : Bool} {d : Decoder} {ex : Option Time} (h : w = true → (camFinish w d ex).d.valid = true) :
    (camFinish w d ex).d.state = d.state ∧ (camFinish w d ex).d.currentTriggersRpm = d.currentTriggersRpm := by
  revert h
  unfold camFinish
  simp only
  split_ifs with h1 h2 h3 h4 h5 <;> intro h <;> first | exact ⟨rfl, rfl⟩ | skip
  all_goals
    exfalso
    have hw : w = true := by
      cases w
      · simp at *
      · rfl
    have := h hw
    cases this

/-- One tooth without a loss of sync. -/
theorem cam_advance {d0 d : Decoder} {o : DecOut} {N s R k n : ℕ} {v g : ℚ} {T : ℕ → ℤ}
    (hw : WheelSetup d0 N s R v g T) (ht : d0.type = .missingCamsync) (hk : k < N - 1)
    (hi : CamInv d0 d T N s R k g n true) (hcur : d.currentTriggersRpm.toNat = min (n + 1) 36)
    (h : decode d 0 (stamp (T (n + 1))) = .ok o) :
    o.d.currentTriggersRpm.toNat = min (n + 2) 36 ∧ (d.state = .sync → o.d.state = .sync) ∧
      (R ≤ n + 1 → afterGap N s (n + 1) → o.d.state = .sync) := by
  have hd : WheelCfg d N R v g := cfg_wheel hw.cfg hi.cfg
  have hty : d.type = .missingCamsync := by
    have : d.type = d0.type := congrArg DecConfig.type hi.cfg
    rw [this, ht]
  obtain ⟨-, hv⟩ := cam_tooth hw ht hk hi h
  obtain ⟨d1, b, tr, r, h1, rfl⟩ := camsync_tooth hty h
  obtain ⟨c1, c2, -, -⟩ := mtu_fed hd h1
  obtain ⟨f1, f2⟩ := camFinish_state (w := d.valid) (d := { camRotation d1 with toothRpm := tr, rpm := r })
    (ex := expireReq d1 b) hv
  obtain ⟨k1, -, -, -, k5, -⟩ := camRotation_keeps d1
  have hbump : (missingBump d (stamp (T (n + 1)))).currentTriggersRpm.toNat = min (n + 2) 36 := by
    unfold missingBump
    simp only
    by_cases hlt : d.currentTriggersRpm.toNat < maxTriggers
    · rw [if_pos hlt]
      have hlt' : d.currentTriggersRpm.toNat < 36 := hlt
      have : (d.currentTriggersRpm + 1).toNat = d.currentTriggersRpm.toNat + 1 := by bv_omega
      omega
    · rw [if_neg hlt]
      have hlt' : ¬ d.currentTriggersRpm.toNat < 36 := hlt
      omega
  have hsync : d.state = .sync → d1.state = .sync := by
    intro hs
    obtain ⟨i1, i2, i3, -⟩ := hi.insync hs
    obtain ⟨kk, c, cc, e, a, m, hd1, -⟩ := sync_step hd hw.teeth hi.hist i1 hs i3 i2 h1
    rw [hd1]
  refine ⟨?_, fun hs => ?_, fun hR hg => ?_⟩
  · rw [f2]
    show (camRotation d1).currentTriggersRpm.toNat = _
    rw [k5, c2, hbump]
  · rw [f1]
    show (camRotation d1).state = _
    rw [k1]; exact hsync hs
  · rw [f1]
    show (camRotation d1).state = _
    rw [k1]
    by_cases hs : d.state = .sync
    · exact hsync hs
    · have hR36 := hd.R36
      obtain ⟨ha, -⟩ := acquire_step hd hw.teeth hi.hist hR hs (by omega) h1
      obtain ⟨cc, hd1⟩ := ha hg
      rw [hd1]

/-- A cam pulse without a loss of sync. -/
theorem cam_pulse_advance {d0 d : Decoder} {o : DecOut} {N s R k n : ℕ} {v g : ℚ} {T : ℕ → ℤ} {t : Time}
    (hw : WheelSetup d0 N s R v g T) (ht : d0.type = .missingCamsync) (hN24 : N ≤ 2 ^ 24)
    (hi : CamInv d0 d T N s R k g n false) (hp : pulseAfter N s k n) (h : decode d 1 t = .ok o) :
    o.d.currentTriggersRpm = d.currentTriggersRpm ∧ o.d.state = d.state := by
  have hty : d.type = .missingCamsync := by
    have : d.type = d0.type := congrArg DecConfig.type hi.cfg
    rw [this, ht]
  obtain ⟨-, -, hv⟩ := cam_pulse hw ht hN24 hi hp h
  obtain ⟨tr, r, rfl⟩ := camsync_pulse hty h
  obtain ⟨f1, f2⟩ := camFinish_state (w := d.valid) (d := { camPulse d with toothRpm := tr, rpm := r }) (ex := none) hv
  obtain ⟨k1, -, -, -, k5, -⟩ := camPulse_keeps d
  exact ⟨f2.trans k5, f1.trans k1⟩

/-- Nothing makes the decoder lose sync. -/
abbrev noLosses : ℕ → Option DecLoss := fun _ => none

omit [FloatFmt] in
theorem noLosses_early (N s k : ℕ) : LossesEarly N s k noLosses noLosses :=
  fun _ => ⟨fun h => absurd rfl h, fun h => absurd rfl h⟩

theorem cam_acquire {d0 d : Decoder} {N s R k : ℕ} {v g : ℚ} {T : ℕ → ℤ} {P : ℕ → Time} {n n0 : ℕ}
    (hw : WheelSetup d0 N s R v g T) (ht : d0.type = .missingCamsync) (hc : d0.camThis = false) (hk : k < N - 1)
    (hN24 : N ≤ 2 ^ 24) (hR : R ≤ n0) (hg : afterGap N s n0)
    (h : camRun d0 T P N s k noLosses noLosses (n + 1) = .ok d) :
    d.currentTriggersRpm.toNat = min (n + 1) 36 ∧ (n0 ≤ n → d.state = .sync) := by
  have hR2 := hw.cfg.R2
  have rest : ∀ (n : ℕ) (d d1 : Decoder), CamInv d0 d1 T N s R k g n false →
      (if pulseAfter N s k n then decode (loseIf d1 (noLosses n)) 1 (P n) >>= fun o => .ok (loseIf o.d (noLosses n))
        else .ok (loseIf (loseIf d1 (noLosses n)) (noLosses n))) = .ok d →
      d.currentTriggersRpm = d1.currentTriggersRpm ∧ d.state = d1.state := by
    intro n d d1 hi h
    split_ifs at h with hp
    · rw [bind_eq_ok] at h
      obtain ⟨o, ho, h⟩ := h
      cases h
      exact cam_pulse_advance hw ht hN24 hi hp ho
    · cases h
      exact ⟨rfl, rfl⟩
  induction n generalizing d with
  | zero =>
      unfold camRun at h
      rw [show camRun d0 T P N s k noLosses noLosses 0 = .ok (decoderInit d0) from rfl, except_bind_ok, bind_eq_ok] at h
      obtain ⟨o, ho, h⟩ := h
      have hi := cam_first (k := k) hw ht hc ho
      obtain ⟨r1, r2⟩ := rest 0 d o.d hi h
      refine ⟨?_, fun hn => by omega⟩
      rw [r1]
      obtain ⟨d1, b, tr, r, h1, rfl⟩ := camsync_tooth (d := decoderInit d0) ht ho
      obtain ⟨f1, f2⟩ := camFinish_state (w := (decoderInit d0).valid) (d := { camRotation d1 with toothRpm := tr, rpm := r })
        (ex := expireReq d1 b) (fun h => by cases h)
      rw [f2]
      show (camRotation d1).currentTriggersRpm.toNat = _
      rw [(camRotation_keeps d1).2.2.2.2.1]
      have hf := (fed_first (d := d1) h1 (by rw [← hw.cfg.required] at hR2; exact hR2) rfl rfl).1
      exact hf.cur
  | succ n ih =>
      rw [camRun, bind_eq_ok] at h
      obtain ⟨d', h', h⟩ := h
      rw [bind_eq_ok] at h
      obtain ⟨o, ho, h⟩ := h
      obtain ⟨j1, j2⟩ := ih h'
      have hi := cam_key hw ht hc hk hN24 (noLosses_early N s k) h'
      obtain ⟨a1, a2, a3⟩ := cam_advance hw ht hk hi j1 ho
      obtain ⟨r1, r2⟩ := rest (n + 1) d o.d (cam_tooth hw ht hk hi ho).1 h
      refine ⟨by rw [r1, a1], fun hn => ?_⟩
      rw [r2]
      rcases Nat.lt_or_ge n n0 with hlt | hge
      · have hn0 : n0 = n + 1 := by omega
        subst hn0
        exact a3 hR hg
      · exact a2 (j2 hge)

/-- C42, continued: without losses from outside, the first cam pulse after the first full gap (a tooth after the gap with
enough teeth before it) makes the decoder valid, and it stays valid. -/
theorem C42_acquired {d0 d : Decoder} {N s R k : ℕ} {v g : ℚ} {T : ℕ → ℤ} {P : ℕ → Time} {n n0 m : ℕ}
    (hw : WheelSetup d0 N s R v g T) (ht : d0.type = .missingCamsync) (hc : d0.camThis = false) (hk : k < N - 1)
    (hN24 : N ≤ 2 ^ 24) (hR : R ≤ n0) (hg : afterGap N s n0) (hm : n0 ≤ m) (hp : pulseAfter N s k m) (hn : m ≤ n)
    (h : camRun d0 T P N s k noLosses noLosses (n + 1) = .ok d) : d.valid = true := by
  induction n, hn using Nat.le_induction generalizing d with
  | base =>
      have hs := (cam_acquire hw ht hc hk hN24 hR hg h).2 hm
      exact C42_gained hw ht hc hk hN24 (noLosses_early N s k) h hp hs
  | succ n hn ih =>
      have h' := h
      rw [camRun, bind_eq_ok] at h'
      obtain ⟨d', hd', -⟩ := h'
      exact C42_kept hw ht hc hk hN24 (noLosses_early N s k) hd' (ih hd') h rfl rfl

/-- The demonstration wheel with a cam pulse after its second tooth: nothing faults however long it turns, with a loss of
sync in the second revolution. -/
example (n : ℕ) : ∃ d, @camRun exactFmt (demoDecoder .missingCamsync) (fun n => 40000 * wheelPos 4 0 n + 40000)
    (fun n => stamp (40000 * wheelPos 4 0 n + 50000)) 4 0 1 (fun _ => none)
    (fun n => if n = 11 then some .expired else none) n = .ok d := by
  let _ := exactFmt
  refine C42_no_fault demo_cam_setup rfl rfl (by norm_num) (by norm_num) (fun n => ?_) (fun n => ?_) n
  · rcases wheel_step (N := 4) (s := 0) (n := n) (by norm_num) with ⟨-, -, e⟩ | ⟨-, -, e⟩ <;> rw [e] <;> push_cast <;> omega
  · refine ⟨fun h => absurd rfl h, fun h => ?_⟩
    by_cases hn : n = 11
    · subst hn
      rintro ⟨h, -⟩
      revert h; unfold firstRev; decide
    · exact absurd (if_neg hn) h

/-- The demonstration wheel is tracked for ever from its eighth tooth on. -/
example (n : ℕ) (hn : 7 ≤ n) : ∃ d, @camRun exactFmt (demoDecoder .missingCamsync) (fun n => 40000 * wheelPos 4 0 n + 40000)
    (fun n => stamp (40000 * wheelPos 4 0 n + 50000)) 4 0 1 noLosses noLosses (n + 1) = .ok d ∧ d.valid = true := by
  let _ := exactFmt
  obtain ⟨d, hd⟩ := C42_no_fault (P := fun n => stamp (40000 * wheelPos 4 0 n + 50000)) demo_cam_setup rfl rfl
    (by norm_num : 1 < 4 - 1) (by norm_num) (fun n => by
      rcases wheel_step (N := 4) (s := 0) (n := n) (by norm_num) with ⟨-, -, e⟩ | ⟨-, -, e⟩ <;> rw [e] <;> push_cast <;> omega)
    (noLosses_early 4 0 1) (n + 1)
  exact ⟨d, hd, C42_acquired demo_cam_setup rfl rfl (by norm_num) (by norm_num) (n0 := 3) (m := 7) (by norm_num)
    (by unfold afterGap; norm_num) (by norm_num) (by decide) hn hd⟩

end Verif
