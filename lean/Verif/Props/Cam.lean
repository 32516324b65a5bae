/-
C42: the cam phase of a missing-tooth wheel.
-/
import Verif.Spec.Cam
import Verif.Props.WheelTotal

namespace Verif

variable [FloatFmt]
open FloatFmt

theorem camsync_tooth {d : Decoder} {t : Time} {o : DecOut} (ht : d.type = .missingCamsync)
    (h : decode d 0 t = .ok o) :
    ∃ d1 b tr r, missingTriggerUpdate d t = .ok (d1, b) ∧
      o = camFinish d.valid { camRotation d1 with toothRpm := tr, rpm := r } (expireReq d1 b) := by
  unfold decode at h
  simp only [ht] at h
  unfold decodeMissingCamsync at h
  simp only [if_true] at h
  rw [bind_eq_ok] at h; obtain ⟨⟨d1, b⟩, h1, h⟩ := h
  rw [bind_eq_ok] at h; obtain ⟨d2, h2, h⟩ := h
  obtain ⟨tr, r, hd2⟩ := missingRpms_frame h2
  simp only [except_pure, Except.ok.injEq] at h
  exact ⟨d1, b, tr, r, h1, by rw [← h, hd2]⟩

theorem camsync_pulse {d : Decoder} {t : Time} {o : DecOut} (ht : d.type = .missingCamsync)
    (h : decode d 1 t = .ok o) :
    ∃ tr r, o = camFinish d.valid { camPulse d with toothRpm := tr, rpm := r } none := by
  unfold decode at h
  simp only [ht] at h
  unfold decodeMissingCamsync at h
  simp only at h
  rw [if_neg (by decide)] at h
  simp only [if_true] at h
  rw [bind_eq_ok] at h; obtain ⟨d2, h2, h⟩ := h
  obtain ⟨tr, r, hd2⟩ := missingRpms_frame h2
  simp only [except_pure, Except.ok.injEq] at h
  exact ⟨tr, r, by rw [← h, hd2]⟩

/-- The angle of the wheel after tooth `n`, in degrees of the engine cycle. -/
def trueAngle (N s : ℕ) (g : ℚ) (n : ℕ) : ℚ := g * ((wheelPos N s n % (2 * N) : ℕ) : ℚ)

/-- What holds after tooth `n`; `upto` says whether the cam pulse after that tooth (if any) is included. -/
structure CamInv (d0 d : Decoder) (T : ℕ → ℤ) (N s R k : ℕ) (g : ℚ) (n : ℕ) (upto : Bool) : Prop where
  cfg : d.cfg = (decoderInit d0).cfg
  hist : HistOk d T n n
  old : ∀ i (h : i < 37), n < i → d.times ⟨i, h⟩ = d0.times ⟨i - n - 1, lt_of_le_of_lt (by omega : i - n - 1 ≤ i) h⟩
  cur : d.currentTriggersRpm.toNat ≤ n + 1
  cur36 : d.currentTriggersRpm.toNat ≤ 36
  insync : d.state = .sync → R ≤ n ∧ R ≤ d.currentTriggersRpm.toNat ∧ d.triggersSinceLastSync.toNat = wheelIdx N s n ∧
    (d.camThis = true ↔ pulseSeen N s k n upto) ∧ (d.camLast = true → ¬ firstRev N s n) ∧
    (wheelIdx N s n ≠ 0 → d.lastTriggerTime = stamp (T n)) ∧ (d.camThis = true ∨ d.camLast = true → d.valid = true)
  nosync : d.state ≠ .sync → d.camThis = false ∧ d.valid = false
  valid : d.valid = true → d.lastTriggerAngle = .fin (trueAngle N s g n) ∧ (¬ firstRev N s n → d.camLast = true) ∧
    (1 ≤ k → d.lastTriggerTime = stamp (T n))

omit [FloatFmt] in
/-- Revolution and tooth number after one more tooth. -/
theorem rev_step {N s n : ℕ} (hN : 2 ≤ N) :
    (wheelIdx N s (n + 1) = 0 ∧ wheelIdx N s n + 1 = N - 1 ∧ (firstRev N s (n + 1) ↔ ¬ firstRev N s n)) ∨
    (wheelIdx N s (n + 1) = wheelIdx N s n + 1 ∧ wheelIdx N s n + 1 < N - 1 ∧ (firstRev N s (n + 1) ↔ firstRev N s n)) := by
  have hN1 : 0 < N - 1 := by omega
  unfold wheelIdx firstRev
  have h1 := Nat.div_add_mod (s + n) (N - 1)
  have h2 := Nat.mod_lt (s + n) hN1
  generalize (s + n) / (N - 1) = q at *
  generalize hj : (s + n) % (N - 1) = j at *
  rcases Nat.lt_or_ge (j + 1) (N - 1) with hlt | hge
  · right
    have h3 : s + (n + 1) = (N - 1) * q + (j + 1) := by omega
    have hq : (s + (n + 1)) / (N - 1) = q := by
      rw [h3, Nat.mul_add_div hN1, Nat.div_eq_of_lt hlt, Nat.add_zero]
    have hm : (s + (n + 1)) % (N - 1) = j + 1 := by
      rw [h3, Nat.mul_add_mod, Nat.mod_eq_of_lt hlt]
    rw [hq, hm]
    exact ⟨rfl, hlt, Iff.rfl⟩
  · left
    have h3 : s + (n + 1) = (N - 1) * (q + 1) + 0 := by rw [Nat.mul_add]; omega
    have hq : (s + (n + 1)) / (N - 1) = q + 1 := by
      rw [h3, Nat.mul_add_div hN1, Nat.zero_div, Nat.add_zero]
    have hm : (s + (n + 1)) % (N - 1) = 0 := by
      rw [h3, Nat.mul_add_mod, Nat.zero_mod]
    rw [hq, hm]
    refine ⟨rfl, by omega, ?_⟩
    omega

/-- The angle set when the phase is found. -/
theorem phase_angle {N s n : ℕ} {g : ℚ} (hN : 2 ≤ N) (turn : g * N = 360)
    (grid : ∀ k : ℕ, k ≤ 2 * N + 1 → rnd (g * k) = .fin (g * k)) {tsls : BitVec 32} (hk : tsls.toNat = wheelIdx N s n)
    (hN24 : N ≤ 2 ^ 24) (this : Bool) (hf : this = true ↔ firstRev N s n) :
    Fl.fin g * Fl.ofU32 tsls + (if this then Fl.fin 0 else Fl.fin 360) = .fin (trueAngle N s g n) := by
  obtain ⟨hlt, -⟩ := wheel_split (N := N) (s := s) (n := n) hN
  have h1 : Fl.ofU32 tsls = .fin (wheelIdx N s n : ℕ) := by
    unfold Fl.ofU32
    rw [hk, rnd_nat _ (by omega)]
  have hpos : wheelPos N s n = N * ((s + n) / (N - 1)) + wheelIdx N s n := rfl
  have h2 : Fl.fin g * Fl.fin ((wheelIdx N s n : ℕ) : ℚ) = .fin (g * (wheelIdx N s n : ℕ)) := by
    rw [Fl.fin_mul, grid _ (by omega)]
  rw [h1, h2]
  unfold trueAngle
  rw [hpos]
  have hq := Nat.div_add_mod ((s + n) / (N - 1)) 2
  by_cases hfr : firstRev N s n
  · rw [if_pos (hf.mpr hfr), Fl.fin_add, add_zero, grid _ (by omega)]
    unfold firstRev at hfr
    have e : N * ((s + n) / (N - 1)) + wheelIdx N s n = 2 * N * ((s + n) / (N - 1) / 2) + wheelIdx N s n := by
      rw [hfr, Nat.add_zero] at hq
      rw [mul_comm 2 N, mul_assoc, hq]
    rw [e, Nat.mul_add_mod, Nat.mod_eq_of_lt (by omega)]
  · rw [if_neg (fun h => hfr (hf.mp h)), Fl.fin_add]
    unfold firstRev at hfr
    have hodd : (s + n) / (N - 1) % 2 = 1 := by omega
    have e : N * ((s + n) / (N - 1)) + wheelIdx N s n = 2 * N * ((s + n) / (N - 1) / 2) + (N + wheelIdx N s n) := by
      rw [hodd] at hq
      have : N * ((s + n) / (N - 1)) = N * (2 * ((s + n) / (N - 1) / 2) + 1) := by rw [hq]
      rw [this]; ring
    rw [e, Nat.mul_add_mod, Nat.mod_eq_of_lt (by omega), ← grid (N + wheelIdx N s n) (by omega)]
    congr 1
    push_cast
    linear_combination -turn

omit [FloatFmt] in
theorem camRotation_gap {d : Decoder} (hs : d.state = .sync) (hk : d.triggersSinceLastSync = 0)
    (hv : d.valid = true → d.camThis = true ∨ d.camLast = true) :
    camRotation d = { d with camLast := d.camThis, camThis := false } := by
  unfold camRotation
  rw [if_pos ⟨hs, hk⟩]
  cases d
  rename_i v _ _ _ _ _ _ _ _ _ _ _ _ _ _ _ _ _ _ _ _ _ a b
  cases v <;> cases a <;> cases b <;> simp_all

omit [FloatFmt] in
theorem camRotation_other {d : Decoder} (h : ¬ (d.state = .sync ∧ d.triggersSinceLastSync = 0)) : camRotation d = d := by
  unfold camRotation
  rw [if_neg h]

theorem camFinish_keep {w : Bool} {d : Decoder} {ex : Option Time} (hs : d.state = .sync) (hv : d.valid = w)
    (hc : d.camThis = true ∨ d.camLast = true → w = true) : (camFinish w d ex).d = d := by
  unfold camFinish
  simp only [hs, ne_eq, not_true_eq_false, if_false]
  have hw : (!w && (d.camThis || d.camLast)) = false := by
    cases hw : w
    · have : ¬ (d.camThis = true ∨ d.camLast = true) := fun h => by rw [hc h] at hw; cases hw
      simpa using this
    · rfl
  rw [hw]
  simp only [Bool.false_eq_true, if_false, hv]
  cases w <;> rfl

theorem camFinish_off {d : Decoder} {ex : Option Time} (hs : d.state ≠ .sync) (hv : d.valid = false) :
    (camFinish false d ex).d = d := by
  unfold camFinish
  simp only [hs, ne_eq, not_false_eq_true, if_true, Bool.false_and, Bool.false_eq_true, if_false]
  cases d
  simp_all

theorem camFinish_gain {d : Decoder} {ex : Option Time} (hs : d.state = .sync) (hc : d.camThis = true) :
    (camFinish false d ex).d = { d with valid := true, loss := .noLoss, lastTriggerAngle := d.degreesPerTrigger * Fl.ofU32 d.triggersSinceLastSync + (if true then Fl.fin 0 else Fl.fin 360) } := by
  unfold camFinish
  simp only [hs, hc, ne_eq, not_true_eq_false, if_false, Bool.not_false, Bool.true_or, Bool.and_self, if_true, Bool.false_and, Bool.false_eq_true]

omit [FloatFmt] in
theorem bump_le {d : Decoder} {t : Time} {n : ℕ} (h : d.currentTriggersRpm.toNat ≤ n + 1)
    (h36 : d.currentTriggersRpm.toNat ≤ 36) :
    (missingBump d t).currentTriggersRpm.toNat ≤ n + 2 ∧ (missingBump d t).currentTriggersRpm.toNat ≤ 36 ∧
      d.currentTriggersRpm.toNat ≤ (missingBump d t).currentTriggersRpm.toNat := by
  unfold missingBump
  simp only
  by_cases hlt : d.currentTriggersRpm.toNat < maxTriggers
  · rw [if_pos hlt]
    have hlt' : d.currentTriggersRpm.toNat < 36 := hlt
    have : (d.currentTriggersRpm + 1).toNat = d.currentTriggersRpm.toNat + 1 := by bv_omega
    omega
  · rw [if_neg hlt]
    have hlt' : ¬ d.currentTriggersRpm.toNat < 36 := hlt
    omega

/-- A tooth out of sync. -/
theorem cam_search {d0 d d1 : Decoder} {N s R k n : ℕ} {v g : ℚ} {T : ℕ → ℤ} {b : Bool}
    (hw : WheelSetup d0 N s R v g T) (hd : WheelCfg d N R v g) (hi : CamInv d0 d T N s R k g n true)
    (hs : d.state ≠ .sync) (h : missingTriggerUpdate d (stamp (T (n + 1))) = .ok (d1, b)) :
    d1.camThis = d.camThis ∧ d1.camLast = d.camLast ∧ d1.valid = d.valid ∧
    (d1.state = .sync → R ≤ n + 1 ∧ R ≤ d1.currentTriggersRpm.toNat ∧ d1.triggersSinceLastSync = 0 ∧
      wheelIdx N s (n + 1) = 0) := by
  obtain ⟨hb1, hb2, hb3⟩ := bump_le (t := stamp (T (n + 1))) hi.cur hi.cur36
  rcases Nat.lt_or_ge (missingBump d (stamp (T (n + 1)))).currentTriggersRpm.toNat d.requiredTriggersRpm.toNat with hlt | hge
  · rw [mtu_wait hlt] at h
    simp only [Except.ok.injEq, Prod.mk.injEq] at h
    rw [← h.1]
    exact ⟨rfl, rfl, rfl, fun h => absurd h hs⟩
  · have hreq := hd.required
    rcases Nat.lt_or_ge (n + 1) R with hlt | hge2
    · obtain ⟨s', cc, l, rfl, hs'⟩ := boot_tooth hw hd hi.hist hi.old hs (by omega) hge h
      exact ⟨rfl, rfl, rfl, fun h => absurd h hs'⟩
    · obtain ⟨ha, hb⟩ := acquire_step hd hw.teeth hi.hist hge2 hs (by omega) h
      by_cases hz : wheelIdx N s (n + 1) = 0
      · obtain ⟨cc, rfl⟩ := ha hz
        exact ⟨rfl, rfl, rfl, fun _ => ⟨hge2, by rw [hreq] at hge; exact hge, rfl, hz⟩⟩
      · obtain ⟨s', cc, l, rfl, hs'⟩ := hb hz
        exact ⟨rfl, rfl, rfl, fun h => absurd h hs'⟩

omit [FloatFmt] in
theorem seen_step {N s k n : ℕ} (h : wheelIdx N s (n + 1) = wheelIdx N s n + 1)
    (hf : firstRev N s (n + 1) ↔ firstRev N s n) : pulseSeen N s k (n + 1) false ↔ pulseSeen N s k n true := by
  unfold pulseSeen
  rw [hf]
  unfold wheelIdx at h
  rw [h]
  simp only [Bool.false_eq_true, and_false, or_false, and_true]
  constructor
  · rintro ⟨h1, h2⟩; exact ⟨h1, by omega⟩
  · rintro ⟨h1, h2⟩; exact ⟨h1, by omega⟩

/-- A tooth. -/
theorem cam_tooth {d0 d : Decoder} {o : DecOut} {N s R k n : ℕ} {v g : ℚ} {T : ℕ → ℤ}
    (hw : WheelSetup d0 N s R v g T) (ht : d0.type = .missingCamsync) (hk : k < N - 1)
    (hi : CamInv d0 d T N s R k g n true) (h : decode d 0 (stamp (T (n + 1))) = .ok o) :
    CamInv d0 o.d T N s R k g (n + 1) false ∧ (d.valid = true → o.d.valid = true) := by
  have hd : WheelCfg d N R v g := cfg_wheel hw.cfg hi.cfg
  have hN2 : 2 ≤ N := by have := hd.R2; have := hd.RN; omega
  have hty : d.type = .missingCamsync := by
    have : d.type = d0.type := congrArg DecConfig.type hi.cfg
    rw [this, ht]
  have hcfg := ((decode_facts h).cfg).trans hi.cfg
  obtain ⟨d1, b, tr, r, h1, rfl⟩ := camsync_tooth hty h
  obtain ⟨hf1, hf2, hf3, -⟩ := mtu_fed hd h1
  obtain ⟨hb1, hb2, hb3⟩ := bump_le (t := stamp (T (n + 1))) hi.cur hi.cur36
  have hist : HistOk d1 T (n + 1) (n + 1) := by
    intro i h37 hn
    rw [hf1]
    exact histOk_push hi.hist i h37 hn
  have old : ∀ i (h : i < 37), n + 1 < i →
      d1.times ⟨i, h⟩ = d0.times ⟨i - (n + 1) - 1, lt_of_le_of_lt (by omega : i - (n + 1) - 1 ≤ i) h⟩ := by
    intro i h37 hn
    rw [hf1]
    unfold pushTime
    simp only
    rw [dif_neg (by omega), hi.old (i - 1) (by omega) (by omega)]
    congr 2
    omega
  rw [← hf2] at hb1 hb2 hb3
  by_cases hs : d.state = .sync
  · obtain ⟨i1, i2, i3, i4, i5, i6, i7⟩ := hi.insync hs
    obtain ⟨kk, c, cc, e, a, m, hd1, hkk, hc, hm, hm12, ha⟩ := sync_step hd hw.teeth hi.hist i1 hs i3 i2 h1
    have e1 : d1.state = .sync := by rw [hd1]
    have e2 : d1.triggersSinceLastSync.toNat = wheelIdx N s (n + 1) := by rw [hd1]; exact hkk
    have e3 : d1.camThis = d.camThis := by rw [hd1]; rfl
    have e4 : d1.camLast = d.camLast := by rw [hd1]; rfl
    have e5 : d1.valid = d.valid := by rw [hd1]; rfl
    have e6 : d1.lastTriggerTime = stamp (T (n + 1)) := by rw [hd1]
    have e7 : R ≤ d1.currentTriggersRpm.toNat := by rw [hd1]; exact hc
    have e8 : d.valid = true → d1.lastTriggerAngle = .fin (trueAngle N s g (n + 1)) := by
      intro hv
      rw [hd1]
      show a = _
      rw [ha, (hi.valid hv).1, hd.pitch]
      unfold trueAngle
      rw [angle_step hN2 hw.turn hw.grid (Nat.mod_lt _ (by omega)) hm12]
      have hpos : wheelPos N s (n + 1) = wheelPos N s n + m := by
        rcases wheel_step (N := N) (s := s) (n := n) hN2 with ⟨_, _, e⟩ | ⟨_, _, e⟩ <;> omega
      rw [hpos, Nat.mod_add_mod]
    clear hd1
    rcases rev_step (N := N) (s := s) (n := n) hN2 with ⟨r1, r2, r3⟩ | ⟨r1, r2, r3⟩
    · have hz : d1.triggersSinceLastSync = 0 := by
        rw [r1] at e2
        exact BitVec.eq_of_toNat_eq e2
      have hseen : pulseSeen N s k n true ↔ firstRev N s n := by
        unfold pulseSeen
        unfold wheelIdx at r2
        constructor
        · exact fun h => h.1
        · exact fun h => ⟨h, by simp only [and_true]; omega⟩
      have hnone : d1.valid = true → d1.camThis = true ∨ d1.camLast = true := by
        rw [e5, e3, e4]
        intro hv
        by_cases hfr : firstRev N s n
        · exact Or.inl (i4.mpr (hseen.mpr hfr))
        · exact Or.inr ((hi.valid hv).2.1 hfr)
      have hfin : (camFinish d.valid { camRotation d1 with toothRpm := tr, rpm := r } (expireReq d1 b)).d =
          { d1 with camLast := d1.camThis, camThis := false, toothRpm := tr, rpm := r } := by
        rw [camRotation_gap e1 hz hnone]
        refine camFinish_keep (d := { d1 with camLast := d1.camThis, camThis := false, toothRpm := tr, rpm := r }) e1 e5 ?_
        rintro (h | h)
        · cases h
        · exact i7 (Or.inl (by rw [← e3]; exact h))
      rw [hfin] at hcfg ⊢
      refine ⟨⟨hcfg, hist, old, hb1, hb2, fun _ => ⟨by omega, e7, e2, ?_, ?_, fun _ => e6, ?_⟩, fun hne => absurd e1 hne,
        fun hv => ⟨e8 (by rw [← e5]; exact hv), ?_, fun _ => e6⟩⟩, fun hv => by show d1.valid = true; rw [e5]; exact hv⟩
      · show false = true ↔ _
        unfold pulseSeen
        unfold wheelIdx at r1
        rw [r1]
        simp
      · show d1.camThis = true → _
        rw [e3, i4, hseen, r3, not_not]
        exact id
      · show false = true ∨ d1.camThis = true → d1.valid = true
        rw [e3, e5]
        rintro (h | h)
        · cases h
        · exact i7 (Or.inl h)
      · show _ → d1.camThis = true
        rw [e3, i4, hseen, r3, not_not]
        exact id
    · have hz : ¬ (d1.state = .sync ∧ d1.triggersSinceLastSync = 0) := by
        rintro ⟨-, hz⟩
        rw [hz] at e2
        change 0 = _ at e2
        omega
      have hfin : (camFinish d.valid { camRotation d1 with toothRpm := tr, rpm := r } (expireReq d1 b)).d =
          { d1 with toothRpm := tr, rpm := r } := by
        rw [camRotation_other hz]
        refine camFinish_keep (d := { d1 with toothRpm := tr, rpm := r }) e1 e5 ?_
        show d1.camThis = true ∨ d1.camLast = true → _
        rw [e3, e4]; exact i7
      rw [hfin] at hcfg ⊢
      refine ⟨⟨hcfg, hist, old, hb1, hb2, fun _ => ⟨by omega, e7, e2, ?_, ?_, fun _ => e6, ?_⟩, fun hne => absurd e1 hne,
        fun hv => ⟨e8 (by rw [← e5]; exact hv), ?_, fun _ => e6⟩⟩, fun hv => by show d1.valid = true; rw [e5]; exact hv⟩
      · show d1.camThis = true ↔ _
        rw [e3, i4, seen_step r1 r3]
      · show d1.camLast = true → _
        rw [e4, r3]; exact i5
      · show d1.camThis = true ∨ d1.camLast = true → d1.valid = true
        rw [e3, e4, e5]; exact i7
      · show _ → d1.camLast = true
        rw [e4, r3]
        exact (hi.valid (by rw [← e5]; exact hv)).2.1
  · obtain ⟨hthis, hval⟩ := hi.nosync hs
    obtain ⟨e3, e4, e5, e6⟩ := cam_search hw hd hi hs h1
    rw [hval] at hcfg ⊢
    have e5' : d1.valid = false := by rw [e5, hval]
    refine ⟨?_, fun h => by cases h⟩
    by_cases hs1 : d1.state = .sync
    · obtain ⟨g1, g2, g3, g4⟩ := e6 hs1
      have hfin : (camFinish false { camRotation d1 with toothRpm := tr, rpm := r } (expireReq d1 b)).d =
          { d1 with camLast := d1.camThis, camThis := false, toothRpm := tr, rpm := r } := by
        rw [camRotation_gap hs1 g3 (by rw [e5']; intro h; cases h)]
        refine camFinish_keep (d := { d1 with camLast := d1.camThis, camThis := false, toothRpm := tr, rpm := r }) hs1 e5' ?_
        rintro (h | h)
        · cases h
        · change d1.camThis = true at h
          rw [e3, hthis] at h; cases h
      rw [hfin] at hcfg ⊢
      refine ⟨hcfg, hist, old, hb1, hb2, fun _ => ⟨g1, g2, ?_, ?_, ?_, fun h => absurd g4 h, ?_⟩, fun hne => absurd hs1 hne,
        fun hv => ?_⟩
      · show d1.triggersSinceLastSync.toNat = _
        rw [g3, g4]; rfl
      · show false = true ↔ _
        unfold pulseSeen
        unfold wheelIdx at g4
        rw [g4]
        simp
      · show d1.camThis = true → _
        rw [e3, hthis]; intro h; cases h
      · show false = true ∨ d1.camThis = true → _
        rw [e3, hthis]; rintro (h | h) <;> cases h
      · change d1.valid = true at hv
        rw [e5'] at hv; cases hv
    · have hfin : (camFinish false { camRotation d1 with toothRpm := tr, rpm := r } (expireReq d1 b)).d =
          { d1 with toothRpm := tr, rpm := r } := by
        rw [camRotation_other (fun h => hs1 h.1)]
        exact camFinish_off (d := { d1 with toothRpm := tr, rpm := r }) hs1 e5'
      rw [hfin] at hcfg ⊢
      refine ⟨hcfg, hist, old, hb1, hb2, fun h => absurd h hs1, fun _ => ⟨?_, e5'⟩, fun hv => ?_⟩
      · show d1.camThis = false
        rw [e3, hthis]
      · change d1.valid = true at hv
        rw [e5'] at hv; cases hv

/-- A cam pulse. -/
theorem cam_pulse {d0 d : Decoder} {o : DecOut} {N s R k n : ℕ} {v g : ℚ} {T : ℕ → ℤ} {t : Time}
    (hw : WheelSetup d0 N s R v g T) (ht : d0.type = .missingCamsync) (hN24 : N ≤ 2 ^ 24)
    (hi : CamInv d0 d T N s R k g n false) (hp : pulseAfter N s k n) (h : decode d 1 t = .ok o) :
    CamInv d0 o.d T N s R k g n true ∧ (d.state = .sync → o.d.valid = true) ∧ (d.valid = true → o.d.valid = true) := by
  have hd : WheelCfg d N R v g := cfg_wheel hw.cfg hi.cfg
  have hN2 : 2 ≤ N := by have := hd.R2; have := hd.RN; omega
  have hty : d.type = .missingCamsync := by
    have : d.type = d0.type := congrArg DecConfig.type hi.cfg
    rw [this, ht]
  have hcfg := ((decode_facts h).cfg).trans hi.cfg
  obtain ⟨tr, r, rfl⟩ := camsync_pulse hty h
  obtain ⟨hfr, hidx⟩ := hp
  have hseen : pulseSeen N s k n true := ⟨hfr, Or.inr ⟨hidx, rfl⟩⟩
  have hunseen : ¬ pulseSeen N s k n false := by
    rintro ⟨-, h | ⟨-, h⟩⟩
    · omega
    · cases h
  by_cases hs : d.state = .sync
  · obtain ⟨i1, i2, i3, i4, i5, i6, i7⟩ := hi.insync hs
    have hthis : d.camThis = false := by
      rw [← Bool.not_eq_true]; exact fun h => hunseen (i4.mp h)
    have hlast : d.camLast = false := by
      rw [← Bool.not_eq_true]; exact fun h => i5 h hfr
    have hpulse : camPulse d = { d with camThis := true } := by
      unfold camPulse
      rw [if_pos hs, hthis, hlast]
      rfl
    have hpulse' : ({ camPulse d with toothRpm := tr, rpm := r } : Decoder) =
        { d with camThis := true, toothRpm := tr, rpm := r } := by rw [hpulse]
    rw [hpulse'] at hcfg ⊢
    have htime : 1 ≤ k → d.lastTriggerTime = stamp (T n) := fun hk => i6 (by unfold wheelIdx; omega)
    by_cases hv : d.valid = true
    swap
    · rw [Bool.not_eq_true] at hv
      have hfin : (camFinish d.valid { d with camThis := true, toothRpm := tr, rpm := r } none).d = _ :=
        (congrArg (fun w => (camFinish w { d with camThis := true, toothRpm := tr, rpm := r } none).d) hv).trans
        (camFinish_gain (d := { d with camThis := true, toothRpm := tr, rpm := r }) hs rfl)
      rw [hfin] at hcfg ⊢
      refine ⟨⟨hcfg, hi.hist, hi.old, hi.cur, hi.cur36, fun _ => ⟨i1, i2, i3, ⟨fun _ => hseen, fun _ => rfl⟩, ?_, i6,
        fun _ => rfl⟩, fun hne => absurd hs hne, fun _ => ⟨?_, fun h => absurd hfr h, htime⟩⟩, fun _ => rfl, fun _ => rfl⟩
      · exact i5
      · show d.degreesPerTrigger * Fl.ofU32 d.triggersSinceLastSync + _ = _
        rw [hd.pitch]
        exact phase_angle hN2 hw.turn hw.grid i3 hN24 true ⟨fun _ => hfr, fun _ => rfl⟩
    · have hfin : (camFinish d.valid { d with camThis := true, toothRpm := tr, rpm := r } none).d = _ :=
        camFinish_keep (d := { d with camThis := true, toothRpm := tr, rpm := r }) hs rfl (fun _ => hv)
      rw [hfin] at hcfg ⊢
      refine ⟨⟨hcfg, hi.hist, hi.old, hi.cur, hi.cur36, fun _ => ⟨i1, i2, i3, ⟨fun _ => hseen, fun _ => rfl⟩, ?_, i6,
        fun _ => hv⟩, fun hne => absurd hs hne, fun _ => ⟨(hi.valid hv).1, fun h => absurd hfr h, htime⟩⟩,
        fun _ => hv, fun _ => hv⟩
      exact i5
  · have hpulse : camPulse d = d := by
      unfold camPulse
      rw [if_neg hs]
    obtain ⟨hthis, hval⟩ := hi.nosync hs
    have hpulse' : ({ camPulse d with toothRpm := tr, rpm := r } : Decoder) = { d with toothRpm := tr, rpm := r } := by
      rw [hpulse]
    rw [hpulse'] at hcfg ⊢
    have hfin : (camFinish d.valid { d with toothRpm := tr, rpm := r } none).d = _ :=
      (congrArg (fun w => (camFinish w { d with toothRpm := tr, rpm := r } none).d) hval).trans
      (camFinish_off (d := { d with toothRpm := tr, rpm := r }) hs hval)
    rw [hfin] at hcfg ⊢
    refine ⟨⟨hcfg, hi.hist, hi.old, hi.cur, hi.cur36, fun h => absurd h hs, fun _ => ⟨hthis, hval⟩, fun hv => ?_⟩,
      fun h => absurd h hs, fun h => by rw [hval] at h; cases h⟩
    change d.valid = true at hv
    rw [hval] at hv; cases hv

omit [FloatFmt] in
/-- No pulse after this tooth. -/
theorem cam_none {d0 d : Decoder} {N s R k n : ℕ} {g : ℚ} {T : ℕ → ℤ} (hi : CamInv d0 d T N s R k g n false)
    (hp : ¬ pulseAfter N s k n) : CamInv d0 d T N s R k g n true := by
  have : pulseSeen N s k n true ↔ pulseSeen N s k n false := by
    unfold pulseSeen
    constructor
    · rintro ⟨h1, h | ⟨h, -⟩⟩
      · exact ⟨h1, Or.inl h⟩
      · exact absurd ⟨h1, h⟩ hp
    · rintro ⟨h1, h | ⟨h, -⟩⟩
      · exact ⟨h1, Or.inl h⟩
      · exact absurd ⟨h1, h⟩ hp
  refine ⟨hi.cfg, hi.hist, hi.old, hi.cur, hi.cur36, ?_, hi.nosync, hi.valid⟩
  rw [this]
  exact hi.insync

omit [FloatFmt] in
/-- Sync is lost while the cam pulse of this revolution has not come. -/
theorem cam_lose {d0 d : Decoder} {N s R k n : ℕ} {g : ℚ} {T : ℕ → ℤ} {u : Bool} {l : Option DecLoss}
    (hi : CamInv d0 d T N s R k g n u) (hp : l ≠ none → ¬ pulseSeen N s k n u) :
    CamInv d0 (loseIf d l) T N s R k g n u := by
  cases l with
  | none => exact hi
  | some r =>
      have hthis : d.camThis = false := by
        by_cases hs : d.state = .sync
        · rw [← Bool.not_eq_true]
          exact fun h => hp (by simp) ((hi.insync hs).2.2.2.1.mp h)
        · exact (hi.nosync hs).1
      exact ⟨hi.cfg, hi.hist, hi.old, Nat.zero_le _, Nat.zero_le _, fun h => (by cases h), fun _ => ⟨hthis, rfl⟩,
        fun h => (by cases h)⟩

/-- Sync is lost only while the cam pulse of the current revolution has not come. -/
def LossesEarly (N s k : ℕ) (B A : ℕ → Option DecLoss) : Prop :=
  ∀ n, (B n ≠ none → ¬ pulseSeen N s k n false) ∧ (A n ≠ none → ¬ pulseSeen N s k n true)

/-- The first tooth. -/
theorem cam_first {d0 : Decoder} {o : DecOut} {N s R k : ℕ} {v g : ℚ} {T : ℕ → ℤ}
    (hw : WheelSetup d0 N s R v g T) (ht : d0.type = .missingCamsync) (hc : d0.camThis = false)
    (h : decode (decoderInit d0) 0 (stamp (T 0)) = .ok o) : CamInv d0 o.d T N s R k g 0 false := by
  have hcfg := (decode_facts h).cfg
  obtain ⟨d1, b, tr, r, h1, rfl⟩ := camsync_tooth (d := decoderInit d0) ht h
  have hff := fun d (hd : d.times = d1.times) hc => fed_first (d := d) h1 (by
    have := hw.cfg.R2; rw [← hw.cfg.required] at this; exact this) hd hc
  have hd1 := (hff _ rfl rfl).2
  have hs1 : d1.state ≠ .sync := by rw [hd1]; show ¬ (DecState.nosync = .sync); decide
  have hv1 : d1.valid = false := by rw [hd1]; rfl
  have hfin : (camFinish (decoderInit d0).valid { camRotation d1 with toothRpm := tr, rpm := r } (expireReq d1 b)).d =
      { d1 with toothRpm := tr, rpm := r } := by
    rw [camRotation_other (fun h => hs1 h.1)]
    exact camFinish_off (d := { d1 with toothRpm := tr, rpm := r }) hs1 hv1
  rw [hfin] at hcfg ⊢
  have hf := (hff { d1 with toothRpm := tr, rpm := r } rfl rfl).1
  have hcur : d1.currentTriggersRpm.toNat = 1 := hf.cur
  refine ⟨hcfg, hf.hist, hf.old, ?_, ?_, fun h => absurd h hs1, fun _ => ⟨?_, hv1⟩, fun hv => ?_⟩
  · show d1.currentTriggersRpm.toNat ≤ _; omega
  · show d1.currentTriggersRpm.toNat ≤ _; omega
  · show d1.camThis = false
    rw [hd1]; exact hc
  · change d1.valid = true at hv
    rw [hv1] at hv; cases hv

/-- The invariant. -/
theorem cam_key {d0 d : Decoder} {N s R k : ℕ} {v g : ℚ} {T : ℕ → ℤ} {P : ℕ → Time} {B A : ℕ → Option DecLoss} {n : ℕ}
    (hw : WheelSetup d0 N s R v g T) (ht : d0.type = .missingCamsync) (hc : d0.camThis = false) (hk : k < N - 1)
    (hN24 : N ≤ 2 ^ 24) (hl : LossesEarly N s k B A) (h : camRun d0 T P N s k B A (n + 1) = .ok d) :
    CamInv d0 d T N s R k g n true := by
  have hrest : ∀ {n : ℕ} {d d1 : Decoder}, CamInv d0 d1 T N s R k g n false →
      (if pulseAfter N s k n then decode (loseIf d1 (B n)) 1 (P n) >>= fun o => .ok (loseIf o.d (A n))
        else .ok (loseIf (loseIf d1 (B n)) (A n))) = .ok d → CamInv d0 d T N s R k g n true := by
    intro n d d1 hi h
    have hi' := cam_lose hi (hl n).1
    split_ifs at h with hp
    · rw [bind_eq_ok] at h
      obtain ⟨o, ho, h⟩ := h
      cases h
      exact cam_lose (cam_pulse hw ht hN24 hi' hp ho).1 (hl n).2
    · cases h
      exact cam_lose (cam_none hi' hp) (hl n).2
  induction n generalizing d with
  | zero =>
      unfold camRun at h
      rw [show camRun d0 T P N s k B A 0 = .ok (decoderInit d0) from rfl, except_bind_ok, bind_eq_ok] at h
      obtain ⟨o, ho, h⟩ := h
      exact hrest (cam_first hw ht hc ho) h
  | succ n ih =>
      rw [camRun, bind_eq_ok] at h
      obtain ⟨d', h', h⟩ := h
      rw [bind_eq_ok] at h
      obtain ⟨o, ho, h⟩ := h
      exact hrest (cam_tooth hw ht hk (ih h') ho).1 h

/-- C42 (partial): a missing-tooth crank wheel and a cam pulse in the first revolution of each engine cycle, any number of
teeth, any timing within tolerance, any cam pulse times.  Sync may be lost and regained any number of times, but only
while the cam pulse of the current revolution has not come.  Whenever the decoder reports valid, the reported angle is
the angle of the engine in its two-revolution cycle, and the decoder is synchronised. -/
theorem C42_phase_partial {d0 d : Decoder} {N s R k : ℕ} {v g : ℚ} {T : ℕ → ℤ} {P : ℕ → Time}
    {B A : ℕ → Option DecLoss} {n : ℕ} (hw : WheelSetup d0 N s R v g T) (ht : d0.type = .missingCamsync)
    (hc : d0.camThis = false) (hk : k < N - 1) (hN24 : N ≤ 2 ^ 24) (hl : LossesEarly N s k B A)
    (h : camRun d0 T P N s k B A (n + 1) = .ok d) (hv : d.valid = true) :
    d.state = .sync ∧ d.lastTriggerAngle = .fin (g * ((wheelPos N s n % (2 * N) : ℕ) : ℚ)) ∧
      (1 ≤ k → d.lastTriggerTime = stamp (T n)) := by
  have hi := cam_key hw ht hc hk hN24 hl h
  refine ⟨?_, (hi.valid hv).1, (hi.valid hv).2.2⟩
  by_contra hs
  rw [(hi.nosync hs).2] at hv
  cases hv

/-- C42, continued: sync is kept, unless the decoder is told to drop it. -/
theorem C42_kept {d0 d d' : Decoder} {N s R k : ℕ} {v g : ℚ} {T : ℕ → ℤ} {P : ℕ → Time}
    {B A : ℕ → Option DecLoss} {n : ℕ} (hw : WheelSetup d0 N s R v g T) (ht : d0.type = .missingCamsync)
    (hc : d0.camThis = false) (hk : k < N - 1) (hN24 : N ≤ 2 ^ 24) (hl : LossesEarly N s k B A)
    (h : camRun d0 T P N s k B A (n + 1) = .ok d) (hv : d.valid = true)
    (h' : camRun d0 T P N s k B A (n + 2) = .ok d') (hB : B (n + 1) = none) (hA : A (n + 1) = none) :
    d'.valid = true := by
  have hi := cam_key hw ht hc hk hN24 hl h
  rw [camRun, h, except_bind_ok, bind_eq_ok] at h'
  obtain ⟨o, ho, h'⟩ := h'
  obtain ⟨hi1, hv1⟩ := cam_tooth hw ht hk hi ho
  rw [hB, hA] at h'
  split_ifs at h' with hp
  · rw [bind_eq_ok] at h'
    obtain ⟨o', ho', h'⟩ := h'
    cases h'
    exact (cam_pulse hw ht hN24 hi1 hp ho').2.2 (hv1 hv)
  · cases h'
    exact hv1 hv

/-- C42, continued: a cam pulse while synchronised with the crank makes the decoder valid. -/
theorem C42_gained {d0 d : Decoder} {N s R k : ℕ} {v g : ℚ} {T : ℕ → ℤ} {P : ℕ → Time}
    {B A : ℕ → Option DecLoss} {n : ℕ} (hw : WheelSetup d0 N s R v g T) (ht : d0.type = .missingCamsync)
    (hc : d0.camThis = false) (hk : k < N - 1) (hN24 : N ≤ 2 ^ 24) (hl : LossesEarly N s k B A)
    (h : camRun d0 T P N s k B A (n + 1) = .ok d) (hp : pulseAfter N s k n) (hs : d.state = .sync) :
    d.valid = true := by
  have hi := cam_key hw ht hc hk hN24 hl h
  obtain ⟨-, -, -, h4, -, -, h7⟩ := hi.insync hs
  exact h7 (Or.inl (h4.mpr ⟨hp.1, Or.inr ⟨hp.2, rfl⟩⟩))

theorem demo_cam_setup : WheelSetup (demoDecoder .missingCamsync) 4 0 2 (3/8) 90
    (fun n => 40000 * wheelPos 4 0 n + 40000) :=
  have h := demo_setup
  ⟨⟨h.cfg.count, h.cfg.required, h.cfg.tolerance, h.cfg.pitch, h.cfg.v0, h.cfg.v1, h.cfg.R2, h.cfg.R36, h.cfg.RN⟩,
    h.turn, h.grid, h.teeth, h.boot⟩

/-- C42 in full: sync lost at any time. -/
def C42_full : Prop :=
  ∀ (d0 d : Decoder) (N s R k : ℕ) (v g : ℚ) (T : ℕ → ℤ) (P : ℕ → Time) (B A : ℕ → Option DecLoss) (n : ℕ),
    WheelSetup d0 N s R v g T → d0.type = .missingCamsync → d0.camThis = false → d0.camLast = false → k < N - 1 →
    N ≤ 2 ^ 24 → camRun d0 T P N s k B A (n + 1) = .ok d → d.valid = true →
    d.lastTriggerAngle = .fin (g * ((wheelPos N s n % (2 * N) : ℕ) : ℚ))

omit [FloatFmt] in
/-- The decoder remembers a cam pulse across a loss of sync: the wheel turns at constant speed, sync is lost once, by
expiry, after the cam pulse, is regained at the next first revolution, and the decoder at once reports the second revolution:
the angle is wrong by one full turn. -/
theorem C42_full_false : ¬ @C42_full binary32 := by
  let _ := binary32
  intro h
  obtain ⟨d, h1, h2⟩ := okAnd_ok (x := camRun (demoDecoder .missingCamsync) (fun n => 40000 * wheelPos 4 0 n + 40000)
      (fun n => stamp (40000 * wheelPos 4 0 n + 50000)) 4 0 1 (fun _ => none)
      (fun n => if n = 8 then some .expired else none) 13)
    (p := fun d => d.valid && decide (d.lastTriggerAngle = .fin 360)) (by decide +kernel)
  rw [Bool.and_eq_true] at h2
  have h3 := h (demoDecoder .missingCamsync) d 4 0 2 1 (3/8) 90 _ _ _ _ 12 demo_cam_setup rfl rfl rfl (by norm_num)
    (by norm_num) h1 h2.1
  rw [of_decide_eq_true h2.2] at h3
  revert h3
  decide +kernel

/-- The hypotheses of C42 are met, with a loss of sync: the decoder is valid again and right. -/
example : ∃ d, @camRun binary32 (demoDecoder .missingCamsync) (fun n => 40000 * wheelPos 4 0 n + 40000)
      (fun n => stamp (40000 * wheelPos 4 0 n + 50000)) 4 0 1 (fun _ => none)
      (fun n => if n = 11 then some .expired else none) 22 = .ok d ∧
    LossesEarly 4 0 1 (fun _ => none) (fun n => if n = 11 then some .expired else none) ∧
    d.valid = true ∧ d.lastTriggerAngle = .fin (90 * 4) := by
  let _ := binary32
  have hl : LossesEarly 4 0 1 (fun _ => none) (fun n => if n = 11 then some .expired else none) := by
    intro n
    refine ⟨fun h => absurd rfl h, fun h => ?_⟩
    by_cases hn : n = 11
    · subst hn
      rintro ⟨h, -⟩
      revert h; unfold firstRev; decide
    · exact absurd (if_neg hn) h
  obtain ⟨d, h1, h2⟩ := okAnd_ok (x := camRun (demoDecoder .missingCamsync) (fun n => 40000 * wheelPos 4 0 n + 40000)
      (fun n => stamp (40000 * wheelPos 4 0 n + 50000)) 4 0 1 (fun _ => none)
      (fun n => if n = 11 then some .expired else none) 22)
    (p := fun d => d.valid) (by decide +kernel)
  obtain ⟨-, ha, -⟩ := C42_phase_partial demo_cam_setup rfl rfl (by norm_num) (by norm_num) hl h1 h2
  refine ⟨d, h1, hl, h2, ?_⟩
  rw [ha]
  norm_num [wheelPos]

end Verif
