/-
C40: a missing-tooth wheel is tracked exactly.
-/
import Verif.Proofs.Wheel
import Verif.Props.Decoder

namespace Verif

variable [FloatFmt]
open FloatFmt

theorem nosync_decode {d : Decoder} {t : Time} {o : DecOut} (ht : d.type = .missingNosync)
    (h : decode d 0 t = .ok o) :
    ∃ d1 b tr r, missingTriggerUpdate d t = .ok (d1, b) ∧
      o = decodeFinish d.state { d1 with toothRpm := tr, rpm := r } (expireReq d1 b) := by
  unfold decode at h
  simp only [ht] at h
  unfold decodeMissingNosync at h
  simp only [if_true] at h
  rw [bind_eq_ok] at h; obtain ⟨⟨d1, b⟩, h1, h⟩ := h
  rw [bind_eq_ok] at h; obtain ⟨d2, h2, h⟩ := h
  obtain ⟨tr, r, hd2⟩ := missingRpms_frame h2
  simp only [except_pure, Except.ok.injEq] at h
  exact ⟨d1, b, tr, r, h1, by rw [← h, hd2]⟩

omit [FloatFmt] in
theorem cfg_wheel {d d' : Decoder} {N R : ℕ} {v g : ℚ} (hw : WheelCfg d N R v g) (h : d'.cfg = d.cfg) :
    WheelCfg d' N R v g := by
  have e1 : d'.numTriggers = d.numTriggers := congrArg DecConfig.numTriggers h
  have e2 : d'.requiredTriggersRpm = d.requiredTriggersRpm := congrArg DecConfig.requiredTriggersRpm h
  have e3 : d'.maxRpmChange = d.maxRpmChange := congrArg DecConfig.maxRpmChange h
  have e4 : d'.degreesPerTrigger = d.degreesPerTrigger := congrArg DecConfig.degreesPerTrigger h
  exact ⟨by rw [e1]; exact hw.count, by rw [e2]; exact hw.required, by rw [e3]; exact hw.tolerance,
    by rw [e4]; exact hw.pitch, hw.v0, hw.v1, hw.R2, hw.R36, hw.RN⟩

/-- The tooth history of a decoder that has received teeth `0` to `n`, with the old entries behind them. -/
structure Fed (d0 d : Decoder) (T : ℕ → ℤ) (n : ℕ) : Prop where
  hist : HistOk d T n n
  old : ∀ i (h : i < 37), n < i → d.times ⟨i, h⟩ = d0.times ⟨i - n - 1, lt_of_le_of_lt (by omega : i - n - 1 ≤ i) h⟩
  cur : d.currentTriggersRpm.toNat = min (n + 1) 36

omit [FloatFmt] in
theorem fed_push {d0 d d' : Decoder} {T : ℕ → ℤ} {n : ℕ} (h : Fed d0 d T n)
    (ht : d'.times = (pushTime d (stamp (T (n + 1)))).times)
    (hc : d'.currentTriggersRpm = (missingBump d (stamp (T (n + 1)))).currentTriggersRpm) : Fed d0 d' T (n + 1) := by
  refine ⟨?_, ?_, ?_⟩
  · intro i hi hn
    rw [ht]
    exact histOk_push h.hist i hi hn
  · intro i hi hn
    rw [ht]
    unfold pushTime
    simp only
    rw [dif_neg (by omega), h.old (i - 1) (by omega) (by omega)]
    congr 2
    omega
  · rw [hc]
    have := h.cur
    unfold missingBump
    simp only
    by_cases hlt : d.currentTriggersRpm.toNat < maxTriggers
    · rw [if_pos hlt]
      have hlt' : d.currentTriggersRpm.toNat < 36 := hlt
      have : (d.currentTriggersRpm + 1).toNat = d.currentTriggersRpm.toNat + 1 := by bv_omega
      omega
    · rw [if_neg hlt]
      have hlt' : ¬ d.currentTriggersRpm.toNat < 36 := hlt
      omega

theorem fed_first {d0 d : Decoder} {T : ℕ → ℤ} {b : Bool} {d1 : Decoder}
    (h : missingTriggerUpdate (decoderInit d0) (stamp (T 0)) = .ok (d1, b)) (hr : 2 ≤ d0.requiredTriggersRpm.toNat)
    (hd : d.times = d1.times) (hc : d.currentTriggersRpm = d1.currentTriggersRpm) :
    Fed d0 d T 0 ∧ d1 = missingBump (decoderInit d0) (stamp (T 0)) := by
  have hcur : (missingBump (decoderInit d0) (stamp (T 0))).currentTriggersRpm = 1 := by
    unfold missingBump
    have : (decoderInit d0).currentTriggersRpm = 0 := rfl
    simp only [this]
    rfl
  rw [mtu_wait (by rw [hcur]; show 1 < d0.requiredTriggersRpm.toNat; omega)] at h
  simp only [Except.ok.injEq, Prod.mk.injEq] at h
  refine ⟨⟨?_, ?_, ?_⟩, h.1.symm⟩
  · intro i hi hn
    rw [hd, ← h.1]
    have : i = 0 := by omega
    subst this
    rfl
  · intro i hi hn
    rw [hd, ← h.1]
    show (pushTime (decoderInit d0) (stamp (T 0))).times _ = _
    unfold pushTime
    simp only
    rw [dif_neg (by omega)]
    rfl
  · rw [hc, ← h.1, hcur]; rfl

/-- Hypotheses on the wheel: the decoder is set up for it, its pitch divides the turn, and multiples of
the pitch up to two turns are exact in the float format. -/
structure WheelSetup (d0 : Decoder) (N s R : ℕ) (v g : ℚ) (T : ℕ → ℤ) : Prop where
  cfg : WheelCfg (decoderInit d0) N R v g
  turn : g * N = 360
  grid : ∀ k : ℕ, k ≤ 2 * N + 1 → rnd (g * k) = .fin (g * k)
  teeth : SteadyTeeth N s R v T
  /-- the first tooth that is measured, against a history entry from before the first tooth, does not look
  like a gap -/
  boot : 16 * (T (R - 1) - T (R - 2)) ≤ 23 * (((stamp (T (R - 2)) - d0.times 0).toNat / (R - 1) : ℕ) : ℤ)

/-- The first tooth after a gap once the history is full. -/
structure FirstGap (N s R n0 : ℕ) : Prop where
  full : R ≤ n0
  gap : afterGap N s n0
  first : ∀ m, R ≤ m → m < n0 → ¬ afterGap N s m

/-- The first tooth that is measured, number `R - 1`: its history reaches one entry before the first tooth. -/
theorem boot_tooth {d0 d d1 : Decoder} {N s R : ℕ} {v g : ℚ} {T : ℕ → ℤ} {n : ℕ} {b : Bool}
    (hw : WheelSetup d0 N s R v g T) (hd : WheelCfg d N R v g) (hh : HistOk d T n n)
    (hold : ∀ i (h : i < 37), n < i → d.times ⟨i, h⟩ = d0.times ⟨i - n - 1, lt_of_le_of_lt (by omega : i - n - 1 ≤ i) h⟩)
    (hs : d.state ≠ .sync) (hnR : n + 2 = R)
    (hreq : d.requiredTriggersRpm.toNat ≤ (missingBump d (stamp (T (n + 1)))).currentTriggersRpm.toNat)
    (h : missingTriggerUpdate d (stamp (T (n + 1))) = .ok (d1, b)) :
    ∃ s cc l, d1 = { missingBump d (stamp (T (n + 1))) with state := s, curRpmChange := cc, loss := l } ∧ s ≠ .sync := by
  have hR2 := hd.R2
  have hR36 := hd.R36
  have hhp : HistOk { missingBump d (stamp (T (n + 1))) with state := .rpm } T (n + 1) (n + 1) := histOk_push hh
  have hstep1 := hw.teeth.later n
  have hstep2 := hw.teeth.close n
  have h0 : timeAt { missingBump d (stamp (T (n + 1))) with state := .rpm } 0 = .ok (stamp (T (n + 1))) :=
    timeAt_hist hhp (i := 0) (Nat.zero_le _) (by decide)
  have h1 : timeAt { missingBump d (stamp (T (n + 1))) with state := .rpm } 1 = .ok (stamp (T n)) :=
    timeAt_hist hhp (i := 1) (by show 1 ≤ n + 1; omega) (by decide)
  have h2 : timeAt { missingBump d (stamp (T (n + 1))) with state := .rpm } d.requiredTriggersRpm =
      .ok (d0.times 0) := by
    unfold timeAt
    rw [rd_ok _ d.requiredTriggersRpm.toNat (by rw [hd.required]; show R < 37; omega)]
    congr 1
    show (pushTime d (stamp (T (n + 1)))).times _ = _
    unfold pushTime
    simp only
    rw [dif_neg (by rw [hd.required]; omega), hold _ _ (by rw [hd.required]; omega)]
    congr 1
    apply Fin.ext
    show d.requiredTriggersRpm.toNat - 1 - n - 1 = 0
    rw [hd.required]; omega
  have hc1 : (d.requiredTriggersRpm - 1).toNat = R - 1 := by
    have := hd.required
    generalize d.requiredTriggersRpm = r at *
    bv_omega
  have hratio : missingRatio { missingBump d (stamp (T (n + 1))) with state := .rpm } =
      .ok (Fl.ofU32 (stamp (T (n + 1)) - stamp (T n)) /
        Fl.ofU32 ((stamp (T n) - d0.times 0).udiv (d.requiredTriggersRpm - 1))) := by
    unfold missingRatio
    rw [h0, except_bind_ok, h1, except_bind_ok]
    have hrq : ({ missingBump d (stamp (T (n + 1))) with state := .rpm } : Decoder).requiredTriggersRpm =
      d.requiredTriggersRpm := rfl
    rw [hrq, h2, except_bind_ok]
    simp only [reduceCtorEq, false_and, if_false]
    rw [if_neg]
    · rfl
    · intro hz; rw [hz] at hc1; change 0 = R - 1 at hc1; omega
  have hboot := hw.boot
  have hgap : ((stamp (T (n + 1)) - stamp (T n)).toNat : ℤ) = T (n + 1) - T n := by
    rw [stamp_sub]; exact stamp_toNat (by omega) (by omega)
  have havg : ((stamp (T n) - d0.times 0).udiv (d.requiredTriggersRpm - 1)).toNat =
      (stamp (T n) - d0.times 0).toNat / (R - 1) := by
    rw [← hc1]
    generalize stamp (T n) - d0.times 0 = w
    have : w.udiv (d.requiredTriggersRpm - 1) = w / (d.requiredTriggersRpm - 1) := rfl
    rw [this, BitVec.toNat_udiv]
  have e1 : R - 1 = n + 1 := by omega
  have e2 : R - 2 = n := by omega
  rw [e1, e2] at hboot
  rw [e1] at havg
  have h16 : 16 * (stamp (T (n + 1)) - stamp (T n)).toNat ≤
      23 * ((stamp (T n) - d0.times 0).udiv (d.requiredTriggersRpm - 1)).toNat := by
    rw [havg]
    generalize (stamp (T n) - d0.times 0).toNat / (n + 1) = q at *
    omega
  refine rpm_stays hreq hs hratio ?_ h
  rw [hd.tolerance]
  exact not_missing hd.v1 (by omega) (by omega) h16

/-- The step before sync is gained. -/
theorem before_step {d0 d d1 : Decoder} {N s R : ℕ} {v g : ℚ} {T : ℕ → ℤ} {n n0 : ℕ} {b : Bool}
    (hw : WheelSetup d0 N s R v g T) (hg : FirstGap N s R n0) (hd : WheelCfg d N R v g) (hf : Fed d0 d T n)
    (hs : d.state ≠ .sync) (_hn : n < n0) (h : missingTriggerUpdate d (stamp (T (n + 1))) = .ok (d1, b)) :
    (n + 1 < n0 → ∃ s cc l,
      d1 = { missingBump d (stamp (T (n + 1))) with state := s, curRpmChange := cc, loss := l } ∧ s ≠ .sync) ∧
    (n + 1 = n0 → ∃ cc, d1 = { missingBump d (stamp (T (n + 1))) with
      state := .sync, curRpmChange := cc, triggersSinceLastSync := 0, lastTriggerAngle := .fin 0 }) := by
  have hR2 := hd.R2
  have hR36 := hd.R36
  have hcur := (fed_push (d' := missingBump d (stamp (T (n + 1)))) hf rfl rfl).cur
  rcases Nat.lt_or_ge (n + 2) R with hlt | hge
  · rw [mtu_wait (by rw [hd.required, hcur]; omega)] at h
    simp only [Except.ok.injEq, Prod.mk.injEq] at h
    refine ⟨fun _ => ⟨d.state, d.curRpmChange, d.loss, h.1.symm, hs⟩, fun he => ?_⟩
    have := hg.full
    omega
  have hreq : d.requiredTriggersRpm.toNat ≤ (missingBump d (stamp (T (n + 1)))).currentTriggersRpm.toNat := by
    rw [hd.required, hcur]; omega
  rcases Nat.lt_or_ge (n + 1) R with hlt | hge2
  · exact ⟨fun _ => boot_tooth hw hd hf.hist hf.old hs (by omega) hreq h, fun he => absurd hg.full (by omega)⟩
  · obtain ⟨ha, hb⟩ := acquire_step hd hw.teeth hf.hist hge2 hs (by rw [hcur]; omega) h
    exact ⟨fun hlt => hb (hg.first (n + 1) hge2 hlt), fun he => ha (by rw [he]; exact hg.gap)⟩

/-- What tracking means after tooth `n`. -/
structure Tracked (d : Decoder) (N s R : ℕ) (g : ℚ) (n0 n : ℕ) : Prop where
  sync : d.state = .sync
  idx : d.triggersSinceLastSync.toNat = wheelIdx N s n
  angle : d.lastTriggerAngle = .fin (g * (((wheelPos N s n - wheelPos N s n0) % (2 * N) : ℕ) : ℚ))

omit [FloatFmt] in
theorem wheelPos_mono {N s n m : ℕ} (hN : 2 ≤ N) (h : n ≤ m) : wheelPos N s n ≤ wheelPos N s m := by
  induction m, h using Nat.le_induction with
  | base => exact le_refl _
  | succ m _ ih =>
      rcases wheel_step (N := N) (s := s) (n := m) hN with ⟨_, _, e⟩ | ⟨_, _, e⟩ <;> omega

/-- Moving on by one or two pitches on the float grid. -/
theorem angle_step {N k m : ℕ} {g : ℚ} (hN : 2 ≤ N) (turn : g * N = 360)
    (grid : ∀ k : ℕ, k ≤ 2 * N + 1 → rnd (g * k) = .fin (g * k)) (hk : k < 2 * N) (hm : m = 1 ∨ m = 2) :
    (if Fl.le (Fl.fin 720) (Fl.fin (g * k) + Fl.fin g * Fl.fin (m : ℚ)) then
        (Fl.fin (g * k) + Fl.fin g * Fl.fin (m : ℚ)) - Fl.fin 720
      else Fl.fin (g * k) + Fl.fin g * Fl.fin (m : ℚ)) = Fl.fin (g * (((k + m) % (2 * N) : ℕ) : ℚ)) := by
  have hNq : (0 : ℚ) < N := by
    have : 0 < N := by omega
    exact_mod_cast this
  have hg0 : 0 < g := by
    by_contra hc
    have : g * N ≤ 0 := mul_nonpos_of_nonpos_of_nonneg (not_lt.mp hc) hNq.le
    linarith
  have h1 : Fl.fin g * Fl.fin (m : ℚ) = Fl.fin (g * m) := by
    rw [Fl.fin_mul]; exact grid m (by omega)
  have h2 : Fl.fin (g * k) + Fl.fin (g * m) = Fl.fin (g * ((k + m : ℕ) : ℚ)) := by
    rw [Fl.fin_add, ← grid (k + m) (by omega)]
    congr 1
    push_cast; ring
  rw [h1, h2]
  rcases Nat.lt_or_ge (k + m) (2 * N) with hlt | hge
  · have : ¬ ((720 : ℚ) ≤ g * ((k + m : ℕ) : ℚ)) := by
      have : ((k + m : ℕ) : ℚ) < 2 * N := by exact_mod_cast hlt
      nlinarith
    rw [if_neg (by simpa using this), Nat.mod_eq_of_lt hlt]
  · have : (720 : ℚ) ≤ g * ((k + m : ℕ) : ℚ) := by
      have : (2 * N : ℚ) ≤ ((k + m : ℕ) : ℚ) := by exact_mod_cast hge
      nlinarith
    rw [if_pos (by simpa using this), Fl.fin_sub]
    have hmod : (k + m) % (2 * N) = k + m - 2 * N := by
      rw [Nat.mod_eq_sub_mod hge, Nat.mod_eq_of_lt (by omega)]
    rw [hmod, ← grid (k + m - 2 * N) (by omega)]
    congr 1
    have : ((k + m - 2 * N : ℕ) : ℚ) = ((k + m : ℕ) : ℚ) - 2 * N := by
      rw [Nat.cast_sub hge]; push_cast; ring
    rw [this]
    linear_combination (2 : ℚ) * turn

/-- The step in sync. -/
theorem after_step {d0 d d1 : Decoder} {N s R : ℕ} {v g : ℚ} {T : ℕ → ℤ} {n n0 : ℕ} {b : Bool}
    (hw : WheelSetup d0 N s R v g T) (hd : WheelCfg d N R v g) (hf : Fed d0 d T n) (hn : R ≤ n) (hn0 : n0 ≤ n)
    (ht : Tracked d N s R g n0 n) (h : missingTriggerUpdate d (stamp (T (n + 1))) = .ok (d1, b)) :
    Tracked d1 N s R g n0 (n + 1) ∧ d1.lastTriggerTime = stamp (T (n + 1)) ∧ d1.cfg = d.cfg ∧
      d1.camThis = d.camThis ∧ d1.camLast = d.camLast ∧ d1.valid = d.valid := by
  have hN2 : 2 ≤ N := by have := hd.R2; have := hd.RN; omega
  obtain ⟨k, c, cc, e, a, m, hd1, hk, -, hm, hm12, ha⟩ := sync_step hd hw.teeth hf.hist hn ht.sync ht.idx
    (by rw [hf.cur]; have := hd.R36; omega) h
  rw [hd1]
  refine ⟨⟨rfl, hk, ?_⟩, rfl, rfl, rfl, rfl, rfl⟩
  show a = _
  rw [ha, ht.angle, hd.pitch]
  have hmono := wheelPos_mono (s := s) hN2 hn0
  rw [angle_step hN2 hw.turn hw.grid (Nat.mod_lt _ (by omega)) hm12]
  have hpos : wheelPos N s (n + 1) = wheelPos N s n + m := by
    rcases wheel_step (N := N) (s := s) (n := n) hN2 with ⟨_, _, e⟩ | ⟨_, _, e⟩ <;> omega
  have : wheelPos N s (n + 1) - wheelPos N s n0 = wheelPos N s n - wheelPos N s n0 + m := by omega
  rw [this, Nat.mod_add_mod]

/-- The invariant of C40. -/
theorem wheel_key {d0 d : Decoder} {N s R : ℕ} {v g : ℚ} {T : ℕ → ℤ} {n n0 : ℕ}
    (hw : WheelSetup d0 N s R v g T) (ht : d0.type = .missingNosync) (hg : FirstGap N s R n0)
    (h : feedTeeth d0 T (n + 1) = .ok d) :
    d.cfg = (decoderInit d0).cfg ∧ Fed d0 d T n ∧ (n < n0 → d.valid = false ∧ d.state ≠ .sync) ∧
      (n0 ≤ n → d.valid = true ∧ Tracked d N s R g n0 n ∧ (n0 < n → d.lastTriggerTime = stamp (T n))) := by
  have hN2 : 2 ≤ N := by have := hw.cfg.R2; have := hw.cfg.RN; omega
  induction n generalizing d with
  | zero =>
      unfold feedTeeth at h
      rw [show feedTeeth d0 T 0 = .ok (decoderInit d0) from rfl, except_bind_ok, bind_eq_ok] at h
      obtain ⟨o, ho, hod⟩ := h
      cases hod
      obtain ⟨d1, b, tr, r, h1, rfl⟩ := nosync_decode (d := decoderInit d0) ht ho
      have hcfg := (decode_facts ho).cfg
      have hff := fun d (hd : d.times = d1.times) hc => fed_first (d := d) h1 (by
        have := hw.cfg.R2; rw [← hw.cfg.required] at this; exact this) hd hc
      have hd1 := (hff _ rfl rfl).2
      have hfin : (decodeFinish (decoderInit d0).state { d1 with toothRpm := tr, rpm := r } (expireReq d1 b)).d =
          { d1 with toothRpm := tr, rpm := r } := by
        unfold decodeFinish
        rw [if_neg (by rw [hd1]; show ¬ (DecState.nosync = .sync); decide),
          if_neg (show ¬ ((decoderInit d0).state = .sync) from show ¬ (DecState.nosync = .sync) by decide)]
      rw [hfin] at hcfg ⊢
      refine ⟨hcfg, (hff { d1 with toothRpm := tr, rpm := r } rfl rfl).1, fun _ => ?_, fun h0 => ?_⟩
      · rw [hd1]; exact ⟨rfl, show ¬ (DecState.nosync = .sync) by decide⟩
      · have := hg.full; have := hw.cfg.R2; omega
  | succ n ih =>
      rw [feedTeeth, bind_eq_ok] at h
      obtain ⟨d', h', h⟩ := h
      rw [bind_eq_ok] at h
      obtain ⟨o, ho, hod⟩ := h
      cases hod
      obtain ⟨hcfg', hfed, hbefore, hafter⟩ := ih h'
      have hty : d'.type = .missingNosync := by
        have : d'.type = d0.type := congrArg DecConfig.type hcfg'
        rw [this, ht]
      have hcfg := (decode_facts ho).cfg
      obtain ⟨d1, b, tr, r, h1, rfl⟩ := nosync_decode hty ho
      have hdw : WheelCfg d' N R v g := cfg_wheel hw.cfg hcfg'
      rcases Nat.lt_or_ge n n0 with hlt | hge
      · obtain ⟨hv, hs⟩ := hbefore hlt
        obtain ⟨hb1, hb2⟩ := before_step hw hg hdw hfed hs hlt h1
        rcases Nat.lt_or_ge (n + 1) n0 with hlt2 | hge2
        · obtain ⟨s', cc, l, hd1, hs'⟩ := hb1 hlt2
          have hfin : (decodeFinish d'.state { d1 with toothRpm := tr, rpm := r } (expireReq d1 b)).d =
              { d1 with toothRpm := tr, rpm := r } := by
            unfold decodeFinish
            rw [if_neg (by rw [hd1]; exact hs'), if_neg hs]
          rw [hfin] at hcfg ⊢
          refine ⟨hcfg.trans hcfg', fed_push hfed (by rw [hd1]; rfl) (by rw [hd1]), fun _ => ?_, fun h0 => by omega⟩
          rw [hd1]; exact ⟨hv, hs'⟩
        · have heq : n + 1 = n0 := by omega
          obtain ⟨cc, hd1⟩ := hb2 heq
          have hfin : (decodeFinish d'.state { d1 with toothRpm := tr, rpm := r } (expireReq d1 b)).d =
              { d1 with toothRpm := tr, rpm := r, valid := true, loss := .noLoss } := by
            unfold decodeFinish
            rw [if_pos (by rw [hd1])]
          rw [hfin] at hcfg ⊢
          refine ⟨hcfg.trans hcfg', fed_push hfed (by rw [hd1]; rfl) (by rw [hd1]), fun h0 => by omega,
            fun _ => ⟨rfl, ⟨by rw [hd1], ?_, ?_⟩, fun h0 => by omega⟩⟩
          · rw [hd1, heq]
            have : wheelIdx N s n0 = 0 := hg.gap
            rw [this]; rfl
          · rw [hd1, heq, Nat.sub_self, Nat.zero_mod]
            simp
      · obtain ⟨hv, htr, hlt⟩ := hafter hge
        obtain ⟨htr', htime, -⟩ := after_step hw hdw hfed (le_trans hg.full hge) hge htr h1
        have hpush : d1.times = (pushTime d' (stamp (T (n + 1)))).times ∧
            d1.currentTriggersRpm = (missingBump d' (stamp (T (n + 1)))).currentTriggersRpm := by
          have hreq : d'.requiredTriggersRpm.toNat ≤
              (missingBump d' (stamp (T (n + 1)))).currentTriggersRpm.toNat := by
            rw [hdw.required, (fed_push (d' := missingBump d' (stamp (T (n + 1)))) hfed rfl rfl).cur]
            have := hdw.R36; have := hg.full
            omega
          rw [mtu_sync hreq htr.sync] at h1
          rw [bind_eq_ok] at h1; obtain ⟨ratio, -, h1⟩ := h1
          rw [bind_eq_ok] at h1; obtain ⟨d2, hd2, h1⟩ := h1
          simp only [Except.ok.injEq, Prod.mk.injEq] at h1
          rw [← h1.1]
          unfold missingExpire at hd2
          simp only [bind_eq_ok] at hd2
          obtain ⟨ex, -, ext, -, t0, -, h2⟩ := hd2
          simp only [except_pure, Except.ok.injEq] at h2
          rw [← h2]
          unfold missingAngle missingCount
          simp only
          split_ifs <;> exact ⟨rfl, rfl⟩
        have hfin : (decodeFinish d'.state { d1 with toothRpm := tr, rpm := r } (expireReq d1 b)).d =
            { d1 with toothRpm := tr, rpm := r, valid := true, loss := .noLoss } := by
          unfold decodeFinish
          rw [if_pos htr'.sync]
        rw [hfin] at hcfg ⊢
        exact ⟨hcfg.trans hcfg', fed_push hfed hpush.1 hpush.2, fun h0 => by omega,
          fun _ => ⟨rfl, ⟨htr'.sync, htr'.idx, htr'.angle⟩, fun _ => htime⟩⟩

/-- C40: a missing-tooth wheel of any size, any number of teeth, any timing within tolerance.  Until the first gap
with a full history the decoder does not claim a position.  From that tooth on it stays synchronised and
valid, the reported angle is the distance the wheel has really turned since then, modulo the cycle, and
(after the first such tooth) the reported time is the time of the tooth. -/
theorem C40_tracked_partial {d0 d : Decoder} {N s R : ℕ} {v g : ℚ} {T : ℕ → ℤ} {n n0 : ℕ}
    (hw : WheelSetup d0 N s R v g T) (ht : d0.type = .missingNosync) (hg : FirstGap N s R n0)
    (h : feedTeeth d0 T (n + 1) = .ok d) :
    (n < n0 → d.valid = false ∧ d.state ≠ .sync) ∧
    (n0 ≤ n → d.valid = true ∧ d.state = .sync ∧
      d.lastTriggerAngle = .fin (g * (((wheelPos N s n - wheelPos N s n0) % (2 * N) : ℕ) : ℚ)) ∧
      (n0 < n → d.lastTriggerTime = stamp (T n))) := by
  obtain ⟨h1, h2, h3, h4⟩ := wheel_key hw ht hg h
  exact ⟨h3, fun hle => ⟨(h4 hle).1, (h4 hle).2.1.sync, (h4 hle).2.1.angle, (h4 hle).2.2⟩⟩

end Verif
