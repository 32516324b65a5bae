/-
The decoder fed with the triggers of a crank wheel and a cam.
-/
import Verif.Spec.CamRun
import Verif.Props.EngineWheel
import Verif.Proofs.BeatHyp

namespace Verif

section
variable {pl : ℕ → Prop} [DecidablePred pl]

theorem camNext_cam {x : CamSlot} (h : (camNext pl x).cam = true) : pl (camNext pl x).tooth := by
  unfold camNext at h ⊢
  split_ifs at h ⊢ with hx
  exact hx.2

theorem camSlot_pulse {j : ℕ} (h : (camSlot pl j).cam = true) : pl (camSlot pl j).tooth := by
  cases j with
  | zero => exact absurd h (by simp [camSlot])
  | succ j => exact camNext_cam h

/-- Every tooth has its turn. -/
theorem camSlot_index (n : ℕ) : ∃ j, camSlot pl j = ⟨n, false⟩ := by
  induction n with
  | zero => exact ⟨0, rfl⟩
  | succ n ih =>
      obtain ⟨j, hj⟩ := ih
      by_cases hp : pl n
      · refine ⟨j + 2, ?_⟩
        have h1 : camSlot pl (j + 1) = ⟨n, true⟩ := by
          show camNext pl (camSlot pl j) = _
          rw [hj]; unfold camNext; rw [if_pos ⟨rfl, hp⟩]
        show camNext pl (camSlot pl (j + 1)) = _
        rw [h1]; unfold camNext; rw [if_neg (fun h => nomatch h.1)]
      · refine ⟨j + 1, ?_⟩
        show camNext pl (camSlot pl j) = _
        rw [hj]; unfold camNext; rw [if_neg (fun h => hp h.2)]

/-- The trigger after a tooth, and the one after a cam pulse. -/
theorem camSlot_step (j : ℕ) :
    (∃ n, camSlot pl j = ⟨n, false⟩ ∧ pl n ∧ camSlot pl (j + 1) = ⟨n, true⟩) ∨
    (∃ n, camSlot pl j = ⟨n, false⟩ ∧ ¬ pl n ∧ camSlot pl (j + 1) = ⟨n + 1, false⟩) ∨
    (∃ n, camSlot pl j = ⟨n, true⟩ ∧ pl n ∧ camSlot pl (j + 1) = ⟨n + 1, false⟩) := by
  have hs : camSlot pl (j + 1) = camNext pl (camSlot pl j) := rfl
  have hp := camSlot_pulse (pl := pl) (j := j)
  rw [hs]
  revert hp
  generalize camSlot pl j = x
  intro hp
  obtain ⟨n, b⟩ := x
  cases b with
  | true => exact Or.inr (Or.inr ⟨n, rfl, hp rfl, by unfold camNext; rw [if_neg (fun h => nomatch h.1)]⟩)
  | false =>
      by_cases h : pl n
      · exact Or.inl ⟨n, rfl, h, by unfold camNext; rw [if_pos ⟨rfl, h⟩]⟩
      · exact Or.inr (Or.inl ⟨n, rfl, h, by unfold camNext; rw [if_neg (fun h' => h h'.2)]⟩)

theorem camEvent_tooth {T P : ℕ → ℤ} {j n : ℕ} (h : camSlot pl j = ⟨n, false⟩) : camEvent pl T P j = (0, T n) := by
  unfold camEvent; rw [h]; rfl

theorem camEvent_cam {T P : ℕ → ℤ} {j n : ℕ} (h : camSlot pl j = ⟨n, true⟩) : camEvent pl T P j = (1, P n) := by
  unfold camEvent; rw [h]; rfl

/-- The teeth and the cam pulses are triggers from the wheel. -/
theorem cam_feed {T P : ℕ → ℤ} (hT : ∀ n, T n < T (n + 1)) (hP : ∀ n, T n < P n ∧ P n < T (n + 1)) :
    WheelFeed (camEvent pl T P) (fun j => (camSlot pl j).tooth) T := by
  refine ⟨fun j => ?_, fun j => ?_, fun j => ?_, fun n => ?_⟩
  · rcases camSlot_step (pl := pl) j with ⟨n, h, -, h'⟩ | ⟨n, h, -, h'⟩ | ⟨n, h, -, h'⟩ <;>
    simp [h, h']
  · rcases hx : camSlot pl j with ⟨n, b⟩
    cases b with
    | false => rw [camEvent_tooth hx]
    | true => rw [camEvent_cam hx]; exact (hP n).1.le
  · rcases camSlot_step (pl := pl) j with ⟨n, h, -, h'⟩ | ⟨n, h, -, h'⟩ | ⟨n, h, -, h'⟩
    · rw [camEvent_tooth h, camEvent_cam h']; exact (hP n).1.le
    · rw [camEvent_tooth h, camEvent_tooth h']; exact (hT n).le
    · rw [camEvent_cam h, camEvent_tooth h']; exact (hP n).2.le
  · obtain ⟨j, hj⟩ := camSlot_index (pl := pl) n
    exact ⟨j, by rw [hj], by rw [camEvent_tooth hj]⟩

/-- A trigger comes before the next tooth, and the next trigger belongs to the same tooth or the next. -/
theorem cam_near {T P : ℕ → ℤ} (hT : ∀ n, T n < T (n + 1)) (hP : ∀ n, T n < P n ∧ P n < T (n + 1)) (j : ℕ) :
    (camEvent pl T P j).2 < T ((camSlot pl j).tooth + 1) ∧ (camSlot pl (j + 1)).tooth ≤ (camSlot pl j).tooth + 1 := by
  constructor
  · rcases hx : camSlot pl j with ⟨n, b⟩
    cases b with
    | false => rw [camEvent_tooth hx]; exact hT n
    | true => rw [camEvent_cam hx]; exact (hP n).2
  · rcases camSlot_step (pl := pl) j with ⟨n, h, -, h'⟩ | ⟨n, h, -, h'⟩ | ⟨n, h, -, h'⟩ <;>
    simp [h, h']

end

section
variable {N s k : ℕ}

/-- The cam pulse of the cycle that tooth `n0` begins. -/
theorem cycle_pulse {R n0 : ℕ} (hk : k < N - 1) (h : CycleStart N s R n0) : pulseAfter N s k (n0 + k) := by
  have hg := h.gap
  have hr := h.rev
  unfold afterGap at hg
  unfold firstRev at hr
  unfold pulseAfter firstRev
  obtain ⟨a, ha⟩ := Nat.dvd_of_mod_eq_zero hg
  have e : s + (n0 + k) = k + (N - 1) * a := by omega
  rw [ha, Nat.mul_div_cancel_left _ (by omega)] at hr
  rw [e, Nat.add_mul_div_left _ _ (by omega), Nat.add_mul_mod_self_left, Nat.div_eq_of_lt hk, Nat.mod_eq_of_lt hk]
  exact ⟨by rw [Nat.zero_add]; exact hr, rfl⟩

/-- Counted from tooth `n0`, the angle in the cycle is the same. -/
theorem cycle_angle {R n0 n : ℕ} {g : ℚ} (hN : 2 ≤ N) (h : CycleStart N s R n0) (hn : n0 ≤ n) : trueAngle N s g n = toothReads (wheelPos N s) (2 * N) n0 g n := by
  have hg := h.gap
  have hr := h.rev
  unfold afterGap at hg
  unfold firstRev at hr
  obtain ⟨b, hb⟩ := Nat.dvd_of_mod_eq_zero hr
  have h0 : wheelPos N s n0 = 2 * N * b := by
    unfold wheelPos
    rw [hg, hb]; ring
  have hle := wheelPos_mono (s := s) hN hn
  unfold trueAngle toothReads
  have : (wheelPos N s n - wheelPos N s n0) % (2 * N) = wheelPos N s n % (2 * N) := by
    conv_rhs => rw [← Nat.sub_add_cancel hle, h0, Nat.add_mul_mod_self_left]
    rw [h0]
  rw [this]

end

variable [FloatFmt]

/-- Unless it loses sync, the end of a decode changes only the validity and the angle. -/
theorem camFinish_sync {w : Bool} {d : Decoder} {ex : Option Time} (h : (camFinish w d ex).d.state = .sync) :
    ∃ a b l, (camFinish w d ex).d = { d with valid := a, lastTriggerAngle := b, loss := l } ∧ d.state = .sync := by
  revert h
  unfold camFinish
  simp only
  split_ifs with h1 h2 h3 h4 h5 <;> intro h
  all_goals first
    | exact absurd h h1
    | exact absurd h (by unfold invalidateDecoder; exact fun h => nomatch h)
    | exact ⟨_, _, _, rfl, h⟩

/-- The tooth speed of the state after a decode. -/
theorem missingRpms_speed {d d2 : Decoder} (h : missingRpms d = .ok d2) (hs : d.state = .sync) : missingToothRpm d = .ok d2.toothRpm := by
  unfold missingRpms at h
  rw [if_pos (by rw [hs]; exact fun h => nomatch h)] at h
  simp only [bind_eq_ok, except_pure, Except.ok.injEq] at h
  obtain ⟨tr, htooth, r, havg, rfl⟩ := h
  exact htooth

/-- The speeds of a state after a decode are those that would be computed again. -/
theorem missingRpms_settled {d d2 : Decoder} (h : missingRpms d = .ok d2) : missingAverageRpm d2 = .ok d2.rpm := by
  have again : ∀ {d : Decoder} {r : BitVec 32}, missingAverageRpm d = .ok r → missingAverageRpm { d with rpm := r } = .ok r := by
    intro d r h
    unfold missingAverageRpm at h ⊢
    dsimp only
    by_cases h1 : d.numTriggers.toNat ≤ d.currentTriggersRpm.toNat
    · rw [if_pos h1] at h ⊢
      by_cases h2 : d.triggersSinceLastSync = 0
      · rw [if_pos h2] at h ⊢
        exact h
      · rw [if_neg h2]
        rfl
    · rw [if_neg h1] at h ⊢
      exact h
  unfold missingRpms at h
  by_cases hs : d.state ≠ .nosync
  · rw [if_pos hs] at h
    simp only [bind_eq_ok, except_pure, Except.ok.injEq] at h
    obtain ⟨tr, -, r, h, rfl⟩ := h
    exact again h
  · rw [if_neg hs] at h
    simp only [bind_eq_ok, except_pure, Except.ok.injEq] at h
    obtain ⟨r, h, rfl⟩ := h
    exact again h

/-- A cam pulse leaves the speed as it was. -/
theorem pulse_keeps_rpm {d : Decoder} {o o' : DecOut} {t t' : Time} (ht : d.type = .missingCamsync) (h : decode d 0 t = .ok o)
    (hs : o.d.state = .sync) (ht' : o.d.type = .missingCamsync) (h' : decode o.d 1 t' = .ok o') (hs' : o'.d.state = .sync) : o'.d.rpm = o.d.rpm := by
  obtain ⟨d1, b, d2, h1, h2, rfl⟩ := camsync_tooth_rpms ht h
  obtain ⟨a1, a2, a3, hfin, hs2⟩ := camFinish_sync hs
  have e1 := missingRpms_settled h2
  have e2 : missingToothRpm d2 = .ok d2.toothRpm := by
    obtain ⟨tr, r, e⟩ := missingRpms_frame h2
    have := missingRpms_speed h2 (by rw [e] at hs2; exact hs2)
    rw [e] at this ⊢
    exact this
  rw [hfin] at ht' h' ⊢
  obtain ⟨d3, h3, rfl⟩ := camsync_pulse_rpms ht' h'
  obtain ⟨b1, b2, b3, hfin', -⟩ := camFinish_sync hs'
  rw [hfin']
  obtain ⟨v, w, e, -⟩ := camPulse_frame { d2 with valid := a1, lastTriggerAngle := a2, loss := a3 }
  rw [e] at h3
  show d3.rpm = d2.rpm
  unfold missingRpms at h3
  rw [if_pos (by rw [show ({ d2 with valid := v, lastTriggerAngle := a2, loss := a3, camThis := w } : Decoder).state = d2.state from rfl, hs2]; exact fun h => nomatch h)] at h3
  simp only [bind_eq_ok, except_pure, Except.ok.injEq] at h3
  obtain ⟨tr, g1, r, g2, rfl⟩ := h3
  have g3 : missingToothRpm d2 = .ok tr := g1
  rw [e2] at g3
  obtain rfl := Except.ok.inj g3
  have g4 : missingAverageRpm d2 = .ok r := g2
  rw [e1] at g4
  exact (Except.ok.inj g4).symm

/-- What the decoder reports after a trigger of tooth `n`, or of the cam pulse after it. -/
structure CamReports (d0 d : Decoder) (N s n0 : ℕ) (g : ℚ) (T : ℕ → ℤ) (n : ℕ) : Prop where
  cfg : d.cfg = (decoderInit d0).cfg
  valid : d.valid = true
  sync : d.state = .sync
  hist : HistOk d T n n
  idx : d.triggersSinceLastSync.toNat = wheelIdx N s n
  time : d.lastTriggerTime = stamp (T n)
  angle : d.lastTriggerAngle = .fin (toothReads (wheelPos N s) (2 * N) n0 g n)
  speed : missingToothRpm d = .ok d.toothRpm

/-- A tooth from the synchronising one on: the tooth speed, and the average speed. -/
theorem cam_tooth_speed {d0 d : Decoder} {o : DecOut} {N s R k n : ℕ} {v g : ℚ} {p q : ℤ} {T : ℕ → ℤ} {t : Time} (hu : TurnSetup d0 N s R v g p q T)
    (ht : d.type = .missingCamsync) (h : decode d 0 t = .ok o) (hi : CamInv d0 o.d T N s R k g (n + 1) false) (hs : o.d.state = .sync) :
    missingToothRpm o.d = .ok o.d.toothRpm ∧ ((wheelIdx N s (n + 1) ≠ 0 → SpeedIn g p q d.rpm) → SpeedIn g p q o.d.rpm) := by
  obtain ⟨d1, b, d2, h1, h2, rfl⟩ := camsync_tooth_rpms ht h
  obtain ⟨a1, a2, a3, hfin, hs2⟩ := camFinish_sync hs
  obtain ⟨tr, r, e⟩ := missingRpms_frame h2
  have hr := (mtu_rpms h1).1
  obtain ⟨k1, k2, k3, k4, k5, k6⟩ := camRotation_keeps d1
  rw [hfin] at hi ⊢
  generalize hc : camRotation d1 = dc at *
  have hsc : dc.state = .sync := by rw [e] at hs2; exact hs2
  refine ⟨?_, fun hz => ?_⟩
  · have := missingRpms_speed h2 hsc
    rw [e] at this ⊢
    exact this
  · have hcfg : WheelCfg dc N R v g := cfg_wheel hu.wheel.cfg (by have := hi.cfg; rw [e] at this; exact this)
    have hidx : dc.triggersSinceLastSync.toNat = wheelIdx N s (n + 1) := by
      have := (hi.insync (by exact hs2)).2.2.1
      rw [e] at this; exact this
    refine (show SpeedIn g p q d2.rpm from ?_)
    exact rpms_band hu hcfg (by have := hi.hist; rw [e] at this; exact this) hsc (by have := hi.cur; rw [e] at this; exact this) hidx
      (fun h0 => by
        rw [k2, hr]
        refine hz fun h1 => h0 ?_
        rw [h1] at hidx
        exact BitVec.eq_of_toNat_eq hidx) h2

/-- The same for a cam pulse. -/
theorem cam_pulse_speed {d0 d : Decoder} {o : DecOut} {N s R k n : ℕ} {v g : ℚ} {p q : ℤ} {T : ℕ → ℤ} {t : Time} (hu : TurnSetup d0 N s R v g p q T)
    (ht : d.type = .missingCamsync) (h : decode d 1 t = .ok o) (hi : CamInv d0 o.d T N s R k g (n + 1) true) (hs : o.d.state = .sync) :
    missingToothRpm o.d = .ok o.d.toothRpm ∧ (SpeedIn g p q d.rpm → SpeedIn g p q o.d.rpm) := by
  obtain ⟨d2, h2, rfl⟩ := camsync_pulse_rpms ht h
  obtain ⟨a1, a2, a3, hfin, hs2⟩ := camFinish_sync hs
  obtain ⟨tr, r, e⟩ := missingRpms_frame h2
  obtain ⟨k1, k2, k3, k4, k5, k6⟩ := camPulse_keeps d
  rw [hfin] at hi ⊢
  generalize hc : camPulse d = dc at *
  have hsc : dc.state = .sync := by rw [e] at hs2; exact hs2
  refine ⟨?_, fun hz => ?_⟩
  · have := missingRpms_speed h2 hsc
    rw [e] at this ⊢
    exact this
  · have hcfg : WheelCfg dc N R v g := cfg_wheel hu.wheel.cfg (by have := hi.cfg; rw [e] at this; exact this)
    have hidx : dc.triggersSinceLastSync.toNat = wheelIdx N s (n + 1) := by
      have := (hi.insync (by exact hs2)).2.2.1
      rw [e] at this; exact this
    refine (show SpeedIn g p q d2.rpm from ?_)
    exact rpms_band hu hcfg (by have := hi.hist; rw [e] at this; exact this) hsc (by have := hi.cur; rw [e] at this; exact le_trans this (by omega)) hidx
      (fun _ => by rw [k2]; exact hz) h2

/-- The reported time is that of the last tooth. -/
theorem cam_tooth_time {d0 d : Decoder} {o : DecOut} {N s R k n : ℕ} {v g : ℚ} {T : ℕ → ℤ} (hw : WheelSetup d0 N s R v g T)
    (ht : d.type = .missingCamsync) (hi : CamInv d0 d T N s R k g n true) (h : decode d 0 (stamp (T (n + 1))) = .ok o)
    (hs : d.state = .sync) (hs' : o.d.state = .sync) : o.d.lastTriggerTime = stamp (T (n + 1)) := by
  obtain ⟨d1, b, d2, h1, h2, rfl⟩ := camsync_tooth_rpms ht h
  obtain ⟨a1, a2, a3, hfin, hs2⟩ := camFinish_sync hs'
  obtain ⟨tr, r, e⟩ := missingRpms_frame h2
  obtain ⟨i1, i2, i3, -⟩ := hi.insync hs
  obtain ⟨kk, c, cc, ee, a, m, hd1, -⟩ := sync_step (cfg_wheel hw.cfg hi.cfg) hw.teeth hi.hist i1 hs i3 i2 h1
  have hrot : (camRotation d1).lastTriggerTime = d1.lastTriggerTime := by
    unfold camRotation
    split_ifs <;> rfl
  rw [hfin, e]
  show (camRotation d1).lastTriggerTime = _
  rw [hrot, hd1]

theorem cam_pulse_time {d : Decoder} {o : DecOut} {t : Time} (ht : d.type = .missingCamsync) (h : decode d 1 t = .ok o)
    (hs' : o.d.state = .sync) : o.d.lastTriggerTime = d.lastTriggerTime := by
  obtain ⟨d2, h2, rfl⟩ := camsync_pulse_rpms ht h
  obtain ⟨a1, a2, a3, hfin, hs2⟩ := camFinish_sync hs'
  obtain ⟨tr, r, e⟩ := missingRpms_frame h2
  rw [hfin, e]
  show (camPulse d).lastTriggerTime = _
  unfold camPulse
  split_ifs <;> rfl

/-- The states of the decoder before each tooth (`y`) and between the tooth and its cam pulse (`z`). -/
structure CamStates (d0 : Decoder) (N s R k : ℕ) (g : ℚ) (p q : ℤ) (T P : ℕ → ℤ) (y z : ℕ → Decoder × Option Time) : Prop where
  first : y 0 = (decoderInit d0, none)
  tooth : ∀ n, ∃ o, decode (y n).1 0 (stamp (T n)) = .ok o ∧ z n = (o.d, o.expire.or (y n).2)
  pulse : ∀ n, pulseAfter N s k n → ∃ o, decode (z n).1 1 (stamp (P n)) = .ok o ∧ y (n + 1) = (o.d, o.expire.or (z n).2)
  none : ∀ n, ¬ pulseAfter N s k n → y (n + 1) = z n
  run : ∀ n, camRun d0 T (fun n => stamp (P n)) N s k noLosses noLosses (n + 1) = .ok (y (n + 1)).1
  turn1 : ∀ n, TurnInv N s q (z n).1 (z n).2 T g p n
  turn2 : ∀ n, TurnInv N s q (y (n + 1)).1 (y (n + 1)).2 T g p n
  inv1 : ∀ n, CamInv d0 (z n).1 T N s R k g n false
  inv2 : ∀ n, CamInv d0 (y (n + 1)).1 T N s R k g n true

theorem cam_states {d0 : Decoder} {N s R k n0 : ℕ} {v g : ℚ} {p q : ℤ} {T P : ℕ → ℤ}
    (hu : TurnSetup d0 N s R v g p q T) (ht : d0.type = .missingCamsync) (hc : d0.camThis = false) (hk : k < N - 1)
    (hP : ∀ n, T n < P n ∧ P n < T (n + 1)) (hs : CycleStart N s R n0) : ∃ y z, CamStates d0 N s R k g p q T P y z := by
  have hw := hu.wheel
  have hN24 : N ≤ 2 ^ 24 := by have := hu.size; omega
  have hl := noLosses_early N s k
  have hex : ∀ n, ∃ y, camTurn d0 T P N s k n = .ok y ∧ ∀ m, n = m + 1 → TurnInv N s q y.1 y.2 T g p m ∧
      camRun d0 T (fun n => stamp (P n)) N s k noLosses noLosses (m + 1) = .ok y.1 := by
    intro n
    cases n with
    | zero => exact ⟨_, rfl, fun m h => by omega⟩
    | succ n =>
        obtain ⟨d, ex, h1, h2, h3⟩ := cam_turn_key hu ht hc hk hP n
        exact ⟨(d, ex), h1, fun m hm => by cases hm; exact ⟨h3, h2⟩⟩
  choose y hy1 hy2 using hex
  have hy0 : y 0 = (decoderInit d0, none) := (Except.ok.inj (hy1 0)).symm
  have turn2 : ∀ n, TurnInv N s q (y (n + 1)).1 (y (n + 1)).2 T g p n := fun n => (hy2 (n + 1) n rfl).1
  have run : ∀ n, camRun d0 T (fun n => stamp (P n)) N s k noLosses noLosses (n + 1) = .ok (y (n + 1)).1 := fun n => (hy2 (n + 1) n rfl).2
  have inv2 : ∀ n, CamInv d0 (y (n + 1)).1 T N s R k g n true := fun n => cam_key hw ht hc hk hN24 hl (run n)
  have wait : ∀ n, expireBy (y n) (stamp (T n)) = y n := by
    intro n
    cases n with
    | zero => rw [hy0]; rfl
    | succ m => exact pending_waits (d := (y (m + 1)).1) (ex := (y (m + 1)).2) (turn2 m).pending (hw.teeth.later m) le_rfl
  have hez : ∀ n, ∃ z o, decode (y n).1 0 (stamp (T n)) = .ok o ∧ z = (o.d, o.expire.or (y n).2) ∧
      (if pulseAfter N s k n then turnTrigger z 1 (stamp (P n)) else .ok z) = .ok (y (n + 1)) := by
    intro n
    have h := hy1 (n + 1)
    rw [camTurn, hy1 n, except_bind_ok] at h
    obtain ⟨z, hz, h⟩ := bind_keep h
    unfold turnTrigger at hz
    rw [wait n] at hz
    obtain ⟨o, ho, hz⟩ := bind_keep hz
    exact ⟨z, o, ho, (Except.ok.inj hz).symm, h⟩
  choose z o ho hz hpy using hez
  have inv1 : ∀ n, CamInv d0 (z n).1 T N s R k g n false := by
    intro n
    have h := ho n
    rw [hz n]
    cases n with
    | zero => rw [hy0] at h; exact cam_first hw ht hc h
    | succ n => exact (cam_tooth hw ht hk (inv2 n) h).1
  have turn1 : ∀ n, TurnInv N s q (z n).1 (z n).2 T g p n := by
    intro n
    have h := ho n
    rw [hz n]
    cases n with
    | zero =>
        rw [hy0] at h ⊢
        exact turn_first hu (Or.inl ht) h
    | succ n =>
        obtain ⟨d, hd, hm⟩ := cam_total_key (P := fun n => stamp (P n)) hw ht hc hk hu.size hu.slow hl n
        rw [run n] at hd
        cases hd
        exact turn_cam_tooth hu ht hk (inv2 n) (cam_acquire hw ht hc hk hN24 hs.full hs.gap (run n)).1 hm (turn2 n) h
  refine ⟨y, z, hy0, fun n => ⟨o n, ho n, hz n⟩, fun n hp => ?_, fun n hp => ?_, run, turn1, turn2, inv1, inv2⟩
  · have h := hpy n
    rw [if_pos hp] at h
    unfold turnTrigger at h
    rw [show expireBy (z n) (stamp (P n)) = z n from
      pending_waits (d := (z n).1) (ex := (z n).2) (turn1 n).pending (hP n).1 (hP n).2.le] at h
    obtain ⟨o', ho', h⟩ := bind_keep h
    exact ⟨o', ho', (Except.ok.inj h).symm⟩
  · have h := hpy n
    rw [if_neg hp] at h
    exact (Except.ok.inj h).symm

/-- What the decoder reports from the first tooth after the cam pulse of the cycle that tooth `n0` begins. -/
theorem cam_reports {d0 : Decoder} {N s R k n0 : ℕ} {v g : ℚ} {p q : ℤ} {T P : ℕ → ℤ} {y z : ℕ → Decoder × Option Time}
    (hu : TurnSetup d0 N s R v g p q T) (ht : d0.type = .missingCamsync) (hc : d0.camThis = false) (hk : k < N - 1)
    (hs : CycleStart N s R n0) (hx : CamStates d0 N s R k g p q T P y z) {n : ℕ} (hn : n0 + k < n) :
    CamReports d0 (z n).1 N s n0 g T n ∧ CamReports d0 (y (n + 1)).1 N s n0 g T n := by
  have hw := hu.wheel
  have hN24 : N ≤ 2 ^ 24 := by have := hu.size; omega
  obtain ⟨n, rfl⟩ : ∃ m, n = m + 1 := ⟨n - 1, by omega⟩
  have hN2 : 2 ≤ N := by omega
  have hp := cycle_pulse (R := R) hk hs
  have v0 := C42_acquired hw ht hc hk hN24 hs.full hs.gap (by omega) hp (by omega : n0 + k ≤ n) (hx.run n)
  have v2 := C42_acquired hw ht hc hk hN24 hs.full hs.gap (by omega) hp (by omega : n0 + k ≤ n + 1) (hx.run (n + 1))
  have ty : ∀ {d : Decoder} {m : ℕ} {b : Bool}, CamInv d0 d T N s R k g m b → d.type = .missingCamsync := fun hi =>
    (congrArg DecConfig.type hi.cfg).trans ht
  obtain ⟨o, ho, hz⟩ := hx.tooth (n + 1)
  have hi1 := hx.inv1 (n + 1)
  have hi2 := hx.inv2 (n + 1)
  have v1 : (z (n + 1)).1.valid = true := by rw [hz]; exact (cam_tooth hw ht hk (hx.inv2 n) ho).2 v0
  have sy : ∀ {d : Decoder} {m : ℕ} {b : Bool}, CamInv d0 d T N s R k g m b → d.valid = true → d.state = .sync := fun hi hv => by
    by_contra hne
    have := (hi.nosync hne).2
    rw [hv] at this; cases this
  have mk : ∀ {d : Decoder} {b : Bool}, CamInv d0 d T N s R k g (n + 1) b → d.valid = true → missingToothRpm d = .ok d.toothRpm →
      d.lastTriggerTime = stamp (T (n + 1)) → CamReports d0 d N s n0 g T (n + 1) := fun hi hv hr ht =>
    ⟨hi.cfg, hv, sy hi hv, hi.hist, (hi.insync (sy hi hv)).2.2.1, ht,
      by rw [(hi.valid hv).1, cycle_angle (g := g) hN2 hs (by omega : n0 ≤ n + 1)], hr⟩
  have r1 : missingToothRpm (z (n + 1)).1 = .ok (z (n + 1)).1.toothRpm := by
    have h := sy hi1 v1
    rw [hz] at hi1 h ⊢
    exact (cam_tooth_speed hu (ty (hx.inv2 n)) ho hi1 h).1
  have t1 : (z (n + 1)).1.lastTriggerTime = stamp (T (n + 1)) := by
    have h := sy hi1 v1
    rw [hz] at h ⊢
    exact cam_tooth_time hw (ty (hx.inv2 n)) (hx.inv2 n) ho (sy (hx.inv2 n) v0) h
  refine ⟨mk hi1 v1 r1 t1, ?_⟩
  by_cases hq : pulseAfter N s k (n + 1)
  · obtain ⟨o', ho', hy⟩ := hx.pulse (n + 1) hq
    have h := sy hi2 v2
    refine mk hi2 v2 ?_ ?_
    · rw [hy] at hi2 h ⊢
      exact (cam_pulse_speed hu (ty hi1) ho' hi2 h).1
    · rw [hy] at h ⊢
      exact (cam_pulse_time (ty hi1) ho' h).trans t1
  · rw [hx.none (n + 1) hq]
    exact mk hi1 v1 r1 t1

/-- The average speed is one of those of the wheel. -/
theorem cam_band {d0 : Decoder} {N s R k n0 : ℕ} {v g : ℚ} {p q : ℤ} {T P : ℕ → ℤ} {y z : ℕ → Decoder × Option Time}
    (hu : TurnSetup d0 N s R v g p q T) (ht : d0.type = .missingCamsync) (hc : d0.camThis = false) (hk : k < N - 1)
    (hs : CycleStart N s R n0) (hx : CamStates d0 N s R k g p q T P y z) {n : ℕ} (hn : n0 ≤ n) :
    SpeedIn g p q (z n).1.rpm ∧ SpeedIn g p q (y (n + 1)).1.rpm := by
  have hw := hu.wheel
  have hR2 := hw.cfg.R2
  have hfull := hs.full
  have hN24 : N ≤ 2 ^ 24 := by have := hu.size; omega
  have ty : ∀ {d : Decoder} {m : ℕ} {b : Bool}, CamInv d0 d T N s R k g m b → d.type = .missingCamsync := fun hi =>
    (congrArg DecConfig.type hi.cfg).trans ht
  have sync2 : ∀ m, n0 ≤ m → (y (m + 1)).1.state = .sync := fun m hm => (cam_acquire hw ht hc hk hN24 hs.full hs.gap (hx.run m)).2 hm
  have sync1 : ∀ m, n0 ≤ m → (z m).1.state = .sync := fun m hm => by
    by_cases hp : pulseAfter N s k m
    · obtain ⟨o', ho', hy⟩ := hx.pulse m hp
      have := (cam_pulse_advance hw ht hN24 (hx.inv1 m) hp ho').2
      rw [← this]
      have h := sync2 m hm
      rw [hy] at h
      exact h
    · rw [← hx.none m hp]; exact sync2 m hm
  have up : ∀ m, n0 ≤ m + 1 → (wheelIdx N s (m + 1) ≠ 0 → SpeedIn g p q (y (m + 1)).1.rpm) →
      SpeedIn g p q (z (m + 1)).1.rpm ∧ SpeedIn g p q (y (m + 1 + 1)).1.rpm := by
    intro m hm h0
    obtain ⟨o, ho, hz⟩ := hx.tooth (m + 1)
    have hi1 := hx.inv1 (m + 1)
    have hs1 := sync1 (m + 1) hm
    have f1 : SpeedIn g p q (z (m + 1)).1.rpm := by
      rw [hz] at hi1 hs1 ⊢
      exact (cam_tooth_speed hu (ty (hx.inv2 m)) ho hi1 hs1).2 h0
    refine ⟨f1, ?_⟩
    by_cases hp : pulseAfter N s k (m + 1)
    · obtain ⟨o', ho', hy⟩ := hx.pulse (m + 1) hp
      have hi2 := hx.inv2 (m + 1)
      have hs2 := sync2 (m + 1) hm
      rw [hy] at hi2 hs2 ⊢
      exact (cam_pulse_speed hu (ty hi1) ho' hi2 hs2).2 f1
    · rw [hx.none (m + 1) hp]
      exact f1
  induction n, hn using Nat.le_induction with
  | base =>
      obtain ⟨m, rfl⟩ : ∃ m, n0 = m + 1 := ⟨n0 - 1, by omega⟩
      exact up m (le_refl _) fun h => absurd hs.gap h
  | succ n hn ih => exact up n (by omega) fun _ => ih.2

/-- A decoder fed with teeth and cam pulses, its state being `y n` before tooth `n` and `z n` after it. -/
theorem slot_plan {pl : ℕ → Prop} [DecidablePred pl] {d0 : Decoder} {T P : ℕ → ℤ} {y z : ℕ → Decoder × Option Time}
    (hT : ∀ n, T n < T (n + 1)) (hP : ∀ n, T n < P n ∧ P n < T (n + 1)) (first : y 0 = (decoderInit d0, none))
    (tooth : ∀ n, ∃ o, decode (y n).1 0 (stamp (T n)) = .ok o ∧ z n = (o.d, o.expire.or (y n).2))
    (pulse : ∀ n, pl n → ∃ o, decode (z n).1 1 (stamp (P n)) = .ok o ∧ y (n + 1) = (o.d, o.expire.or (z n).2))
    (none : ∀ n, ¬ pl n → y (n + 1) = z n)
    (pending : ∀ n t, (z n).2 = some t ∨ (y (n + 1)).2 = some t → ∃ E : ℤ, t = stamp E ∧ T (n + 1) + 256 ≤ E ∧ E < T n + 2 ^ 30) :
    ∃ x, DecPlan d0 (camEvent pl T P) x ∧ ∀ j, x (j + 1) = z (camSlot pl j).tooth ∨ x (j + 1) = y ((camSlot pl j).tooth + 1) := by
  obtain ⟨x, hxd⟩ : ∃ x : ℕ → Decoder × Option Time, ∀ j, x j = if (camSlot pl j).cam then z (camSlot pl j).tooth else y (camSlot pl j).tooth :=
    ⟨_, fun _ => rfl⟩
  have xt : ∀ {j n}, camSlot pl j = ⟨n, false⟩ → x j = y n := fun {j n} h => by rw [hxd, h]; rfl
  have xc : ∀ {j n}, camSlot pl j = ⟨n, true⟩ → x j = z n := fun {j n} h => by rw [hxd, h]; rfl
  have after : ∀ j, x (j + 1) = z (camSlot pl j).tooth ∨ x (j + 1) = y ((camSlot pl j).tooth + 1) := by
    intro j
    rcases camSlot_step (pl := pl) j with ⟨n, h, -, h'⟩ | ⟨n, h, -, h'⟩ | ⟨n, h, -, h'⟩
    · left; rw [h, xc h']
    · right; rw [h, xt h']
    · right; rw [h, xt h']
  refine ⟨x, ⟨?_, fun j => ?_, fun j t h => ?_⟩, after⟩
  · rw [xt (n := 0) rfl]; exact first
  · rcases camSlot_step (pl := pl) j with ⟨n, h, -, h'⟩ | ⟨n, h, hp, h'⟩ | ⟨n, h, hp, h'⟩
    · rw [xt h, xc h', camEvent_tooth h]; exact tooth n
    · rw [xt h, xt h', camEvent_tooth h, none n hp]; exact tooth n
    · rw [xc h, xt h', camEvent_cam h]; exact pulse n hp
  · obtain ⟨E, h1, h2, h3⟩ := pending (camSlot pl j).tooth t (by
      rcases after j with h1 | h1
      · left; rw [← h1]; exact h
      · right; rw [← h1]; exact h)
    have ha := (cam_feed (pl := pl) hT hP).after j
    have hnext : (camEvent pl T P (j + 1)).2 ≤ T ((camSlot pl j).tooth + 1) := by
      rcases camSlot_step (pl := pl) j with ⟨n, h, -, h'⟩ | ⟨n, h, -, h'⟩ | ⟨n, h, -, h'⟩
      · rw [camEvent_cam h', h]; exact (hP n).2.le
      · rw [camEvent_tooth h', h]
      · rw [camEvent_tooth h', h]
    exact ⟨E, h1, by linarith, by omega⟩

/-- The speed is the same before and after a cam pulse. -/
theorem cam_rpm {d0 : Decoder} {N s R k n0 : ℕ} {v g : ℚ} {p q : ℤ} {T P : ℕ → ℤ} {y z : ℕ → Decoder × Option Time}
    (hu : TurnSetup d0 N s R v g p q T) (ht : d0.type = .missingCamsync) (hc : d0.camThis = false) (hk : k < N - 1)
    (hs : CycleStart N s R n0) (hx : CamStates d0 N s R k g p q T P y z) {n : ℕ} (hn : n0 ≤ n) : (y (n + 1)).1.rpm = (z n).1.rpm := by
  have hw := hu.wheel
  have hN24 : N ≤ 2 ^ 24 := by have := hu.size; omega
  have ty : ∀ {d : Decoder} {m : ℕ} {b : Bool}, CamInv d0 d T N s R k g m b → d.type = .missingCamsync := fun hi =>
    (congrArg DecConfig.type hi.cfg).trans ht
  have hs2 : (y (n + 1)).1.state = .sync := (cam_acquire hw ht hc hk hN24 hs.full hs.gap (hx.run n)).2 hn
  by_cases hp : pulseAfter N s k n
  · obtain ⟨o, ho, hz⟩ := hx.tooth n
    obtain ⟨o', ho', hy⟩ := hx.pulse n hp
    have hst := (cam_pulse_advance hw ht hN24 (hx.inv1 n) hp ho').2
    have hty := ty (hx.inv1 n)
    have hty0 : (y n).1.type = .missingCamsync := by
      rcases Nat.eq_zero_or_pos n with h0 | h0
      · rw [h0, hx.first]; exact ht
      · have := ty (hx.inv2 (n - 1))
        rw [Nat.sub_add_cancel (by omega : 1 ≤ n)] at this
        exact this
    rw [hy] at hs2 ⊢
    rw [hz] at ho' hty hst ⊢
    exact pulse_keeps_rpm hty0 ho (by rw [← hst]; exact hs2) hty ho' hs2
  · rw [hx.none n hp]


/-- The triggers of the wheel and the cam, and the decoder fed with them. -/
theorem cam_plan {d0 : Decoder} {N s R k n0 : ℕ} {v g : ℚ} {p q : ℤ} {T P : ℕ → ℤ}
    (hu : RunSetup d0 N s R v g p q T) (ht : d0.type = .missingCamsync) (hc : d0.camThis = false) (hk : k < N - 1)
    (hP : ∀ n, T n < P n ∧ P n < T (n + 1)) (hs : CycleStart N s R n0) :
    ∃ x, DecPlan d0 (camEvent (pulseAfter N s k) T P) x ∧ (∀ j, n0 + k < (camSlot (pulseAfter N s k) j).tooth →
      CamReports d0 (x (j + 1)).1 N s n0 g T (camSlot (pulseAfter N s k) j).tooth ∧
      SpeedIn g p q (x (j + 1)).1.rpm) ∧
      ∃ w : ℕ → BitVec 32, ∀ j, n0 + k < (camSlot (pulseAfter N s k) j).tooth → (x (j + 1)).1.rpm = w (camSlot (pulseAfter N s k) j).tooth := by
  obtain ⟨y, z, hx⟩ := cam_states hu.turn ht hc hk hP hs
  obtain ⟨x, hp, after⟩ := slot_plan (pl := pulseAfter N s k) (y := y) (z := z) hu.turn.wheel.teeth.later hP hx.first hx.tooth hx.pulse hx.none
    (fun n t h => by
      obtain ⟨E, h1, h2, h3, h4⟩ := h.elim ((hx.turn1 n).pending t) ((hx.turn2 n).pending t)
      have hroom := hu.room n
      have hT := hu.turn.wheel.teeth.later n
      exact ⟨E, h1, by linarith, by omega⟩)
  refine ⟨x, hp, fun j hj => ?_, fun n => (z n).1.rpm, fun j hj => by
    rcases after j with h1 | h1
    · rw [h1]
    · rw [h1]; exact cam_rpm hu.turn ht hc hk hs hx (by omega)⟩
  obtain ⟨r1, r2⟩ := cam_reports hu.turn ht hc hk hs hx hj
  have fl := cam_band hu.turn ht hc hk hs hx (n := (camSlot (pulseAfter N s k) j).tooth) (by omega)
  rcases after j with h1 | h1
  · rw [h1]; exact ⟨r1, fl.1⟩
  · rw [h1]; exact ⟨r2, fl.2⟩

/-- What the firmware knows of the crank. -/
theorem CamReports.knows {d0 d : Decoder} {N s R n0 n : ℕ} {v g : ℚ} {p q : ℤ} {T : ℕ → ℤ} {θ : ℤ → ℚ} {c : CrankTol}
    (h : CamReports d0 d N s n0 g T n) (hu : RunSetup d0 N s R v g p q T) (turns : CrankTurns θ c (wheelPos N s) n0 g T)
    (s0 : 1 / 2 ^ 18 ≤ c.speed) (s1 : c.speed ≤ 1 / 10) (hn : n0 < n) : KnowsCrank θ c (T n) d := by
  obtain ⟨m, rfl⟩ : ∃ m, n = m + 1 := ⟨n - 1, by omega⟩
  obtain ⟨w, w0, w1, even, last⟩ := turns.speed (m + 1) hn
  have fast := turns.fast (m + 1) hn
  have slow := turns.slow (m + 1) hn
  rw [Nat.add_sub_cancel] at last fast slow
  exact sees_crank hu.turn.wheel (cfg_wheel hu.turn.wheel.cfg h.cfg) h.hist h.sync h.idx h.speed h.time h.angle hn
    (by have := hu.turn.size; omega) (turns.place (m + 1) hn) w0 w1 even last s0 s1 fast slow

/-- Every state of a run from the first tooth after the cam pulse on. -/
theorem cam_follows {d0 : Decoder} {N s R k n0 j1 : ℕ} {v g O : ℚ} {p q : ℤ} {T P : ℕ → ℤ} {θ : ℤ → ℚ} {c : CrankTol}
    {eb e1 : Engine} {n1 E1 : ℤ} {Gd : ℤ → Engine → Prop}
    (hu : RunSetup d0 N s R v g p q T) (ht : d0.type = .missingCamsync) (hcam : d0.camThis = false) (hk : k < N - 1)
    (hP : ∀ n, T n < P n ∧ P n < T (n + 1)) (hs : CycleStart N s R n0) (ho : d0.offset = .fin O)
    (turns : CrankTurns θ c (wheelPos N s) n0 g T) (hc : c.Sane) (s0 : 1 / 2 ^ 18 ≤ c.speed)
    (hG : ∀ n e, Gd n e → EventsGiven (camEvent (pulseAfter N s k) T P) n e) (hb : EngBoot eb) (hd : eb.cfg.decoder = decoderInit d0)
    (h1 : EngTimed Honest Gd eb n1 E1 e1) (hj1 : Decoded (j1 + 1) e1) (hn : n0 + k < (camSlot (pulseAfter N s k) j1).tooth) :
    Follows θ c (wheelPos N s) (2 * N) n0 (n0 + 1) g O q T (fun j => (camSlot (pulseAfter N s k) j).tooth) j1 Gd n1 E1 e1 := by
  intro n E e h
  obtain ⟨hN3, hg1, hg2, hp5, hpq, hp', hq', hq16, hq8⟩ := speed_range hu turns hc.speed1
  obtain ⟨x, hp, hx, -⟩ := cam_plan hu ht hcam hk hP hs
  obtain ⟨-, i1, hi1⟩ := timed_decoded hp (G := Gd) hG hb hd h1
  obtain rfl := hj1.unique hi1.count
  obtain ⟨j', l1, hj'⟩ := on_decoded hp (G := Gd) hG hi1 h
  obtain ⟨gy, -⟩ := timed_decoded hp (G := Gd) hG hb hd (on_timed h1 h)
  obtain ⟨j, rfl⟩ : ∃ j, j' = j + 1 := ⟨j' - 1, by omega⟩
  have hT := hu.turn.wheel.teeth.later
  have hf := cam_feed (pl := pulseAfter N s k) hT hP
  have hle : n0 + k < (camSlot (pulseAfter N s k) j).tooth := lt_of_lt_of_le hn (hf.le (by omega : j1 ≤ j))
  obtain ⟨r, fl⟩ := hx j hle
  obtain ⟨a, b, hdec⟩ := hj'.decoder
  have hpass := events_passed (hG _ _ gy) hj'.count
  have haf := hf.after j
  obtain ⟨kk, kk1, kk2, kk3⟩ := hG _ _ gy
  have hlen : e.given.length = kk := by rw [kk1]; simp
  have hgl := hj'.count.given
  rw [hlen] at hgl
  refine ⟨gy, j, by omega, by dsimp only; omega, hj'.count, by rw [hdec]; exact r.valid, ?_, by rw [hdec]; exact r.angle, ?_,
    le_trans haf hpass, ?_, ?_⟩
  · rw [hdec]
    exact (congrArg DecConfig.offset r.cfg).trans ho
  · rw [hdec]
    exact fl.floor (by omega) hq8
  · have c1 := (cam_near (pl := pulseAfter N s k) hT hP j).2
    have c2 := (cam_near (pl := pulseAfter N s k) hT hP (j + 1)).2
    have c3 := (cam_near (pl := pulseAfter N s k) hT hP (j + 1 + 1)).1
    have c4 := hf.order (by omega : kk ≤ j + 1 + 1)
    have c5 := steady_mono hu.turn.wheel.teeth (by omega : (camSlot (pulseAfter N s k) (j + 1 + 1)).tooth + 1 ≤ (camSlot (pulseAfter N s k) j).tooth + 1 + 1 + 1)
    have h1 := hu.turn.slow (camSlot (pulseAfter N s k) j).tooth
    have h2 := hu.turn.slow ((camSlot (pulseAfter N s k) j).tooth + 1)
    have h3 := hu.turn.slow ((camSlot (pulseAfter N s k) j).tooth + 1 + 1)
    dsimp only
    omega
  · rw [hdec]
    exact knows_recount (r.knows hu turns s0 hc.speed1 (by omega)) a b

end Verif
