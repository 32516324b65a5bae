/-
C41: an even wheel with a cam pulse per cycle is tracked exactly.
-/
import Verif.Proofs.Even
import Verif.Props.WheelTotal
import Mathlib.Data.Nat.ModEq

namespace Verif

variable [FloatFmt]
open FloatFmt

theorem even_tooth {d : Decoder} {t : Time} {o : DecOut} (ht : d.type = .evenCamsync) (h : decode d 0 t = .ok o) :
    ∃ d1 b, evenTriggerUpdate d t = .ok (d1, b) ∧ o = decodeFinish d.state d1 (expireReq d1 b) := by
  unfold decode at h
  simp only [ht] at h
  unfold decodeEvenCamsync at h
  simp only [if_true] at h
  rw [bind_eq_ok] at h; obtain ⟨⟨d1, b⟩, h1, h⟩ := h
  simp only [except_pure, Except.ok.injEq] at h
  exact ⟨d1, b, h1, h.symm⟩

theorem even_tooth_ok {d d1 : Decoder} {t : Time} {b : Bool} (ht : d.type = .evenCamsync)
    (h : evenTriggerUpdate d t = .ok (d1, b)) : decode d 0 t = .ok (decodeFinish d.state d1 (expireReq d1 b)) := by
  unfold decode
  simp only [ht]
  unfold decodeEvenCamsync
  simp only [if_true]
  rw [h, except_bind_ok]
  rfl

theorem even_pulse {d : Decoder} {t : Time} (ht : d.type = .evenCamsync) :
    decode d 1 t = .ok (decodeFinish d.state (evenSyncUpdate d) none) := by
  unfold decode
  simp only [ht]
  unfold decodeEvenCamsync
  simp only
  rw [if_neg (by decide), if_pos trivial]
  rfl

/-- What holds after tooth `n` in any case. -/
structure EvenFed (d0 d : Decoder) (T : ℕ → ℤ) (n : ℕ) : Prop where
  cfg : d.cfg = (decoderInit d0).cfg
  hist : HistOk d T n n
  cur : d.currentTriggersRpm.toNat ≤ 37
  ready : d.state ≠ .nosync → d.requiredTriggersRpm.toNat ≤ d.currentTriggersRpm.toNat

omit [FloatFmt] in
theorem finish_fed {d0 d1 : Decoder} {T : ℕ → ℤ} {n : ℕ} {old : DecState} {e : Option Time} (h : EvenFed d0 d1 T n) :
    EvenFed d0 (decodeFinish old d1 e).d T n := by
  unfold decodeFinish
  split_ifs
  · exact ⟨h.cfg, h.hist, h.cur, h.ready⟩
  · exact ⟨h.cfg, h.hist, Nat.zero_le _, fun hc => absurd rfl hc⟩
  · exact h

theorem tooth_fed {d0 d d1 : Decoder} {T : ℕ → ℤ} {n : ℕ} {b : Bool} (hcfg : d.cfg = (decoderInit d0).cfg)
    (hcur : d.currentTriggersRpm.toNat ≤ 37)
    (hready : d.state ≠ .nosync → d.requiredTriggersRpm.toNat ≤ d.currentTriggersRpm.toNat)
    (hh : HistOk (pushTime d (stamp (T n))) T n n) (h : evenTriggerUpdate d (stamp (T n)) = .ok (d1, b)) :
    EvenFed d0 d1 T n := by
  obtain ⟨tr, r, cc, s, l, e, c, lt, hd1, hs1, hs2, hc, hq⟩ := evenTriggerUpdate_frame h
  have hge : d.currentTriggersRpm.toNat ≤ c.toNat ∧ c.toNat ≤ 37 := by
    rcases hc with ⟨h1, h2⟩ | h1
    · have h1' : c.toNat ≤ 37 := h1
      omega
    · rw [h1]; omega
  rw [hd1]
  refine ⟨hcfg, hh, hge.2, fun hs => ?_⟩
  rcases hq hs with h1 | h1
  · exact le_trans (hready h1) hge.1
  · exact h1

omit [FloatFmt] in
theorem pulse_fed {d0 d : Decoder} {T : ℕ → ℤ} {n : ℕ} (h : EvenFed d0 d T n) : EvenFed d0 (evenSyncUpdate d) T n := by
  unfold evenSyncUpdate
  simp only
  split_ifs with h1 h2 h3
  · exact ⟨h.cfg, h.hist, h.cur, fun _ => h.ready (by rw [h1]; decide)⟩
  · exact ⟨h.cfg, h.hist, h.cur, fun _ => h.ready (by rw [h2]; decide)⟩
  · exact ⟨h.cfg, h.hist, h.cur, fun hc => absurd rfl hc⟩
  · exact ⟨h.cfg, h.hist, h.cur, h.ready⟩

theorem step_fed {d0 d d' : Decoder} {T : ℕ → ℤ} {P : ℕ → Time} {N c n : ℕ} (ht : d0.type = .evenCamsync)
    (hcfg : d.cfg = (decoderInit d0).cfg) (hcur : d.currentTriggersRpm.toNat ≤ 37)
    (hready : d.state ≠ .nosync → d.requiredTriggersRpm.toNat ≤ d.currentTriggersRpm.toNat)
    (hh : HistOk (pushTime d (stamp (T n))) T n n)
    (h : (decode d 0 (stamp (T n)) >>= fun o =>
      if n % N = c then decode o.d 1 (P n) >>= fun o => .ok o.d else .ok o.d) = .ok d') :
    EvenFed d0 d' T n := by
  have hty : d.type = .evenCamsync := (congrArg DecConfig.type hcfg).trans ht
  rw [bind_eq_ok] at h; obtain ⟨o, ho, h⟩ := h
  obtain ⟨d1, b, h1, rfl⟩ := even_tooth hty ho
  have hf := finish_fed (old := d.state) (e := expireReq d1 b) (tooth_fed hcfg hcur hready hh h1)
  split_ifs at h
  · rw [even_pulse ((congrArg DecConfig.type hf.cfg).trans ht), except_bind_ok] at h
    rw [← Except.ok.inj h]
    exact finish_fed (pulse_fed hf)
  · rw [← Except.ok.inj h]
    exact hf

theorem camFeed_fed {d0 d : Decoder} {T : ℕ → ℤ} {P : ℕ → Time} {N c n : ℕ} (ht : d0.type = .evenCamsync)
    (h : camFeed d0 T P N c (n + 1) = .ok d) : EvenFed d0 d T n := by
  induction n generalizing d with
  | zero =>
      rw [camFeed, show camFeed d0 T P N c 0 = .ok (decoderInit d0) from rfl, except_bind_ok] at h
      refine step_fed ht rfl (Nat.zero_le _) (fun hc => absurd rfl hc) ?_ h
      intro i hi hn
      have : i = 0 := by omega
      subst this
      rfl
  | succ n ih =>
      rw [camFeed, bind_eq_ok] at h
      obtain ⟨d', hd', h⟩ := h
      have hf := ih hd'
      exact step_fed ht hf.cfg hf.cur hf.ready (histOk_push hf.hist) h

omit [FloatFmt] in
theorem cfg_even [FloatFmt] {d d' : Decoder} {N R W low : ℕ} {v g : ℚ} (hc : EvenCfg d N R W v g low) (h : d'.cfg = d.cfg) :
    EvenCfg d' N R W v g low := by
  have e1 : d'.numTriggers = d.numTriggers := congrArg DecConfig.numTriggers h
  have e2 : d'.requiredTriggersRpm = d.requiredTriggersRpm := congrArg DecConfig.requiredTriggersRpm h
  have e3 : d'.maxRpmChange = d.maxRpmChange := congrArg DecConfig.maxRpmChange h
  have e4 : d'.degreesPerTrigger = d.degreesPerTrigger := congrArg DecConfig.degreesPerTrigger h
  have e5 : d'.rpmWindowSize = d.rpmWindowSize := congrArg DecConfig.rpmWindowSize h
  have e6 : d'.minRpm = d.minRpm := congrArg DecConfig.minRpm h
  exact ⟨by rw [e1]; exact hc.count, by rw [e2]; exact hc.required, by rw [e5]; exact hc.window,
    by rw [e3]; exact hc.tolerance, by rw [e4]; exact hc.pitch, by rw [e6]; exact hc.slowest,
    hc.v0, hc.v1, hc.R2, hc.W2, hc.W36, hc.g1, hc.g360, hc.grid⟩

/-- Hypotheses on the wheel: the decoder is set up for it, `N` pitches make an engine cycle, multiples of the
pitch up to a cycle are exact in the float format, and the teeth are steady. -/
structure EvenSetup (d0 : Decoder) (N R W low : ℕ) (v g : ℚ) (T : ℕ → ℤ) : Prop where
  type : d0.type = .evenCamsync
  cfg : EvenCfg (decoderInit d0) N R W v g low
  cycle : g * N = 720
  grid : ∀ k : ℕ, k ≤ N → rnd (g * k) = .fin (g * k)
  teeth : EvenSteady W R v g low T

/-- The same for either type of even wheel. -/
structure EvenTeeth (d0 : Decoder) (N R W low : ℕ) (v g : ℚ) (T : ℕ → ℤ) : Prop where
  cfg : EvenCfg (decoderInit d0) N R W v g low
  cycle : g * N = 720
  grid : ∀ k : ℕ, k ≤ N → rnd (g * k) = .fin (g * k)
  teeth : EvenSteady W R v g low T

theorem EvenSetup.even {d0 : Decoder} {N R W low : ℕ} {v g : ℚ} {T : ℕ → ℤ} (h : EvenSetup d0 N R W low v g T) :
    EvenTeeth d0 N R W low v g T := ⟨h.cfg, h.cycle, h.grid, h.teeth⟩

/-- Moving on by one pitch on the float grid. -/
theorem even_angle {N k : ℕ} {g : ℚ} (_hg0 : 0 < g) (cycle : g * N = 720)
    (grid : ∀ k : ℕ, k ≤ N → rnd (g * k) = .fin (g * k)) (hk : k < N) :
    (if Fl.le (Fl.fin 720) (Fl.fin (g * k) + Fl.fin g) then (Fl.fin (g * k) + Fl.fin g) - Fl.fin 720
      else Fl.fin (g * k) + Fl.fin g) = Fl.fin (g * (((k + 1) % N : ℕ) : ℚ)) := by
  have h2 : Fl.fin (g * k) + Fl.fin g = Fl.fin (g * ((k + 1 : ℕ) : ℚ)) := by
    rw [Fl.fin_add, ← grid (k + 1) (by omega)]
    congr 1
    push_cast; ring
  rw [h2]
  rcases Nat.lt_or_ge (k + 1) N with hlt | hge
  · have : ¬ ((720 : ℚ) ≤ g * ((k + 1 : ℕ) : ℚ)) := by
      have : ((k + 1 : ℕ) : ℚ) < N := by exact_mod_cast hlt
      nlinarith
    rw [if_neg (by simpa using this), Nat.mod_eq_of_lt hlt]
  · have he : k + 1 = N := by omega
    rw [he, cycle, if_pos (by simp), Fl.fin_sub, Nat.mod_self]
    simp

theorem even_step_fields {d : Decoder} {T : ℕ → ℤ} {n N R W low : ℕ} {v g : ℚ} (hc : EvenCfg d N R W v g low)
    (hT : EvenSteady W R v g low T) (hh : HistOk d T n n) (hW : W ≤ n + 1) (hs : d.state = .sync)
    (hk : d.triggersSinceLastSync.toNat < N) (hcur : R ≤ d.currentTriggersRpm.toNat)
    (hcur2 : d.currentTriggersRpm.toNat ≤ 37) :
    ∃ d1, evenTriggerUpdate d (stamp (T (n + 1))) = .ok (d1, true) ∧ d1.state = .sync ∧
      d1.triggersSinceLastSync = d.triggersSinceLastSync + 1 ∧ d1.lastTriggerTime = stamp (T (n + 1)) ∧
      d1.lastTriggerAngle =
        (if Fl.le (Fl.fin 720) (d.lastTriggerAngle + .fin g) then (d.lastTriggerAngle + .fin g) - Fl.fin 720
          else d.lastTriggerAngle + .fin g) ∧ d1.cfg = d.cfg := by
  obtain ⟨tr, r, cc, e, cu, hstep, -, -⟩ := even_step hc hT hh hW hs hk hcur hcur2
  exact ⟨_, hstep, hs, rfl, rfl, rfl, rfl⟩

omit [FloatFmt] in
theorem finish_sync {d : Decoder} {old : DecState} {e : Option Time} (h : d.state = .sync) :
    decodeFinish old d e = { d := { d with valid := true, loss := .noLoss }, expire := e, lost := false } := by
  unfold decodeFinish
  rw [if_pos h]

/-- C41: an even wheel of any size with one cam pulse per cycle, any number of cycles.  Synchronisation is gained at
a cam pulse.  Once gained, with the averaging window full, it is never lost: after every later tooth (and the cam
pulse that follows it, if one does) the decoder is valid, the angle has advanced by one pitch per tooth, is back to zero at each
cam pulse, and the reported time is the time of the tooth.  No step faults. -/
theorem C41_tracked {d0 dm d' : Decoder} {N R W low c m : ℕ} {v g : ℚ} {T : ℕ → ℤ} {P : ℕ → Time}
    (hw : EvenSetup d0 N R W low v g T) (hc : c < N)
    (h1 : camFeed d0 T P N c m = .ok dm) (hns : dm.state ≠ .sync) (h2 : camFeed d0 T P N c (m + 1) = .ok d')
    (hs' : d'.state = .sync) (hm : W ≤ m + 1) :
    m % N = c ∧ ∀ n, m ≤ n → ∃ d, camFeed d0 T P N c (n + 1) = .ok d ∧ d.valid = true ∧ d.state = .sync ∧
      d.lastTriggerAngle = .fin (g * (((n - m) % N : ℕ) : ℚ)) ∧
      (n % N = c → d.lastTriggerAngle = .fin 0) ∧ (m < n → d.lastTriggerTime = stamp (T n)) := by
  have hN0 : 0 < N := by omega
  have hg0 : 0 < g := by have := hw.cfg.g1; linarith
  have gain : m % N = c ∧ d'.valid = true ∧ d'.triggersSinceLastSync = 0 ∧ d'.lastTriggerAngle = .fin 0 := by
    have hfed := camFeed_fed hw.type h2
    rw [camFeed, h1, except_bind_ok, bind_eq_ok] at h2
    obtain ⟨o, ho, h2⟩ := h2
    have hty : dm.type = .evenCamsync := by
      cases m with
      | zero => rw [← Except.ok.inj h1]; exact hw.type
      | succ m => exact (congrArg DecConfig.type (camFeed_fed hw.type h1).cfg).trans hw.type
    obtain ⟨d1, b, hd1, rfl⟩ := even_tooth hty ho
    obtain ⟨tr, r, cc, s, l, e, cu, lt, hfr, hf1, hf2, -, -⟩ := evenTriggerUpdate_frame hd1
    have hsn : d1.state ≠ .sync := by rw [hfr]; exact hf2 hns
    have hfin : (decodeFinish dm.state d1 (expireReq d1 b)).d = d1 := by
      unfold decodeFinish
      rw [if_neg hsn, if_neg hns]
    rw [hfin] at h2
    split_ifs at h2 with hmc
    · have hty1 : d1.type = .evenCamsync := by rw [hfr]; exact hty
      rw [even_pulse hty1, except_bind_ok] at h2
      have h3 := (Except.ok.inj h2).symm
      have hs1 : d1.state = .rpm := by
        by_contra hne
        have : (evenSyncUpdate d1).state ≠ .sync := by
          unfold evenSyncUpdate
          simp only
          rw [if_neg hne, if_neg hsn]
          exact hsn
        rw [h3] at hs'
        unfold decodeFinish at hs'
        rw [if_neg this, if_neg hsn] at hs'
        exact this hs'
      have hd' : d' = { d1 with state := .sync, loss := .noLoss, lastTriggerAngle := Fl.fin 0, triggersSinceLastSync := 0, valid := true } := by
        rw [h3]
        unfold decodeFinish evenSyncUpdate
        simp only [hs1, if_true]
      rw [hd']
      exact ⟨hmc, rfl, rfl, rfl⟩
    · rw [← Except.ok.inj h2] at hs'
      exact absurd hs' hsn
  obtain ⟨hmc, hv', hk', ha'⟩ := gain
  refine ⟨hmc, ?_⟩
  have key : ∀ j, ∃ d, camFeed d0 T P N c (m + j + 1) = .ok d ∧ d.valid = true ∧ d.state = .sync ∧
      d.triggersSinceLastSync.toNat = j % N ∧ d.lastTriggerAngle = .fin (g * ((j % N : ℕ) : ℚ)) ∧
      (0 < j → d.lastTriggerTime = stamp (T (m + j))) := by
    intro j
    induction j with
    | zero =>
        refine ⟨d', h2, hv', hs', by rw [hk', Nat.zero_mod]; rfl, by rw [ha', Nat.zero_mod]; simp, fun h => absurd h (by omega)⟩
    | succ j ih =>
        obtain ⟨d, hd, hv, hs, hk, ha, -⟩ := ih
        have hfed := camFeed_fed hw.type hd
        have hdc : EvenCfg d N R W v g low := cfg_even hw.cfg hfed.cfg
        have hty : d.type = .evenCamsync := (congrArg DecConfig.type hfed.cfg).trans hw.type
        have hjN : j % N < N := Nat.mod_lt _ hN0
        obtain ⟨d1, hstep, hs1, hk1, ht1, ha1, hcfg1⟩ := even_step_fields hdc hw.teeth hfed.hist (by omega) hs (by omega)
          (by rw [← hdc.required]; exact hfed.ready (by rw [hs]; decide)) hfed.cur
        rw [ha, even_angle hg0 hw.cycle hw.grid hjN, Nat.mod_add_mod] at ha1
        have hdec := even_tooth_ok hty hstep
        rw [finish_sync hs1] at hdec
        have hadd : m + (j + 1) = m + j + 1 := by omega
        rw [hadd, camFeed, hd, except_bind_ok, hdec, except_bind_ok]
        have hk1' : d1.triggersSinceLastSync.toNat = j % N + 1 := by
          rw [hk1]
          have := hdc.count
          have := d.numTriggers.isLt
          generalize d.triggersSinceLastSync = k at *
          bv_omega
        have hty1 : d1.type = .evenCamsync := (congrArg DecConfig.type hcfg1).trans hty
        have hn1 : d1.numTriggers = d.numTriggers := congrArg DecConfig.numTriggers hcfg1
        have hcyc : (m + j + 1) % N = c ↔ (j + 1) % N = 0 := by
          rw [← hmc]
          constructor
          · intro h
            have h' : (m + (j + 1)) % N = (m + 0) % N := by rw [← Nat.add_assoc]; simpa using h
            have := (Nat.ModEq.add_left_cancel' m (show m + (j + 1) ≡ m + 0 [MOD N] from h'))
            simpa [Nat.ModEq] using this
          · intro h
            rw [Nat.add_assoc, Nat.add_mod, h, Nat.add_zero, Nat.mod_mod]
        by_cases hp : (m + j + 1) % N = c
        · rw [if_pos hp]
          have hz := hcyc.mp hp
          simp only
          rw [even_pulse (d := { d1 with valid := true, loss := .noLoss }) hty1, except_bind_ok]
          refine ⟨_, rfl, ?_⟩
          have hkN : d1.triggersSinceLastSync = d1.numTriggers := by
            apply BitVec.eq_of_toNat_eq
            rw [hk1', hn1, hdc.count]
            by_contra hne
            have hlt : j % N + 1 < N := by omega
            rw [← Nat.mod_add_mod, Nat.mod_eq_of_lt hlt] at hz
            omega
          have hup : evenSyncUpdate { d1 with valid := true, loss := .noLoss } =
              { d1 with valid := true, loss := .noLoss, lastTriggerAngle := .fin 0, triggersSinceLastSync := 0 } := by
            unfold evenSyncUpdate
            simp only [hs1, hkN, if_true, reduceCtorEq, if_false]
          rw [hup, finish_sync (d := { d1 with valid := true, loss := .noLoss, lastTriggerAngle := .fin 0, triggersSinceLastSync := 0 }) hs1, hz]
          exact ⟨rfl, hs1, rfl, by simp, fun _ => ht1⟩
        · rw [if_neg hp]
          have hz : (j + 1) % N ≠ 0 := fun h => hp (hcyc.mpr h)
          refine ⟨_, rfl, rfl, hs1, ?_, ha1, fun _ => ht1⟩
          show d1.triggersSinceLastSync.toNat = _
          rw [hk1', ← Nat.mod_add_mod]
          refine (Nat.mod_eq_of_lt ?_).symm
          by_contra hge
          have : j % N + 1 = N := by omega
          rw [← Nat.mod_add_mod, this, Nat.mod_self] at hz
          exact hz rfl
  intro n hn
  obtain ⟨d, hd, hv, hs, hk, ha, hlt⟩ := key (n - m)
  rw [show m + (n - m) = n by omega] at hd hlt
  refine ⟨d, hd, hv, hs, ha, fun hnc => ?_, fun h => hlt (by omega)⟩
  have : (n - m) % N = 0 := by
    have : n ≡ m [MOD N] := by unfold Nat.ModEq; rw [hnc, hmc]
    exact (Nat.modEq_iff_dvd' hn).mp this.symm |>.elim fun k hk => by rw [hk]; simp
  rw [ha, this]
  simp

/-- Acquiring: from power-up, if the first cam pulse comes after tooth `c` of the first `N`, and by then enough teeth for
the averaging window and the required count have passed, synchronisation is gained right there.  (The run up to that tooth is
assumed not to fault: the first speeds are computed against a history that is not yet full.) -/
theorem C41_acquires {d0 dm : Decoder} {N R W low c : ℕ} {v g : ℚ} {T : ℕ → ℤ} {P : ℕ → Time}
    (hw : EvenSetup d0 N R W low v g T) (hc : c < N) (hcW : W ≤ c) (hcR : R ≤ c + 1) (hR37 : R ≤ 37)
    (h1 : camFeed d0 T P N c c = .ok dm) :
    dm.state ≠ .sync ∧ dm.valid = false ∧ ∃ d', camFeed d0 T P N c (c + 1) = .ok d' ∧ d'.state = .sync := by
  have hR2 := hw.cfg.R2
  have key : ∀ n d, n ≤ c → camFeed d0 T P N c n = .ok d → d.state ≠ .sync ∧ d.valid = false ∧
      d.triggersSinceLastSync.toNat = n ∧ d.currentTriggersRpm.toNat = min n 37 ∧ d.cfg = (decoderInit d0).cfg := by
    intro n
    induction n with
    | zero =>
        intro d _ h
        rw [← Except.ok.inj h]
        exact ⟨show ¬ (DecState.nosync = .sync) by decide, rfl, rfl, rfl, rfl⟩
    | succ n ih =>
        intro d hn h
        rw [camFeed, bind_eq_ok] at h
        obtain ⟨d1, hd1, h⟩ := h
        obtain ⟨hs, hv, hk, hcu, hcfg⟩ := ih d1 (by omega) hd1
        rw [bind_eq_ok] at h
        obtain ⟨o, ho, h⟩ := h
        have hmod : n % N = n := Nat.mod_eq_of_lt (by omega)
        rw [hmod, if_neg (by omega)] at h
        obtain ⟨d2, b, hd2, rfl⟩ := even_tooth ((congrArg DecConfig.type hcfg).trans hw.type) ho
        obtain ⟨c', s, hb, hs', hc'⟩ := evenBook_cur d1 (stamp (T n))
        obtain ⟨tr, r, cc, s2, l, e, c2, lt, hd2', -, hns, hcc, -⟩ := evenTriggerUpdate_frame hd2
        have hs2 : d2.state ≠ .sync := by rw [hd2']; exact hns hs
        have hfin : (decodeFinish d1.state d2 (expireReq d2 b)).d = d2 := by
          unfold decodeFinish
          rw [if_neg hs2, if_neg hs]
        rw [hfin] at h
        rw [← Except.ok.inj h]
        have hcur2 : d2.currentTriggersRpm = c' := (evenTriggerUpdate_cur hd2).trans (by rw [hb])
        have hN : N = d0.numTriggers.toNat := hw.cfg.count.symm
        have := d0.numTriggers.isLt
        refine ⟨hs2, by rw [hd2']; exact hv, ?_, ?_, by rw [hd2']; exact hcfg⟩
        · rw [hd2']
          show (d1.triggersSinceLastSync + 1).toNat = _
          generalize d1.triggersSinceLastSync = k at *
          bv_omega
        · rw [hcur2, hc', hcu]
          split_ifs <;> omega
  obtain ⟨hs, hv, hk, hcu, hcfg⟩ := key c dm le_rfl h1
  refine ⟨hs, hv, ?_⟩
  have hc1 : 1 ≤ c := by have := hw.cfg.W2; omega
  obtain ⟨c', rfl⟩ := Nat.exists_eq_succ_of_ne_zero (by omega : c ≠ 0)
  have hfed := camFeed_fed hw.type h1
  have hdc : EvenCfg dm N R W v g low := cfg_even hw.cfg hcfg
  have hty : dm.type = .evenCamsync := (congrArg DecConfig.type hcfg).trans hw.type
  have hR36 : R ≤ min (c' + 1 + 1) 37 := by omega
  obtain ⟨d1, hstep, hs1, hcfg1⟩ := even_ready hdc hw.teeth hfed.hist (by omega) hs (by omega) (by omega) hR36 hcu
  have hdec := even_tooth_ok hty hstep
  have hfin : (decodeFinish dm.state d1 (expireReq d1 true)).d = d1 := by
    unfold decodeFinish
    rw [if_neg (by rw [hs1]; decide), if_neg hs]
  rw [camFeed, h1, except_bind_ok, show c'.succ = c' + 1 from rfl, hdec, except_bind_ok, if_pos (Nat.mod_eq_of_lt hc), hfin,
    even_pulse ((congrArg DecConfig.type hcfg1).trans hty), except_bind_ok]
  refine ⟨_, rfl, ?_⟩
  have hup : (evenSyncUpdate d1).state = .sync := by
    unfold evenSyncUpdate
    simp only [hs1, if_true]
  rw [finish_sync hup]
  exact hup

/-- The tooth check when no window is configured. -/
theorem no_window_excessive {d : Decoder} {v : ℚ} (hv : d.maxRpmChange = .fin v) (hr : d.rpm = 0) :
    evenExcessive d = true := by
  unfold evenExcessive
  by_cases h0 : d.toothRpm.toNat ≤ d.minRpm.toNat
  · simp [h0]
  · have hx : Fl.ofU32 (0 : BitVec 32) = .fin 0 := by simp [Fl.ofU32]
    rw [hr, hx, hv, Fl.fin_mul, zero_mul, rnd_zero, Fl.fin_add, add_zero, rnd_zero]
    obtain ⟨y, hy, hy0, -⟩ := rnd_u32_pos d.toothRpm.toNat (by omega) d.toothRpm.isLt
    have : Fl.lt (Fl.fin 0) (Fl.ofU32 d.toothRpm) = true := by
      unfold Fl.ofU32
      rw [hy]
      have : (0 : ℚ) < y := by linarith
      simpa using this
    rw [this]
    simp

/-- An averaging window of at least two teeth is needed: with a window of 0 (as shipped) or 1, an even-wheel decoder with
or without cam never synchronises and is never valid, whatever happens to it. -/
theorem C41_window_needed {d0 d : Decoder} {evs : List DecEv} {v : ℚ} (ht : d0.type = .evenCamsync ∨ d0.type = .evenNosync)
    (hW : d0.rpmWindowSize.toNat ≤ 1) (hv : (decoderInit d0).maxRpmChange = .fin v) (h : DecRun d0 evs d) :
    d.valid = false ∧ d.state = .nosync := by
  have tooth : ∀ {d d1 : Decoder} {t : Time} {b : Bool}, d.cfg = (decoderInit d0).cfg → d.state = .nosync →
      evenTriggerUpdate d t = .ok (d1, b) → d1.state = .nosync ∧ d1.cfg = d.cfg ∧ d1.valid = d.valid := by
    intro d d1 t b hcfg hs h
    obtain ⟨_, _, _, _, _, _, _, _, hfr, -⟩ := evenTriggerUpdate_frame h
    refine ⟨?_, by rw [hfr]; rfl, by rw [hfr]; rfl⟩
    unfold evenTriggerUpdate at h
    obtain ⟨c, s, hb, hs', -⟩ := evenBook_frame d t
    obtain ⟨a, lt, ha⟩ := evenAdvance_frame (evenBook d t) t
    simp only at h
    have hcfg2 : (evenAdvance (evenBook d t) t).cfg = d.cfg := by rw [ha, hb]; rfl
    have hst2 : (evenAdvance (evenBook d t) t).state = .nosync ∨ (evenAdvance (evenBook d t) t).state = .rpm := by
      rw [ha, hb]
      rcases hs' with h | h
      · left; exact h.trans hs
      · right; exact h.2
    generalize evenAdvance (evenBook d t) t = d2 at *
    split_ifs at h with hst
    · rw [bind_eq_ok] at h; obtain ⟨d3, hd3, h⟩ := h
      simp only [except_pure, Except.ok.injEq, Prod.mk.injEq] at h
      rw [← h.1]
      unfold evenUpdateRpm at hd3
      simp only [bind_eq_ok] at hd3
      obtain ⟨t0, -, t1, -, tr, -, d4, hd4, e, -, h3⟩ := hd3
      simp only [except_pure, Except.ok.injEq] at h3
      rw [← h3]
      show (evenChecks d4).state = .nosync
      have hd4' : d4 = { d2 with toothRpm := tr, rpm := 0 } := by
        unfold evenWindowRpm at hd4
        simp only at hd4
        have hw : ¬ 1 < (evenWindow d2.currentTriggersRpm d2.rpmWindowSize).toNat := by
          have e1 : d2.rpmWindowSize = d0.rpmWindowSize := congrArg DecConfig.rpmWindowSize (hcfg2.trans hcfg)
          unfold evenWindow
          rw [e1]
          split_ifs with hlt
          · omega
          · omega
        rw [if_neg hw] at hd4
        exact (Except.ok.inj hd4).symm
      have hex : evenExcessive d4 = true := by
        rw [hd4']
        refine no_window_excessive (v := v) ?_ rfl
        show d2.maxRpmChange = _
        rw [show d2.maxRpmChange = (decoderInit d0).maxRpmChange from congrArg DecConfig.maxRpmChange (hcfg2.trans hcfg)]
        exact hv
      unfold evenChecks
      rw [hex]
      simp only [if_true]
      split_ifs <;> rfl
    · simp only [except_pure, Except.ok.injEq, Prod.mk.injEq] at h
      rw [← h.1]
      rcases hst2 with h | h
      · exact h
      · exact absurd (Or.inl h) hst
  have key : d.cfg = (decoderInit d0).cfg ∧ d.valid = false ∧ d.state = .nosync := by
    induction h with
    | start => exact ⟨rfl, rfl, rfl⟩
    | @on d evs ev o hr ho ih =>
        obtain ⟨hcfg, hval, hs⟩ := ih
        have hty : d.type = d0.type := congrArg DecConfig.type hcfg
        cases ev with
        | trigger k t =>
            change decode d k t = .ok o at ho
            unfold decode at ho
            rcases ht with ht | ht
            · rw [hty, ht] at ho
              simp only at ho
              unfold decodeEvenCamsync at ho
              simp only at ho
              split_ifs at ho with h0 h1
              · rw [bind_eq_ok] at ho; obtain ⟨⟨d1, b⟩, h1, ho⟩ := ho
                obtain ⟨e1, e2, e3⟩ := tooth hcfg hs h1
                simp only [except_pure, Except.ok.injEq] at ho
                rw [← ho]
                unfold decodeFinish
                rw [if_neg (by rw [e1]; decide), if_neg (by rw [hs]; decide)]
                exact ⟨e2.trans hcfg, e3.trans hval, e1⟩
              · simp only [except_pure, Except.ok.injEq] at ho
                rw [← ho]
                have hup : evenSyncUpdate d = { d with triggersSinceLastSync := 0 } := by
                  unfold evenSyncUpdate
                  simp only [hs, reduceCtorEq, if_false]
                rw [hup]
                unfold decodeFinish
                rw [if_neg (show ¬ (d.state = .sync) by rw [hs]; decide), if_neg (by rw [hs]; decide)]
                exact ⟨hcfg, hval, hs⟩
              · simp only [except_pure, Except.ok.injEq] at ho
                rw [← ho]
                unfold decodeFinish
                rw [if_neg (by rw [hs]; decide), if_neg (by rw [hs]; decide)]
                exact ⟨hcfg, hval, hs⟩
            · rw [hty, ht] at ho
              simp only at ho
              unfold decodeEvenNosync at ho
              rw [bind_eq_ok] at ho; obtain ⟨⟨d1, b⟩, h1, ho⟩ := ho
              obtain ⟨e1, e2, e3⟩ := tooth hcfg hs h1
              simp only at ho
              rw [if_neg (by rw [e1]; decide), if_neg (by rw [hs]; decide)] at ho
              simp only [except_pure, Except.ok.injEq] at ho
              rw [← ho]
              exact ⟨e2.trans hcfg, e3.trans hval, e1⟩
        | expire => rw [← Except.ok.inj ho]; exact ⟨hcfg, rfl, rfl⟩
        | desync r => rw [← Except.ok.inj ho]; exact ⟨hcfg, rfl, rfl⟩
  exact key.2

/-- An even wheel of 4 teeth per cycle with a window of 2 teeth. -/
def demoEven : Decoder := { demoDecoder .evenCamsync with degreesPerTrigger := .fin 180 }

omit [FloatFmt] in
theorem speed_const (n : ℕ) {w : ℕ} (hw : w ≤ n) (h0 : 0 < w) :
    speed (180 * w) ((40000 * ((n : ℕ) + 1) : ℤ) - 40000 * (((n - w : ℕ) : ℤ) + 1)) = 3000 := by
  unfold speed
  rw [Nat.cast_sub hw]
  have : ((40000 * ((n : ℤ) + 1) - 40000 * (((n : ℤ) - (w : ℤ)) + 1) : ℤ) : ℚ) = 40000 * w := by push_cast; ring
  rw [this]
  have : (w : ℚ) ≠ 0 := by exact_mod_cast h0.ne'
  field_simp
  norm_num

/-- The hypotheses of C41 are met by a wheel turning at 3000 rpm for ever. -/
theorem demo_even_setup : EvenSetup demoEven 4 2 2 10 (3/8) 180 (fun n => 40000 * ((n : ℤ) + 1)) := by
  refine ⟨rfl, ⟨rfl, rfl, rfl, ?_, rfl, rfl, by norm_num, by norm_num, by norm_num, by norm_num, by norm_num, by norm_num,
    by norm_num, ?_⟩, by norm_num, ?_, ⟨fun n => ?_, fun n hn => ?_, fun n w h1 _ _ hw => ?_⟩⟩
  · show (if Fl.feq (Fl.fin (3/8)) (Fl.fin 0) then _ else _) = _
    rw [if_neg (by simp [Fl.feq])]
    rfl
  · intro k hk
    have := rnd_nat (180 * k) (by omega)
    push_cast at this
    exact this
  · intro k hk
    have := rnd_nat (180 * k) (by omega)
    push_cast at this
    exact this
  · push_cast; omega
  · have := speed_const n (w := 1) hn (by norm_num)
    simp only [Nat.cast_one, mul_one] at this
    rw [this]
    norm_num
  · have h2 := speed_const n (w := 1) (by omega) (by norm_num)
    simp only [Nat.cast_one, mul_one] at h2
    rw [h2, speed_const n hw (by omega)]
    norm_num

omit [FloatFmt] in
/-- So that the angle after 1001 teeth is known. -/
example : ∃ d, @camFeed binary32 demoEven (fun n => 40000 * ((n : ℤ) + 1)) (fun _ => 0) 4 3 1002 = .ok d ∧
    d.valid = true ∧ d.lastTriggerAngle = .fin 360 ∧ d.lastTriggerTime = BitVec.ofNat 32 (40000 * 1002) := by
  let _ := binary32
  obtain ⟨dm, h1, -⟩ := okAnd_ok (x := camFeed demoEven (fun n => 40000 * ((n : ℤ) + 1)) (fun _ => 0) 4 3 3)
    (p := fun _ => true) (by decide +kernel)
  obtain ⟨hns, -, d', h2, hs'⟩ := C41_acquires demo_even_setup (by norm_num) (by norm_num) (by norm_num) (by norm_num) h1
  obtain ⟨-, h⟩ := C41_tracked demo_even_setup (by norm_num) h1 hns h2 hs' (by norm_num)
  obtain ⟨d, hd, hv, -, ha, -, ht⟩ := h 1001 (by norm_num)
  refine ⟨d, hd, hv, ?_, ?_⟩
  · rw [ha]; norm_num
  · rw [ht (by norm_num)]; decide +kernel

end Verif
