/-
The decoder does not fault on spaced triggers, whatever their pattern.
-/
import Verif.Spec.Safe
import Verif.Props.WheelTotal
import Verif.Proofs.Even

namespace Verif

variable [FloatFmt]
open FloatFmt Fl

/-- The first `c` remembered times are one tick to 5000000 ticks apart. -/
def HistSp (f : Fin (maxTriggers + 1) → Time) (c : ℕ) : Prop :=
  ∀ i (h : i + 1 < maxTriggers + 1), i + 1 < c →
    1 ≤ (f ⟨i, by omega⟩ - f ⟨i + 1, h⟩).toNat ∧ (f ⟨i, by omega⟩ - f ⟨i + 1, h⟩).toNat ≤ 5000000

omit [FloatFmt] in
theorem hist_push {d : Decoder} {t : Time} {c : ℕ} (h : HistSp d.times d.currentTriggersRpm.toNat)
    (hs : 0 < d.currentTriggersRpm.toNat → 1 ≤ (t - d.times 0).toNat ∧ (t - d.times 0).toNat ≤ 5000000)
    (hc : c ≤ d.currentTriggersRpm.toNat + 1) : HistSp (pushTime d t).times c := by
  intro i hi hic
  unfold pushTime
  simp only
  cases i with
  | zero =>
      simp only [dif_pos, Nat.add_eq_zero_iff, one_ne_zero, and_false, dif_neg, not_false_eq_true]
      exact hs (by omega)
  | succ i =>
      simp only [Nat.add_eq_zero_iff, one_ne_zero, and_false, dif_neg, not_false_eq_true]
      exact h i (by omega) (by omega)

omit [FloatFmt] in
theorem hist_mono {f : Fin (maxTriggers + 1) → Time} {c c' : ℕ} (h : HistSp f c) (hc : c' ≤ c) : HistSp f c' :=
  fun i hi hic => h i hi (by omega)

omit [FloatFmt] in
/-- The span of `k` teeth. -/
theorem hist_span {f : Fin (maxTriggers + 1) → Time} {c : ℕ} (h : HistSp f c) (k : ℕ) (hk : k < maxTriggers + 1) (hc : k < c) :
    k ≤ (f 0 - f ⟨k, hk⟩).toNat ∧ (f 0 - f ⟨k, hk⟩).toNat ≤ k * 5000000 := by
  induction k with
  | zero =>
      have : f 0 - f ⟨0, hk⟩ = 0 := by
        show f 0 - f 0 = 0
        bv_omega
      rw [this]; simp
  | succ k ih =>
      have h1 := ih (by omega) (by omega)
      have h2 := h k hk hc
      have e : f 0 - f ⟨k + 1, hk⟩ = (f 0 - f ⟨k, by omega⟩) + (f ⟨k, by omega⟩ - f ⟨k + 1, hk⟩) := by bv_omega
      rw [e, BitVec.toNat_add, Nat.mod_eq_of_lt]
      · omega
      · have : k + 1 < 37 := hk
        show _ < 4294967296
        omega

omit [FloatFmt] in
theorem timeAt_ok (d : Decoder) {i : BitVec 32} (h : i.toNat < maxTriggers + 1) : timeAt d i = .ok (d.times ⟨i.toNat, h⟩) := by
  unfold timeAt
  exact rd_ok d.times i.toNat h

/-- Both speeds are at least 1. -/
def Alive (d : Decoder) : Prop := 1 ≤ d.rpm.toNat ∧ 1 ≤ d.toothRpm.toNat

/-- The degrees of one or two teeth. -/
theorem pitch_deg {g : ℚ} (h9 : 9 ≤ g) (h180 : g ≤ 180) (p : Prop) [Decidable p] :
    ∃ q, fin g * (if p then Fl.fin 2 else Fl.fin 1) = .fin q ∧ 9 ≤ q ∧ q ≤ 360 := by
  have r9 : rnd (9 : ℚ) = fin 9 := by simpa using rnd_nat 9 (by norm_num)
  have r360 : rnd (360 : ℚ) = fin 360 := by simpa using rnd_nat 360 (by norm_num)
  split_ifs
  · rw [Fl.fin_mul]; exact rnd_between (by linarith) (by linarith) r9 r360
  · rw [Fl.fin_mul]; exact rnd_between (by linarith) (by linarith) r9 r360

/-- The rpm calculations of a missing-tooth wheel. -/
theorem missingRpms_safe {d : Decoder} {g v : ℚ} (hw : WheelSafe d g v)
    (hty : d.type = .missingNosync ∨ d.type = .missingCamsync) (hh : HistSp d.times d.currentTriggersRpm.toNat)
    (hR : d.state ≠ .nosync → d.requiredTriggersRpm.toNat ≤ d.currentTriggersRpm.toNat)
    (hk : d.state = .sync → d.triggersSinceLastSync ≠ 0 → 1 ≤ d.rpm.toNat) :
    ∃ tr r, missingRpms d = .ok { d with toothRpm := tr, rpm := r } ∧
      (d.state = .sync → 1 ≤ r.toNat ∧ 1 ≤ tr.toNat) ∧ (Alive d → 1 ≤ r.toNat ∧ 1 ≤ tr.toNat) := by
  obtain ⟨hN2, hgN1, hgN2⟩ := hw.missing hty
  obtain ⟨hW, hR2, hR36, hN1, hN37⟩ := hw.teeth
  have htooth : d.state ≠ .nosync → ∃ r, missingToothRpm d = .ok r ∧ 1 ≤ r.toNat := by
    intro hs
    have hcur := hR hs
    unfold missingToothRpm
    obtain ⟨q, hq, hq1, hq2⟩ := pitch_deg hw.g9 hw.g180 (d.state = .sync ∧ d.triggersSinceLastSync = 0)
    simp only
    rw [timeAt_ok d (i := 0) (by decide), except_bind_ok, timeAt_ok d (i := 1) (by decide), except_bind_ok, hw.pitch, hq]
    have hsp := hist_span hh 1 (by decide) (by omega)
    obtain ⟨r, hr, hr1⟩ := rpm_total (t := d.times 0 - d.times 1) (q := q) (by
      have := hsp.1
      show 0 < (d.times 0 - d.times ⟨1, _⟩).toNat
      omega) (by linarith) (by norm_num; linarith)
    refine ⟨r, hr, hr1 ?_⟩
    have : ((d.times 0 - d.times 1).toNat : ℚ) ≤ 5000000 := by
      have := hsp.2
      exact_mod_cast (by simpa using this)
    linarith
  have havg : ∀ tr : BitVec 32, (d.state = .sync ∨ Alive d → 1 ≤ tr.toNat) →
      ∃ r, missingAverageRpm { d with toothRpm := tr } = .ok r ∧ (d.state = .sync → 1 ≤ r.toNat) ∧
        (Alive d → 1 ≤ r.toNat) := by
    intro tr htr
    unfold missingAverageRpm
    simp only
    by_cases hge : d.numTriggers.toNat ≤ d.currentTriggersRpm.toNat
    · rw [if_pos hge]
      by_cases hz : d.triggersSinceLastSync = 0
      · rw [if_pos hz]
        have hidx : (d.numTriggers - 1).toNat = d.numTriggers.toNat - 1 := by
          generalize d.numTriggers = r at *
          bv_omega
        rw [timeAt_ok _ (i := 0) (by decide), except_bind_ok,
          timeAt_ok _ (i := d.numTriggers - 1) (by rw [hidx]; show _ < 37; omega), except_bind_ok]
        have r300 : rnd (300 : ℚ) = fin 300 := by simpa using rnd_nat 300 (by norm_num)
        have r360 : rnd (360 : ℚ) = fin 360 := by simpa using rnd_nat 360 (by norm_num)
        obtain ⟨q, hq, hq1, hq2⟩ : ∃ q, Fl.ofU32 d.numTriggers * d.degreesPerTrigger = .fin q ∧ 300 ≤ q ∧ q ≤ 360 := by
          unfold Fl.ofU32
          rw [rnd_nat d.numTriggers.toNat (by omega), hw.pitch, Fl.fin_mul, mul_comm]
          exact rnd_between hgN1 hgN2 r300 r360
        rw [hq]
        have hsp := hist_span hh (d.numTriggers.toNat - 1) (by show _ < 37; omega) (by omega)
        have he : d.times ⟨(d.numTriggers - 1).toNat, by rw [hidx]; show _ < 37; omega⟩ =
            d.times ⟨d.numTriggers.toNat - 1, by show _ < 37; omega⟩ := by congr 1; exact Fin.ext hidx
        obtain ⟨r, hr, hr1⟩ := rpm_total (t := d.times 0 - d.times ⟨d.numTriggers.toNat - 1, by show _ < 37; omega⟩) (q := q)
          (by have := hsp.1; omega) (by linarith) (by norm_num; linarith)
        have hr1' := hr1 (by
          have h2 := hsp.2
          have : ((d.times 0 - d.times ⟨d.numTriggers.toNat - 1, by show _ < 37; omega⟩).toNat : ℚ) ≤ 180000000 := by
            exact_mod_cast (by omega)
          linarith)
        refine ⟨r, ?_, fun _ => hr1', fun _ => hr1'⟩
        show rpmFromTimeDiff (d.times 0 - d.times _) (fin q) = _
        rw [he]; exact hr
      · rw [if_neg hz]
        exact ⟨d.rpm, rfl, fun hs => hk hs hz, fun h => h.1⟩
    · rw [if_neg hge]
      exact ⟨tr, rfl, fun hs => htr (.inl hs), fun h => htr (.inr h)⟩
  unfold missingRpms
  by_cases hs : d.state = .nosync
  · rw [if_neg (by simpa using hs)]
    obtain ⟨r, hr, -, hr2⟩ := havg d.toothRpm (by
      rintro (h | h)
      · rw [hs] at h; cases h
      · exact h.2)
    rw [show missingAverageRpm d = .ok r from hr, except_bind_ok]
    exact ⟨d.toothRpm, r, rfl, fun h => absurd (hs.symm.trans h) (by decide), fun h => ⟨hr2 h, h.2⟩⟩
  · rw [if_pos hs]
    obtain ⟨tr, htr, htr1⟩ := htooth hs
    rw [htr, except_bind_ok]
    simp only
    obtain ⟨r, hr, hr1, hr2⟩ := havg tr (fun _ => htr1)
    rw [hr, except_bind_ok]
    exact ⟨tr, r, rfl, fun h => ⟨hr1 h, htr1⟩, fun h => ⟨hr2 h, htr1⟩⟩

/-- A tooth of a missing-tooth wheel. -/
theorem mtu_safe {d : Decoder} {g v : ℚ} {t : Time} (hw : WheelSafe d g v) (hrpm : d.state = .sync → 1 ≤ d.rpm.toNat) :
    ∃ d' b, missingTriggerUpdate d t = .ok (d', b) := by
  obtain ⟨hW, hR2, hR36, hN1, hN37⟩ := hw.teeth
  rcases Nat.lt_or_ge (missingBump d t).currentTriggersRpm.toNat d.requiredTriggersRpm.toNat with hlt | hge
  · rw [mtu_wait hlt]
    exact ⟨_, _, rfl⟩
  by_cases hs : d.state = .sync
  · rw [mtu_sync hge hs]
    obtain ⟨ratio, hr⟩ := ratio_total (d := missingBump d t) hR2 hR36
    rw [hr, except_bind_ok]
    generalize hd2 : missingAngle (missingCount { missingBump d t with curRpmChange := missingChange ratio }
        (okMissing ratio d.maxRpmChange) (okNormal ratio d.maxRpmChange)) (okMissing ratio d.maxRpmChange) t = d2
    have hrpm2 : d2.rpm = d.rpm ∧ d2.degreesPerTrigger = .fin g ∧ d2.maxRpmChange = .fin v := by
      rw [← hd2]
      unfold missingAngle missingCount
      simp only
      refine ⟨?_, ?_, ?_⟩
      · split_ifs <;> rfl
      · rw [← hw.pitch]; split_ifs <;> rfl
      · rw [← hw.tolerance]; split_ifs <;> rfl
    unfold missingExpire
    rw [hrpm2.1, hrpm2.2.1, hrpm2.2.2]
    simp only
    obtain ⟨q, hq, hq0, hq1⟩ := pitch_deg hw.g9 hw.g180 (d2.triggersSinceLastSync = d2.numTriggers - 2)
    obtain ⟨e, he, he1⟩ := time_total (r := d.rpm) (hrpm hs) (q := q) (by linarith) (by norm_num; linarith)
    obtain ⟨x, hx⟩ := lengthen_total he1 hw.v0 hw.v1
    rw [hq, he, except_bind_ok, hx, except_bind_ok, timeAt_ok d2 (i := 0) (by decide), except_bind_ok]
    exact ⟨_, _, rfl⟩
  · rw [mtu_rpm hge hs]
    obtain ⟨ratio, hr⟩ := ratio_total (d := { missingBump d t with state := .rpm }) hR2 hR36
    rw [hr, except_bind_ok]
    exact ⟨_, _, rfl⟩

/-- In sync without a fresh gap, the decoder was in sync before. -/
theorem mtu_was_sync {d d1 : Decoder} {t : Time} {b : Bool} (h : missingTriggerUpdate d t = .ok (d1, b)) :
    d1.state = .sync → d1.triggersSinceLastSync ≠ 0 → d.state = .sync := by
  obtain ⟨c, s, cc, k, a, lt, e, l, hd1, -, -, -, -, hk, -⟩ := missingTriggerUpdate_frame h
  intro h1 h2
  by_contra hs
  rw [hd1] at h1 h2
  exact h2 (hk hs h1)

/-- The state between triggers. -/
structure DecSafe (d : Decoder) (g v : ℚ) : Prop where
  wheel : WheelSafe d g v
  hist : HistSp d.times d.currentTriggersRpm.toNat
  cur : d.currentTriggersRpm.toNat ≤ maxTriggers + 1
  req : d.state ≠ .nosync → d.requiredTriggersRpm.toNat ≤ d.currentTriggersRpm.toNat
  sound : d.valid = true → d.state = .sync
  awake : d.state = .sync → Alive d
  evenAwake : d.type = .evenNosync ∨ d.type = .evenCamsync → d.state = .rpm → Alive d
  count : CountOk d
  angle : AngleOk d.lastTriggerAngle

omit [FloatFmt] in
theorem WheelSafe.wheelOk {d : Decoder} {g v : ℚ} (h : WheelSafe d g v) : WheelOk d := by
  refine ⟨g, h.pitch, by have := h.g9; linarith, by have := h.g180; linarith, fun ht => ?_⟩
  obtain ⟨h1, -, h2⟩ := h.missing (.inr ht)
  exact ⟨h1, h2⟩

omit [FloatFmt] in
theorem WheelSafe.of_cfg {d d' : Decoder} {g v : ℚ} (h : WheelSafe d g v) (e : d'.cfg = d.cfg) : WheelSafe d' g v := by
  have e1 : d'.degreesPerTrigger = d.degreesPerTrigger := congrArg DecConfig.degreesPerTrigger e
  have e2 : d'.maxRpmChange = d.maxRpmChange := congrArg DecConfig.maxRpmChange e
  have e3 : d'.requiredTriggersRpm = d.requiredTriggersRpm := congrArg DecConfig.requiredTriggersRpm e
  have e4 : d'.numTriggers = d.numTriggers := congrArg DecConfig.numTriggers e
  have e5 : d'.rpmWindowSize = d.rpmWindowSize := congrArg DecConfig.rpmWindowSize e
  have e6 : d'.type = d.type := congrArg DecConfig.type e
  exact ⟨e1 ▸ h.pitch, e2 ▸ h.tolerance, h.v0, h.v1, h.g9, h.g180, by rw [e3, e4, e5]; exact h.teeth,
    by rw [e6, e4]; exact h.missing, by rw [e6, e5]; exact h.even⟩

/-- Whatever is left by the end of a decode step, given the state before the end. -/
theorem decSafe_of {d : Decoder} {k : Int} {t : Time} {o : DecOut} {g v : ℚ} (h : decode d k t = .ok o) (hd : DecSafe d g v)
    (hh : HistSp o.d.times o.d.currentTriggersRpm.toNat) (ha : o.d.state = .sync → Alive o.d)
    (he : d.type = .evenNosync ∨ d.type = .evenCamsync → o.d.state = .rpm → Alive o.d) : DecSafe o.d g v := by
  have hf := decode_facts h
  obtain ⟨h1, h2⟩ := decode_angle h hd.wheel.wheelOk hd.count hd.angle
  have hty : o.d.type = d.type := congrArg DecConfig.type hf.cfg
  have hreq : o.d.requiredTriggersRpm = d.requiredTriggersRpm := congrArg DecConfig.requiredTriggersRpm hf.cfg
  refine ⟨hd.wheel.of_cfg hf.cfg, hh, ?_, fun hs => ?_, hf.sound hd.sound, ha, fun h => he (hty ▸ h), h2, h1⟩
  · cases hl : o.lost
    · rcases hf.cur hl with hc | hc
      · rw [hc]; exact hd.cur
      · exact hc.1
    · rw [(hf.clear hl).2.2.1]; exact Nat.zero_le _
  · rw [hreq]
    cases hl : o.lost
    · rcases hf.fresh hs with h5 | h5
      · have := hd.req h5
        rcases hf.cur hl with hc | hc
        · rw [hc]; exact this
        · omega
      · exact h5
    · exact absurd (hf.clear hl).2.1 hs

/-- The windowed speed of an even wheel. -/
theorem evenWindowRpm_safe {d : Decoder} {g v : ℚ} (hw : WheelSafe d g v) (hty : d.type = .evenNosync ∨ d.type = .evenCamsync)
    (hne : ∀ i (h : i < maxTriggers + 1), 0 < i → d.times 0 ≠ d.times ⟨i, h⟩) : ∃ d', evenWindowRpm d = .ok d' := by
  obtain ⟨hW, hR2, hR36, hN1, hN37⟩ := hw.teeth
  have hgW := hw.even hty
  have hw1 : (evenWindow d.currentTriggersRpm d.rpmWindowSize).toNat ≤ d.rpmWindowSize.toNat := by
    unfold evenWindow
    split_ifs with h
    · exact h.le
    · exact Nat.le_refl _
  by_cases h1 : 1 < (evenWindow d.currentTriggersRpm d.rpmWindowSize).toNat
  · generalize hx : evenWindow d.currentTriggersRpm d.rpmWindowSize = w at *
    have hlt : w.toNat < maxTriggers + 1 := by show _ < 37; omega
    have r1 : rnd (1 : ℚ) = fin 1 := by simpa using rnd_nat 1 (by norm_num)
    have r720 : rnd (720 : ℚ) = fin 720 := by simpa using rnd_nat 720 (by norm_num)
    have hwq : (w.toNat : ℚ) ≤ d.rpmWindowSize.toNat := by exact_mod_cast hw1
    have hwq1 : (1 : ℚ) ≤ w.toNat := by exact_mod_cast h1.le
    have hg9 := hw.g9
    obtain ⟨q, hq, hq1, hq2⟩ : ∃ q, d.degreesPerTrigger * Fl.ofU32 w = .fin q ∧ 1 ≤ q ∧ q ≤ 720 := by
      unfold Fl.ofU32
      rw [rnd_nat w.toNat (by omega), hw.pitch, Fl.fin_mul]
      exact rnd_between (by nlinarith) (by nlinarith) r1 r720
    obtain ⟨r, hr, -⟩ := rpm_total (t := d.times 0 - d.times ⟨w.toNat, hlt⟩) (q := q) (by
      have := hne w.toNat hlt (by omega)
      by_contra hc
      apply this
      have h0 : (d.times 0 - d.times ⟨w.toNat, hlt⟩).toNat = 0 := by omega
      bv_omega) hq1 (by norm_num; linarith)
    obtain ⟨cc, hcc⟩ := evenWindowRpm_ok (r := r) hx h1 (timeAt_ok d hlt) (timeAt_ok d (i := 0) (by decide)) (by rw [hq]; exact hr)
    exact ⟨_, hcc⟩
  · unfold evenWindowRpm
    simp only
    rw [if_neg h1]
    exact ⟨_, rfl⟩

/-- A speed of zero is excessive variation. -/
theorem excessive_zero {d : Decoder} {v : ℚ} (hv : d.maxRpmChange = .fin v) (h0 : d.rpm.toNat = 0) (h1 : 1 ≤ d.toothRpm.toNat) :
    evenExcessive d = true := by
  have hz : Fl.ofU32 d.rpm = fin 0 := by
    unfold Fl.ofU32
    rw [h0]
    simp
  obtain ⟨y, hy, hy1, -⟩ := rnd_u32_pos d.toothRpm.toNat h1 d.toothRpm.isLt
  have ho : Fl.ofU32 d.toothRpm = fin y := hy
  have hl : Fl.lt (Fl.ofU32 d.rpm + Fl.ofU32 d.rpm * d.maxRpmChange) (Fl.ofU32 d.toothRpm) = true := by
    rw [hz, hv, ho, Fl.fin_mul, zero_mul, rnd_zero, Fl.fin_add, add_zero, rnd_zero]
    simp only [lt_fin, decide_eq_true_eq]
    linarith
  unfold evenExcessive
  rw [hl]
  simp

/-- A tooth of an even wheel. -/
theorem evenUpdate_safe {d : Decoder} {g v : ℚ} (hw : WheelSafe d g v) (hty : d.type = .evenNosync ∨ d.type = .evenCamsync)
    (hh : HistSp d.times d.currentTriggersRpm.toNat) (hc : 2 ≤ d.currentTriggersRpm.toNat)
    (hne : ∀ i (h : i < maxTriggers + 1), 0 < i → d.times 0 ≠ d.times ⟨i, h⟩) :
    ∃ d', evenUpdateRpm d = .ok d' ∧ (d'.state ≠ .nosync → Alive d') := by
  have hsp := hist_span hh 1 (by decide) (by omega)
  have hg9 := hw.g9
  have hdq : ((d.times 0 - d.times 1).toNat : ℚ) ≤ 5000000 := by
    have := hsp.2
    exact_mod_cast (by simpa using this)
  obtain ⟨tr, htr, htr1⟩ := rpm_total (t := d.times 0 - d.times 1) (q := g) (by
      have := hsp.1
      show 0 < (d.times 0 - d.times ⟨1, _⟩).toNat
      omega) (by linarith) (by have := hw.g180; norm_num; linarith)
  have htr1 := htr1 (by linarith)
  have hw' : WheelSafe { d with toothRpm := tr } g v := hw.of_cfg rfl
  obtain ⟨d1, hd1⟩ := evenWindowRpm_safe hw' hty hne
  have r23 : rnd ((2 : ℚ) ^ 23) = fin (2 ^ 23) := by simpa using rnd_pow 23 (by norm_num)
  have r24 : rnd ((2 : ℚ) ^ 24) = fin (2 ^ 24) := by simpa using rnd_pow 24 (by norm_num)
  obtain ⟨y, hy, hy1, hy2⟩ := rnd_between (x := ((d.times 0 - d.times 1).toNat : ℚ)) (Nat.cast_nonneg _)
    (le_trans hdq (by norm_num)) rnd_zero r23
  obtain ⟨z, hz, hz1, hz2⟩ := rnd_between (x := y * (3 / 2)) (by positivity) (by norm_num at *; linarith) rnd_zero r24
  obtain ⟨x, hx, -⟩ := toU32_fin hz1 (by norm_num at *; linarith)
  have hext : Fl.toU32 (Fl.ofU32 (d.times 0 - d.times 1) * Fl.fin (3 / 2)) = .ok x := by
    unfold Fl.ofU32
    rw [hy, Fl.fin_mul, hz, hx]
  have hok := evenUpdateRpm_ok (timeAt_ok d (i := 0) (by decide)) (timeAt_ok d (i := 1) (by decide))
    (by rw [hw.pitch]; exact htr) hd1 hext
  refine ⟨_, hok, fun hs => ?_⟩
  obtain ⟨r, cc, rfl⟩ := evenWindowRpm_frame hd1
  obtain ⟨s, l, hcf, -⟩ := evenChecks_frame { d with toothRpm := tr, rpm := r, curRpmChange := cc }
  have hs' : (evenChecks { d with toothRpm := tr, rpm := r, curRpmChange := cc }).state ≠ .nosync := hs
  rw [hcf]
  refine ⟨?_, htr1⟩
  show 1 ≤ r.toNat
  by_contra h0
  have hex := excessive_zero (d := { d with toothRpm := tr, rpm := r, curRpmChange := cc }) hw.tolerance
    (by show r.toNat = 0; omega) htr1
  apply hs'
  unfold evenChecks
  rw [if_pos hex]
  simp only
  split_ifs <;> rfl

theorem evenTrigger_safe {d : Decoder} {g v : ℚ} {t : Time} (hd : DecSafe d g v) (hty : d.type = .evenNosync ∨ d.type = .evenCamsync)
    (hs : 0 < d.currentTriggersRpm.toNat → 1 ≤ (t - d.times 0).toNat ∧ (t - d.times 0).toNat ≤ 5000000)
    (hne : ∀ i, t ≠ d.times i) :
    ∃ d' b, evenTriggerUpdate d t = .ok (d', b) ∧ (d'.state ≠ .nosync → Alive d') ∧
      HistSp d'.times d'.currentTriggersRpm.toNat := by
  obtain ⟨hW, hR2, hR36, hN1, hN37⟩ := hd.wheel.teeth
  obtain ⟨c, s, hb, h1, h2, h3⟩ := evenBook_frame d t
  obtain ⟨a, lt, ha⟩ := evenAdvance_frame (evenBook d t) t
  have hc : c.toNat ≤ d.currentTriggersRpm.toNat + 1 := by
    rcases h2 with h2 | h2
    · omega
    · rw [h2]; omega
  have hhist : HistSp (pushTime d t).times c.toNat := hist_push hd.hist hs hc
  have hRc : s ≠ .nosync → d.requiredTriggersRpm.toNat ≤ c.toNat := by
    intro hsn
    rcases h3 hsn with h | h
    · have := hd.req h
      rcases h2 with h2 | h2
      · omega
      · rw [h2]; exact this
    · exact h
  unfold evenTriggerUpdate
  simp only
  rw [ha, hb]
  simp only
  split_ifs with hst
  · have hsn : s ≠ .nosync := by rcases hst with h | h <;> (rw [h]; decide)
    have := hRc hsn
    obtain ⟨d', hd', hal⟩ := evenUpdate_safe (d := { pushTime d t with
        triggersSinceLastSync := d.triggersSinceLastSync + 1, currentTriggersRpm := c, state := s, lastTriggerAngle := a,
        lastTriggerTime := lt }) (g := g) (v := v) (hd.wheel.of_cfg rfl) hty hhist (by show 2 ≤ c.toNat; omega) (by
      intro i hi h0
      show (pushTime d t).times 0 ≠ (pushTime d t).times ⟨i, hi⟩
      unfold pushTime
      simp only [Fin.val_zero, dif_pos]
      rw [dif_neg (by omega)]
      exact hne _)
    obtain ⟨tr, r, cc, s', l, e, hfr, -⟩ := evenUpdateRpm_frame hd'
    rw [hd', except_bind_ok]
    refine ⟨d', true, rfl, hal, ?_⟩
    rw [hfr]
    exact hhist
  · refine ⟨_, _, rfl, fun h => absurd ?_ hst, hhist⟩
    revert h
    cases s <;> simp

omit [FloatFmt] in
/-- What the end of a decode step leaves. -/
structure Ended (d : Decoder) (o : DecOut) : Prop where
  times : o.d.times = d.times
  cur : o.d.currentTriggersRpm.toNat ≤ d.currentTriggersRpm.toNat
  state : o.d.state = d.state ∨ o.d.state = .nosync
  alive : Alive d → Alive o.d

omit [FloatFmt] in
theorem decodeFinish_ended (s : DecState) (d : Decoder) (ex : Option Time) : Ended d (decodeFinish s d ex) := by
  unfold decodeFinish
  split_ifs
  · exact ⟨rfl, Nat.le_refl _, .inl rfl, id⟩
  · exact ⟨rfl, Nat.zero_le _, .inr rfl, id⟩
  · exact ⟨rfl, Nat.le_refl _, .inl rfl, id⟩

theorem camFinish_ended (w : Bool) (d : Decoder) (ex : Option Time) : Ended d (camFinish w d ex) := by
  unfold camFinish
  simp only
  split_ifs
  all_goals first
    | exact ⟨rfl, Nat.le_refl _, .inl rfl, id⟩
    | exact ⟨rfl, Nat.zero_le _, .inr rfl, id⟩

omit [FloatFmt] in
theorem Ended.hist {d : Decoder} {o : DecOut} (h : Ended d o) (hh : HistSp d.times d.currentTriggersRpm.toNat) :
    HistSp o.d.times o.d.currentTriggersRpm.toNat := by
  rw [h.times]
  exact hist_mono hh h.cur

omit [FloatFmt] in
theorem Ended.sync {d : Decoder} {o : DecOut} (h : Ended d o) {s : DecState} (hs : s ≠ .nosync) (ho : o.d.state = s)  :
    d.state = s := by
  rcases h.state with h1 | h1
  · rw [← h1, ho]
  · rw [h1] at ho; exact absurd ho.symm hs

/-- A missing-tooth step: the tooth, then the speeds. -/
theorem missing_step {d d1 : Decoder} {g v : ℚ} {t : Time} {b : Bool} (hd : DecSafe d g v)
    (hty : d.type = .missingNosync ∨ d.type = .missingCamsync)
    (hs : 0 < d.currentTriggersRpm.toNat → 1 ≤ (t - d.times 0).toNat ∧ (t - d.times 0).toNat ≤ 5000000)
    (h : missingTriggerUpdate d t = .ok (d1, b)) (d2 : Decoder)
    (h2 : ∃ va x y, d2 = { d1 with valid := va, camThis := x, camLast := y }) :
    ∃ d3, missingRpms d2 = .ok d3 ∧ HistSp d3.times d3.currentTriggersRpm.toNat ∧
      (d3.state = .sync → Alive d3) ∧ (Alive d → Alive d3) := by
  obtain ⟨va, x, y, h2⟩ := h2
  obtain ⟨c, s, cc, k, a, lt, e, l, hd1, hc, hq, -, -, -, -⟩ := missingTriggerUpdate_frame h
  have hwas := mtu_was_sync h
  have hc' : c.toNat ≤ d.currentTriggersRpm.toNat + 1 := by
    rcases hc with hc | hc
    · omega
    · rw [hc]; omega
  have hhist : HistSp (pushTime d t).times c.toNat := hist_push hd.hist hs hc'
  have hst : d2.state = s := by rw [h2, hd1]
  obtain ⟨tr, r, hok, hr1, hr2⟩ := missingRpms_safe (d := d2) (g := g) (v := v) (hd.wheel.of_cfg (by rw [h2, hd1]; rfl))
    (by rw [h2, hd1]; exact hty) (by rw [h2, hd1]; exact hhist)
    (by
      rw [h2, hd1]
      intro hsn
      show d.requiredTriggersRpm.toNat ≤ c.toNat
      rcases hq hsn with h | h
      · have := hd.req h
        rcases hc with hc | hc
        · omega
        · rw [hc]; exact this
      · exact h)
    (by
      rw [h2]
      intro h1 h3
      have := (hd.awake (hwas h1 h3)).1
      rw [hd1]
      exact this)
  refine ⟨_, hok, ?_, fun h => hr1 h, fun h => hr2 ?_⟩
  · show HistSp d2.times d2.currentTriggersRpm.toNat
    rw [h2, hd1]
    exact hhist
  · rw [h2, hd1]; exact h

/-- A pulse that is not a tooth, on a missing-tooth wheel. -/
theorem missing_other {d : Decoder} {g v : ℚ} (hd : DecSafe d g v)
    (hty : d.type = .missingNosync ∨ d.type = .missingCamsync) (d2 : Decoder)
    (h2 : ∃ va x, d2 = { d with valid := va, camThis := x }) :
    ∃ d3, missingRpms d2 = .ok d3 ∧ HistSp d3.times d3.currentTriggersRpm.toNat ∧
      (d3.state = .sync → Alive d3) ∧ (Alive d → Alive d3) := by
  obtain ⟨va, x, h2⟩ := h2
  obtain ⟨tr, r, hok, hr1, hr2⟩ := missingRpms_safe (d := d2) (g := g) (v := v) (hd.wheel.of_cfg (by rw [h2]; rfl))
    (by rw [h2]; exact hty) (by rw [h2]; exact hd.hist) (by rw [h2]; exact hd.req)
    (by rw [h2]; exact fun h1 _ => (hd.awake h1).1)
  refine ⟨_, hok, ?_, fun h => hr1 h, fun h => hr2 ?_⟩
  · show HistSp d2.times d2.currentTriggersRpm.toNat
    rw [h2]
    exact hd.hist
  · rw [h2]; exact h

/-- A trigger of any kind, on any of the four wheels, is decoded without a fault. -/
theorem decode_safe {d : Decoder} {g v : ℚ} {k : Int} {t : Time} (hd : DecSafe d g v) (hsp : Spaced d k t) :
    ∃ o, decode d k t = .ok o ∧ DecSafe o.d g v ∧
      (d.type = .missingNosync ∨ d.type = .missingCamsync → Alive d → Alive o.d) := by
  suffices h : ∃ o, decode d k t = .ok o ∧ HistSp o.d.times o.d.currentTriggersRpm.toNat ∧ (o.d.state = .sync → Alive o.d) ∧
      (d.type = .evenNosync ∨ d.type = .evenCamsync → o.d.state = .rpm → Alive o.d) ∧
      (d.type = .missingNosync ∨ d.type = .missingCamsync → Alive d → Alive o.d) by
    obtain ⟨o, h1, h2, h3, h4, h5⟩ := h
    exact ⟨o, h1, decSafe_of h1 hd h2 h3 h4, h5⟩
  unfold decode
  cases ht : d.type
  all_goals simp only
  · obtain ⟨hs1, hs2⟩ := hsp (.inr ht)
    obtain ⟨d1, b, h1, h2, h3⟩ := evenTrigger_safe hd (.inl ht) hs1 (hs2 (.inl ht))
    unfold decodeEvenNosync
    rw [h1, except_bind_ok]
    simp only
    split_ifs with h5 h6
    · have ha := h2 (by rcases h5 with h | h <;> (rw [h]; decide))
      exact ⟨_, rfl, h3, fun _ => ha, fun _ _ => ha, fun h => by rcases h with h | h <;> cases h⟩
    · refine ⟨_, rfl, hist_mono h3 (Nat.zero_le _), fun h => (by cases h), fun _ h => (by cases h), fun h => ?_⟩
      rcases h with h | h <;> cases h
    · refine ⟨_, rfl, h3, fun h => absurd (.inr h) h5, fun _ h => absurd (.inl h) h5, fun h => ?_⟩
      rcases h with h | h <;> cases h
  · have fin : ∀ d1 (ex : Option Time), HistSp d1.times d1.currentTriggersRpm.toNat → (d1.state ≠ .nosync → Alive d1) →
        ∃ o, (pure (decodeFinish d.state d1 ex) : Except Fault DecOut) = .ok o ∧ HistSp o.d.times o.d.currentTriggersRpm.toNat ∧
          (o.d.state = .sync → Alive o.d) ∧
          (False ∨ True → o.d.state = .rpm → Alive o.d) ∧ (False ∨ False → Alive d → Alive o.d) := by
      intro d1 ex h3 h2
      have he := decodeFinish_ended d.state d1 ex
      refine ⟨_, rfl, he.hist h3, fun h => he.alive (h2 ?_), fun _ h => he.alive (h2 ?_), fun h => ?_⟩
      · rw [he.sync (by decide) h]; decide
      · rw [he.sync (by decide) h]; decide
      · rcases h with h | h <;> cases h
    have hal : d.state ≠ .nosync → Alive d := by
      intro h
      cases hst : d.state
      · exact absurd hst h
      · exact hd.evenAwake (.inr ht) hst
      · exact hd.awake hst
    unfold decodeEvenCamsync
    simp only
    split_ifs with h0 h1
    · obtain ⟨hs1, hs2⟩ := hsp (.inl h0)
      obtain ⟨d1, b, h1, h2, h3⟩ := evenTrigger_safe hd (.inr ht) hs1 (hs2 (.inr ht))
      rw [h1, except_bind_ok]
      exact fin d1 _ h3 h2
    · apply fin
      · obtain ⟨s, l, a, he, -⟩ := evenSyncUpdate_frame d
        rw [he]; exact hd.hist
      · intro hs
        have h5 : d.state ≠ .nosync := by
          intro hn
          apply hs
          unfold evenSyncUpdate
          rw [if_neg (by rw [hn]; decide), if_neg (by rw [hn]; decide)]
          exact hn
        obtain ⟨s, l, a, he, -⟩ := evenSyncUpdate_frame d
        rw [he]
        exact hal h5
    · exact fin d _ hd.hist hal
  · unfold decodeMissingNosync
    simp only
    split_ifs with h0
    · obtain ⟨hs1, -⟩ := hsp (.inl h0)
      obtain ⟨d1, b, h1⟩ := mtu_safe (t := t) hd.wheel (fun h => (hd.awake h).1)
      obtain ⟨d3, h3, h4, h5, h6⟩ := missing_step hd (.inl ht) hs1 h1 d1 ⟨_, _, _, rfl⟩
      rw [h1, except_bind_ok]
      simp only
      rw [h3, except_bind_ok]
      have he := decodeFinish_ended d.state d3 (expireReq d1 b)
      refine ⟨_, rfl, he.hist h4, fun h => he.alive (h5 (he.sync (by decide) h)), fun h => ?_, fun _ h => he.alive (h6 h)⟩
      rcases h with h | h <;> cases h
    · obtain ⟨d3, h3, h4, h5, h6⟩ := missing_other hd (.inl ht) d ⟨_, _, rfl⟩
      rw [h3, except_bind_ok]
      have he := decodeFinish_ended d.state d3 none
      refine ⟨_, rfl, he.hist h4, fun h => he.alive (h5 (he.sync (by decide) h)), fun h => ?_, fun _ h => he.alive (h6 h)⟩
      rcases h with h | h <;> cases h
  · unfold decodeMissingCamsync
    simp only
    by_cases h0 : k = 0
    · rw [if_pos h0]
      obtain ⟨hs1, -⟩ := hsp (.inl h0)
      obtain ⟨d1, b, h1⟩ := mtu_safe (t := t) hd.wheel (fun h => (hd.awake h).1)
      obtain ⟨va, x, y, hr, -⟩ := camRotation_frame d1
      obtain ⟨d3, h3, h4, h5, h6⟩ := missing_step hd (.inr ht) hs1 h1 (camRotation d1) ⟨va, x, y, hr⟩
      rw [h1, except_bind_ok]
      simp only
      rw [h3, except_bind_ok]
      have he := camFinish_ended d.valid d3 (expireReq d1 b)
      refine ⟨_, rfl, he.hist h4, fun h => he.alive (h5 (he.sync (by decide) h)), fun h => ?_, fun _ h => he.alive (h6 h)⟩
      rcases h with h | h <;> cases h
    · rw [if_neg h0]
      have hx : ∃ va x, (if k = 1 then camPulse d else d) = { d with valid := va, camThis := x } := by
        split_ifs
        · obtain ⟨va, x, h, -⟩ := camPulse_frame d
          exact ⟨va, x, h⟩
        · exact ⟨_, _, rfl⟩
      obtain ⟨d3, h3, h4, h5, h6⟩ := missing_other hd (.inr ht) _ hx
      rw [h3, except_bind_ok]
      have he := camFinish_ended d.valid d3 none
      refine ⟨_, rfl, he.hist h4, fun h => he.alive (h5 (he.sync (by decide) h)), fun h => ?_, fun _ h => he.alive (h6 h)⟩
      rcases h with h | h <;> cases h

omit [FloatFmt] in
/-- Losing sync for any reason leaves the decoder in the same shape. -/
theorem invalidate_safe {d : Decoder} {g v : ℚ} (h : DecSafe d g v) : DecSafe (invalidateDecoder d) g v := by
  refine ⟨h.wheel.of_cfg rfl, hist_mono h.hist (Nat.zero_le _), Nat.zero_le _, fun hs => absurd rfl hs, fun hv => (by cases hv),
    fun hs => (by cases hs), fun _ hs => (by cases hs), fun _ hs => (by cases hs), h.angle⟩

end Verif
