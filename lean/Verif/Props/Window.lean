/-
C35 windowed sensors.
-/
import Verif.Props.Sensors
import Verif.Spec.Window

namespace Verif
open Fl FloatFmt

theorem exact_turn (q : ℚ) : @clampAngle exactFmt (fin q) (fin 720) = .ok (fin (turn720 q)) := by
  obtain ⟨r, h, -, hu⟩ := C03_exact q 720 (by norm_num)
  rw [h, ← hu (turn720 q)]
  unfold turn720
  have h1 := Int.floor_le (q / 720)
  have h2 := Int.lt_floor_add_one (q / 720)
  rw [le_div_iff₀ (by norm_num)] at h1
  rw [div_lt_iff₀ (by norm_num)] at h2
  exact ⟨by linarith, by linarith, -⌊q / 720⌋, by push_cast; ring⟩

theorem windowLoop_spec [FloatFmt] (w : Window) (cur : ℚ) (ht : 0 < w.totalWidth.toNat)
    (ht2 : w.totalWidth.toNat ≤ 2 ^ 16) (hc : w.captureWidth.toNat ≤ 2 ^ 16) (fuel : Nat) :
    ∀ i : BitVec 32, i.toNat ≤ 2 ^ 17 → 720 < i.toNat + fuel → 0 < fuel → ∃ b, windowLoop w (fin cur) fuel i = .ok b ∧
      (b = true ↔ ∃ k : ℕ, i.toNat + k * w.totalWidth.toNat < 720 ∧
        ((i.toNat + k * w.totalWidth.toNat : ℕ) : ℚ) ≤ cur ∧
        cur < (i.toNat + k * w.totalWidth.toNat + w.captureWidth.toNat : ℕ)) := by
  induction fuel with
  | zero =>
    intro i _ _ h
    omega
  | succ fuel ih =>
    intro i hi hf _
    unfold windowLoop
    by_cases h720 : i.toNat < 720
    · rw [if_pos h720]
      have e1 : Fl.ofU32 i = fin (i.toNat : ℚ) := rnd_nat _ (by omega)
      have hsum : (i + w.captureWidth).toNat = i.toNat + w.captureWidth.toNat := by
        rw [BitVec.toNat_add]; omega
      have e2 : Fl.ofU32 (i + w.captureWidth) = fin ((i.toNat + w.captureWidth.toNat : ℕ) : ℚ) := by
        unfold Fl.ofU32
        rw [hsum]; exact rnd_nat _ (by omega)
      rw [e1, e2]
      simp only [le_fin, lt_fin, Bool.and_eq_true, decide_eq_true_iff]
      by_cases hin : (i.toNat : ℚ) ≤ cur ∧ cur < (i.toNat + w.captureWidth.toNat : ℕ)
      · rw [if_pos hin]
        exact ⟨true, rfl, fun _ => ⟨0, by simpa using h720, by simpa using hin.1, by simpa using hin.2⟩, fun _ => rfl⟩
      · rw [if_neg hin]
        have hs : (i + w.totalWidth).toNat = i.toNat + w.totalWidth.toNat := by
          rw [BitVec.toNat_add]; omega
        obtain ⟨b, hb, hiff⟩ := ih (i + w.totalWidth) (by omega) (by omega) (by omega)
        refine ⟨b, hb, hiff.trans ?_⟩
        rw [hs]
        constructor
        · rintro ⟨k, h1, h2, h3⟩
          have : i.toNat + (k + 1) * w.totalWidth.toNat = i.toNat + w.totalWidth.toNat + k * w.totalWidth.toNat := by ring
          exact ⟨k + 1, by rw [this]; exact h1, by rw [this]; exact h2, by rw [this]; exact h3⟩
        · rintro ⟨k, h1, h2, h3⟩
          rcases k with _ | k
          · exact absurd ⟨by simpa using h2, by simpa using h3⟩ hin
          · have : i.toNat + (k + 1) * w.totalWidth.toNat = i.toNat + w.totalWidth.toNat + k * w.totalWidth.toNat := by ring
            rw [this] at h1 h2 h3
            exact ⟨k, h1, h2, h3⟩
    · rw [if_neg h720]
      refine ⟨false, rfl, fun h => by simp at h, ?_⟩
      rintro ⟨k, h1, -⟩
      omega

/-- The test "is the crank in a capture window" is the geometric one. -/
theorem angleInWindow_spec (w : Window) (angle : ℚ) (ht : 0 < w.totalWidth.toNat)
    (ht2 : w.totalWidth.toNat ≤ 2 ^ 16) (hc : w.captureWidth.toNat ≤ 2 ^ 16) :
    ∃ b, @angleInWindow exactFmt w (fin angle) = .ok b ∧
      (b = true ↔ InCapture w.captureWidth.toNat w.totalWidth.toNat w.offset.toNat angle) := by
  let _ := exactFmt
  unfold angleInWindow
  have e : (fin angle - Fl.ofU32 w.offset : Fl) = fin (angle - w.offset.toNat) := by
    unfold Fl.ofU32; simp only [exact_rnd, fin_sub]
  rw [e, exact_turn]
  simp only [except_bind_ok]
  obtain ⟨b, hb, hiff⟩ := windowLoop_spec w (turn720 (angle - w.offset.toNat)) ht ht2 hc 722 0 (by decide) (by decide) (by decide)
  refine ⟨b, hb, hiff.trans ?_⟩
  unfold InCapture
  simp

/-- The firmware's window state represents the specification's. -/
def WinRep (w : Window) (st : WinSt) : Prop :=
  w.collecting = decide (st.samples ≠ []) ∧
  (st.samples ≠ [] → w.accumulator = fin st.samples.sum ∧ w.samples = BitVec.ofNat 32 st.samples.length ∧
    w.startAngle = fin st.start)

/-- C35: one sample of a windowed sensor with the engine turning.  The reported value is the mean of
exactly the samples of the window just completed, or the previous value if no window is completed; the
sample then belongs to the open window, if the angle is in a capture window. -/
theorem C35_step (rpm : BitVec 32) (s : Sensor) (st : WinSt) (angle x : ℚ) (hrpm : rpm ≠ 0)
    (ht : 0 < s.window.totalWidth.toNat) (ht2 : s.window.totalWidth.toNat ≤ 2 ^ 16)
    (hc : s.window.captureWidth.toNat ≤ 2 ^ 16) (hx : @convertLinear exactFmt s = fin x)
    (hstart : ∃ q, s.window.startAngle = fin q) (hlen : st.samples.length < 2 ^ 32) (hrep : WinRep s.window st) :
    ∃ w v, @convertWindowed exactFmt rpm s (fin angle) = .ok (w, v) ∧
      let r := st.step s.window.captureWidth.toNat s.window.totalWidth.toNat s.window.offset.toNat angle x
      v = (match r.2 with | some m => fin m | none => s.value) ∧ WinRep w r.1 ∧
      w.captureWidth = s.window.captureWidth ∧ w.totalWidth = s.window.totalWidth ∧ w.offset = s.window.offset ∧
      ∃ q, w.startAngle = fin q := by
  let _ := exactFmt
  obtain ⟨inside, hin, hiff⟩ := angleInWindow_spec s.window angle ht ht2 hc
  obtain ⟨q0, hq0⟩ := hstart
  obtain ⟨hcol, hopen⟩ := hrep
  -- the window is over
  obtain ⟨over, hover, hoiff⟩ : ∃ over, windowOver s.window (fin angle) inside = .ok over ∧
      (st.samples ≠ [] → (over = true ↔
        (¬ InCapture s.window.captureWidth.toNat s.window.totalWidth.toNat s.window.offset.toNat angle ∨
          (s.window.captureWidth.toNat : ℚ) ≤ turn720 (angle - st.start)))) := by
    unfold windowOver
    cases inside with
    | false =>
      refine ⟨true, rfl, fun _ => ⟨fun _ => Or.inl fun h => ?_, fun _ => rfl⟩⟩
      have := hiff.mpr h
      cases this
    | true =>
      rw [hq0]
      simp only [if_true, fin_sub, exact_rnd, exact_turn, except_bind_ok, except_pure]
      refine ⟨_, rfl, fun hs => ?_⟩
      have := (hopen hs).2.2
      rw [hq0] at this
      cases this
      unfold Fl.ofU32
      simp only [exact_rnd, le_fin, decide_eq_true_iff]
      have hI := hiff.mp rfl
      tauto
  unfold convertWindowed
  rw [if_neg hrpm, hin]
  simp only [except_bind_ok, hover]
  have hlen32 : st.samples ≠ [] → s.window.samples ≠ 0 := by
    intro hs
    rw [(hopen hs).2.1]
    intro h0
    have := congrArg BitVec.toNat h0
    rw [BitVec.toNat_ofNat, Nat.mod_eq_of_lt hlen] at this
    have h1 := List.length_pos_iff.mpr hs
    simp at this
    exact hs this
  by_cases hdone : Complete s.window.captureWidth.toNat s.window.totalWidth.toNat s.window.offset.toNat st angle
  · -- a window is completed
    obtain ⟨hs, hov⟩ := hdone
    have ho : over = true := (hoiff hs).mpr hov
    have hclose : windowClose s over = ({ s.window with collecting := false }, fin (mean st.samples)) := by
      unfold windowClose
      rw [ho, hcol, decide_eq_true hs]
      simp only [Bool.true_and, decide_eq_true_iff, hlen32 hs, ne_eq, not_false_eq_true, if_true]
      congr 1
      rw [(hopen hs).1, (hopen hs).2.1]
      unfold Fl.ofU32 mean
      rw [BitVec.toNat_ofNat, Nat.mod_eq_of_lt hlen]
      rw [exact_rnd, fin_div _ _ (by exact_mod_cast (List.length_pos_iff.mpr hs).ne'), exact_rnd]
    rw [hclose]
    have hd : Complete s.window.captureWidth.toNat s.window.totalWidth.toNat s.window.offset.toNat st angle := ⟨hs, hov⟩
    unfold WinSt.step
    simp only [hd, if_true]
    cases inside with
    | true =>
      have hI := hiff.mp rfl
      simp only [hI, if_true]
      refine ⟨_, _, rfl, rfl, ⟨?_, fun _ => ⟨?_, ?_, ?_⟩⟩, rfl, rfl, rfl, ⟨angle, rfl⟩⟩
      · simp [windowAccumulate]
      · simp [windowAccumulate, hx]
      · simp [windowAccumulate]
      · simp [windowAccumulate]
    | false =>
      have hI : ¬ InCapture s.window.captureWidth.toNat s.window.totalWidth.toNat s.window.offset.toNat angle :=
        fun h => by have := hiff.mpr h; cases this
      simp only [hI, if_false]
      exact ⟨_, _, rfl, rfl, ⟨by simp, fun h => absurd rfl h⟩, rfl, rfl, rfl, ⟨q0, hq0⟩⟩
  · have hclose : windowClose s over = (s.window, s.value) := by
      unfold windowClose
      rw [hcol, if_neg]
      intro h
      simp only [Bool.and_eq_true, decide_eq_true_iff] at h
      exact hdone ⟨h.1.2, (hoiff h.1.2).mp h.1.1⟩
    rw [hclose]
    unfold WinSt.step
    simp only [hdone, if_false]
    cases inside with
    | true =>
      have hI := hiff.mp rfl
      simp only [hI, if_true]
      refine ⟨_, _, rfl, rfl, ?_, ?_⟩
      · by_cases hs : st.samples = []
        · rw [hs] at hcol ⊢
          refine ⟨by simp [windowAccumulate], fun _ => ⟨?_, ?_, ?_⟩⟩
          · simp [windowAccumulate, hcol, hx]
          · simp [windowAccumulate, hcol]
          · simp [windowAccumulate, hcol]
        · obtain ⟨o1, o2, o3⟩ := hopen hs
          rw [decide_eq_true hs] at hcol
          refine ⟨by simp [windowAccumulate], fun _ => ⟨?_, ?_, ?_⟩⟩
          · simp [windowAccumulate, hcol, hx, o1]
          · simp only [windowAccumulate, hcol, if_true, o2, List.length_append, List.length_cons, List.length_nil]
            rw [BitVec.ofNat_add]; rfl
          · simp [windowAccumulate, hcol, o3, hs]
      · refine ⟨?_, ?_, ?_, ?_⟩
        · unfold windowAccumulate; split_ifs <;> rfl
        · unfold windowAccumulate; split_ifs <;> rfl
        · unfold windowAccumulate; split_ifs <;> rfl
        · unfold windowAccumulate
          split_ifs
          · exact ⟨q0, hq0⟩
          · exact ⟨angle, rfl⟩
    | false =>
      have hI : ¬ InCapture s.window.captureWidth.toNat s.window.totalWidth.toNat s.window.offset.toNat angle :=
        fun h => by have := hiff.mpr h; cases this
      simp only [hI, if_false]
      exact ⟨_, _, rfl, rfl, ⟨hcol, hopen⟩, rfl, rfl, rfl, ⟨q0, hq0⟩⟩

/-- C35: with the engine stopped the sensor follows the linear reading (any float format). -/
theorem C35_stopped [FloatFmt] (s : Sensor) (angle : Fl) : convertWindowed 0 s angle = .ok (s.window, convertLinear s) := by
  unfold convertWindowed; rw [if_pos rfl]

/-- Violation: a total width of 0 (settable from the console) makes the firmware hang on the first sample
outside the first capture window: no number of turns of the loop is enough. -/
theorem C35_zero_width_hangs [FloatFmt] (w : Window) (cur : ℚ) (h0 : w.totalWidth = 0)
    (hc : w.captureWidth.toNat ≤ 2 ^ 16) (hout : (w.captureWidth.toNat : ℚ) ≤ cur) (fuel : Nat) :
    windowLoop w (fin cur) fuel 0 = .error .diverge := by
  induction fuel with
  | zero => rfl
  | succ fuel ih =>
    unfold windowLoop
    have e2 : Fl.ofU32 (0 + w.captureWidth) = fin (w.captureWidth.toNat : ℚ) := by
      rw [show (0 : BitVec 32) + w.captureWidth = w.captureWidth from BitVec.zero_add _]; exact rnd_nat _ (by omega)
    rw [if_pos (by decide), e2, if_neg (by simp [not_lt.mpr hout]), h0]
    exact ih

theorem processDerivative_ok [FloatFmt] (rate : BitVec 32) (s : Sensor) (v : Fl) (h : rate ≠ 0) :
    ∃ r, processDerivative rate s v = .ok r := by
  unfold processDerivative
  rw [if_neg h, timeFromUs_eq]
  · exact ⟨_, rfl⟩
  · have := Nat.div_le_self 1000000 rate.toNat
    rw [BitVec.toNat_ofNat]
    have := Nat.mod_le (1000000 / rate.toNat) (2 ^ 32)
    omega

/-- A sequence of updates of one windowed sensor while the engine turns: the angle and raw value at each. -/
inductive SampleHist [FloatFmt] [LibM] (rate : BitVec 32) : Sensor → List (ℚ × ℚ) → Sensor → Prop
  | nil (s : Sensor) : SampleHist rate s [] s
  | cons {s s' s'' : Sensor} {d : Decoder} {now t : Time} {a raw : ℚ} {l : List (ℚ × ℚ)}
      (ha : currentAngle d now = .ok (fin a)) (hrpm : d.rpm ≠ 0)
      (h : sensorConvert rate d now s (fin raw) t = .ok s') (p : SampleHist rate s' l s'') :
      SampleHist rate s ((a, raw) :: l) s''

/-- The specification over a sequence: the open window and the last value reported, if any. -/
noncomputable def WinSt.run (capture total offset : ℕ) (line : ℚ → ℚ) : WinSt → Option ℚ → List (ℚ × ℚ) → WinSt × Option ℚ
  | st, v, [] => (st, v)
  | st, v, (a, raw) :: l =>
    let r := st.step capture total offset a (line raw)
    WinSt.run capture total offset line r.1 (r.2.or v) l

theorem WinSt.step_length (capture total offset : ℕ) (st : WinSt) (angle x : ℚ) :
    (st.step capture total offset angle x).1.samples.length ≤ st.samples.length + 1 := by
  unfold WinSt.step
  simp only
  split_ifs <;> simp

/-- C35 over every sequence of updates: the sensor reads the mean of exactly the samples of the last
complete window, and its initial value until there is one. -/
theorem C35_history [LibM] {rate : BitVec 32} {s s' : Sensor} {l : List (ℚ × ℚ)} {a b lo hi : ℚ} {st : WinSt}
    {v : Option ℚ} {init : Fl}
    (p : @SampleHist exactFmt _ rate s l s') (hm : s.method = .linearWindowed) (hlag : s.lag = fin 0)
    (ht : 0 < s.window.totalWidth.toNat) (ht2 : s.window.totalWidth.toNat ≤ 2 ^ 16)
    (hc : s.window.captureWidth.toNat ≤ 2 ^ 16)
    (ha : s.rawMin = fin a) (hb : s.rawMax = fin b) (hlo : s.rangeMin = fin lo) (hhi : s.rangeMax = fin hi)
    (hab : a ≠ b) (hok : ∀ x ∈ l, detectFaults { s with rawValue := fin x.2 } = .none)
    (hstart : ∃ q, s.window.startAngle = fin q) (hrep : WinRep s.window st)
    (hlen : st.samples.length + l.length < 2 ^ 32)
    (hval : s.value = match v with | some m => fin m | none => init) :
    let r := st.run s.window.captureWidth.toNat s.window.totalWidth.toNat s.window.offset.toNat
      (fun raw => lo + (raw - a) / (b - a) * (hi - lo)) v l
    s'.value = (match r.2 with | some m => fin m | none => init) ∧ WinRep s'.window r.1 := by
  let _ := exactFmt
  induction p generalizing st v with
  | nil s => exact ⟨hval, hrep⟩
  | @cons s s1 s'' d now t ang raw l hang hrpm h p ih =>
    have hba : b - a ≠ 0 := sub_ne_zero.mpr (Ne.symm hab)
    have hx : convertLinear { s with rawValue := fin raw, time := t } =
        fin (lo + (raw - a) / (b - a) * (hi - lo)) := by
      unfold convertLinear
      simp only
      rw [ha, hb, hlo, hhi]
      simp only [feq_fin, decide_eq_true_iff]
      rw [if_neg (Ne.symm hab)]
      simp only [fin_sub, exact_rnd, fin_mul, fin_add, fin_div _ _ hba]
    obtain ⟨w, r, hw, hr, hrep', hc', ht', ho', hq'⟩ := C35_step d.rpm { s with rawValue := fin raw, time := t } st ang
      (lo + (raw - a) / (b - a) * (hi - lo)) hrpm ht ht2 hc hx hstart (by omega) hrep
    have hdet : detectFaults { s with rawValue := fin raw, time := t } = .none := hok (ang, raw) (List.mem_cons_self ..)
    unfold sensorConvert at h
    simp only at h
    rw [if_neg (by rw [hdet]; simp)] at h
    unfold convertByMethod at h
    simp only [hm] at h
    rw [hang] at h
    simp only [except_bind_ok] at h
    rw [← hm] at h
    rw [hw] at h
    simp only [except_bind_ok] at h
    obtain ⟨dv, h3, h4⟩ := bind_eq_ok.mp h
    have h5 := Except.ok.inj h4
    have hlag' : processLag { s with rawValue := fin raw, time := t } r = r := C34_no_lag _ _ (by simp [hlag])
    rw [hlag'] at h5
    subst h5
    simp only at hr hrep' hc' ht' ho' ih ⊢
    have hl := WinSt.step_length s.window.captureWidth.toNat s.window.totalWidth.toNat s.window.offset.toNat st ang
      (lo + (raw - a) / (b - a) * (hi - lo))
    rw [List.length_cons] at hlen
    have := ih (st := (st.step s.window.captureWidth.toNat s.window.totalWidth.toNat s.window.offset.toNat ang
        (lo + (raw - a) / (b - a) * (hi - lo))).1)
      (v := ((st.step s.window.captureWidth.toNat s.window.totalWidth.toNat s.window.offset.toNat ang
        (lo + (raw - a) / (b - a) * (hi - lo))).2).or v)
      hm hlag (by rw [ht']; exact ht) (by rw [ht']; exact ht2) (by rw [hc']; exact hc) ha hb hlo hhi
      (fun x hx => hok x (List.mem_cons_of_mem _ hx)) hq' hrep' (by omega) (by
        rw [hr]
        rcases (st.step s.window.captureWidth.toNat s.window.totalWidth.toNat s.window.offset.toNat ang
          (lo + (raw - a) / (b - a) * (hi - lo))).2 with _ | m
        · exact hval
        · rfl)
    rw [hc', ht', ho'] at this
    exact this

/-- The shipped manifold pressure sensor meets the hypotheses, at 2.5 V. -/
example : let s := @dfltSensors exactFmt sensorMap
    s.method = .linearWindowed ∧ s.lag = fin 0 ∧ 0 < s.window.totalWidth.toNat ∧ s.window.totalWidth.toNat ≤ 2 ^ 16 ∧
    s.window.captureWidth.toNat ≤ 2 ^ 16 ∧ detectFaults { s with rawValue := fin (5 / 2) } = .none ∧
    WinRep s.window ⟨[], 0⟩ := by
  refine ⟨by decide +kernel, by decide +kernel, by decide +kernel, by decide +kernel, by decide +kernel,
    by decide +kernel, by decide +kernel, fun h => absurd rfl h⟩

/-- Two samples in the window from 120 to 210 degrees, completed at 215 degrees. -/
example : InCapture 90 120 0 150 ∧ ¬ InCapture 90 120 0 215 := by
  have e1 : turn720 (150 - (0 : ℕ)) = 150 := by unfold turn720; norm_num
  have e2 : turn720 (215 - (0 : ℕ)) = 215 := by unfold turn720; norm_num
  unfold InCapture
  rw [e1, e2]
  refine ⟨⟨1, by norm_num, by norm_num, by norm_num⟩, ?_⟩
  rintro ⟨k, h1, h2, h3⟩
  have h2' : k * 120 ≤ 215 := by exact_mod_cast h2
  have h3' : 215 < k * 120 + 90 := by exact_mod_cast h3
  omega

end Verif
