/-
C97: what a windowed sensor reports while the engine turns.  C77: the angle it is given when triggers interrupt the reading of it.
-/
import Verif.Proofs.WindowRun
import Verif.Props.CurrentAngle
import Verif.Model.AngleRead

namespace Verif
open Fl FloatFmt

/-- C77, also when triggers are decoded while the angle is being read: it is the true one if the speed read last is the one at which
the crank has turned since the tooth whose time and angle were read. -/
theorem C77_interrupted_partial [FloatFmt] {θ : ℤ → ℚ} {c : CrankTol} {T n : ℤ} {d0 d1 d2 : Decoder} (hc : c.Sane)
    (h0 : d0.rpm ≠ 0) (h2 : d2.rpm ≠ 0) (h : ReadsCrank θ c T n { d1 with rpm := d2.rpm }) :
    ∃ y, angleRead d0 d1 d2 (stamp n) = .ok (fin y) ∧ 0 ≤ y ∧ y ≤ 720 ∧
      Near (θ n) y (900 * c.speed + c.angle + c.even + 1 / 100) := by
  have e : angleRead d0 d1 d2 (stamp n) = currentAngle { d1 with rpm := d2.rpm } (stamp n) := by
    unfold angleRead currentAngle
    rw [if_neg h0, if_neg (show ({ d1 with rpm := d2.rpm } : Decoder).rpm ≠ 0 from h2)]
  rw [e]
  exact C77_angle_partial hc h

/-- A windowed linear sensor without lag and its windows `g`. -/
structure Windowed (g : WinGeom) (a b lo hi : ℚ) (s : Sensor) : Prop where
  method : s.method = .linearWindowed
  lag : s.lag = fin 0
  capture : s.window.captureWidth.toNat = g.capture
  total : s.window.totalWidth.toNat = g.total
  offset : s.window.offset.toNat = g.offset
  rawMin : s.rawMin = fin a
  rawMax : s.rawMax = fin b
  rangeMin : s.rangeMin = fin lo
  rangeMax : s.rangeMax = fin hi
  raw : a ≠ b
  /-- no window is open -/
  idle : s.window.collecting = false
  start : ∃ q, s.window.startAngle = fin q

/-- The linear conversion. -/
def lineOf (a b lo hi raw : ℚ) : ℚ := lo + (raw - a) / (b - a) * (hi - lo)

/-- C97 as stated: the widths make a cycle, and there are at least two samples in every window. -/
def C97_full : Prop :=
  ∀ [LibM] (rate : BitVec 32) (s s' : Sensor) (l : List (ℚ × ℚ)) (g : WinGeom) (a b lo hi : ℚ),
    @SampleHist exactFmt _ rate s (turned l) s' → Windowed g a b lo hi s → g.Tiles →
    (∀ x ∈ l, detectFaults { s with rawValue := fin x.2 } = .none) → l.length < 2 ^ 32 → SampledEvery (g.capture / 2) l →
    ∃ v, g.Reports (l.map fun x => (x.1, lineOf a b lo hi x.2)) v ∧ s'.value = v.elim s.value fin

/-- C97, what holds: if the crank turns no further between samples than the windows are apart, then at any time the sensor reads the mean of
exactly the samples of the last capture window that is over, and its old value until one is. -/
theorem C97_mean_partial [LibM] {rate : BitVec 32} {s s' : Sensor} {l : List (ℚ × ℚ)} {g : WinGeom} {a b lo hi : ℚ}
    (p : @SampleHist exactFmt _ rate s (turned l) s') (hs : Windowed g a b lo hi s) (hg : g.Tiles)
    (hok : ∀ x ∈ l, detectFaults { s with rawValue := fin x.2 } = .none) (hlen : l.length < 2 ^ 32)
    (hl : SampledEvery (g.total - g.capture) l) :
    ∃ v, g.Reports (l.map fun x => (x.1, lineOf a b lo hi x.2)) v ∧ s'.value = v.elim s.value fin := by
  have ht720 := Nat.le_of_dvd (by norm_num) hg.div
  have hf := hg.fits
  have h := C35_history (st := ⟨[], 0⟩) (v := none) (init := s.value) p hs.method hs.lag (by rw [hs.total]; exact hg.pos)
    (by rw [hs.total]; omega) (by rw [hs.capture]; omega) hs.rawMin hs.rawMax hs.rangeMin hs.rangeMax hs.raw
    (by
      intro x hx
      obtain ⟨y, hy, rfl⟩ := List.mem_map.mp hx
      exact hok y hy) hs.start ⟨by rw [hs.idle]; rfl, fun hh => absurd rfl hh⟩ (by unfold turned; simpa using hlen) rfl
  rw [hs.capture, hs.total, hs.offset] at h
  refine ⟨_, (WinInv.run hg (lineOf a b lo hi) l hl).value, ?_⟩
  rw [h.1]
  show (match (WinSt.run g.capture g.total g.offset (lineOf a b lo hi) ⟨[], 0⟩ none (turned l)).2 with | some m => fin m | none => s.value) = _
  cases (WinSt.run g.capture g.total g.offset (lineOf a b lo hi) ⟨[], 0⟩ none (turned l)).2 <;> rfl

/-- C97: the angle that the sensor is given is the crank's, counted on over the cycles, within the error of the decoder. -/
theorem C97_reads {θ : ℤ → ℚ} {c : CrankTol} {T n : ℤ} {d : Decoder} (hc : c.Sane) (hr : d.rpm ≠ 0) (h : ReadsCrank θ c T n d) :
    ∃ ψ, @currentAngle exactFmt d (stamp n) = .ok (fin (turn720 ψ)) ∧ |ψ - θ n| ≤ 900 * c.speed + c.angle + c.even + 1 / 100 := by
  let _ := exactFmt
  obtain ⟨y, hy, h0, h1, k, hk⟩ := C77_angle_partial hc h
  have hy' : y < 720 := by
    unfold currentAngle at hy
    rw [if_neg hr] at hy
    obtain ⟨q, hq⟩ : ∃ q, d.lastTriggerAngle + degreesFromTimeDiff (stamp n - d.lastTriggerTime) d.rpm = fin q := by
      obtain ⟨a, ha, -⟩ := h.angle
      have hr1 : 1 ≤ d.rpm.toNat := by
        rcases Nat.eq_zero_or_pos d.rpm.toNat with hz | hz
        · exact absurd (BitVec.eq_of_toNat_eq hz) hr
        · exact hz
      have hr0 : (0 : ℚ) < d.rpm.toNat := by exact_mod_cast hr1
      obtain ⟨f, hf, hf1, -⟩ := tpd_close hr1
      norm_num at hf1
      have hf0 : 0 < f := by linarith
      unfold degreesFromTimeDiff
      rw [hf, ha]
      unfold Fl.ofU32
      simp only [exact_rnd]
      rw [fin_div _ _ (by positivity)]
      simp only [exact_rnd, fin_add]
      exact ⟨_, rfl⟩
    rw [hq, exact_turn] at hy
    cases hy
    exact (turn720_range q).2
  refine ⟨y + 720 * k, ?_, ?_⟩
  · rw [hy, turn720_unique (q := y + 720 * k) (m := k) rfl h0 hy']
  · rw [abs_sub_comm, show θ n - (y + 720 * k) = θ n - y - 720 * k by ring]
    exact hk

/-- C97 is false of a window as wide as the cycle (also the sensor that is to average over a whole cycle): the window is never
over, and the reading stays as it was for as long as the engine turns. -/
theorem C97_frozen [LibM] {rate : BitVec 32} {s s' : Sensor} {l : List (ℚ × ℚ)} {o : ℕ} {a b lo hi : ℚ}
    (p : @SampleHist exactFmt _ rate s (turned l) s') (hs : Windowed ⟨720, 720, o⟩ a b lo hi s)
    (hok : ∀ x ∈ l, detectFaults { s with rawValue := fin x.2 } = .none) (hlen : l.length < 2 ^ 32) : s'.value = s.value := by
  have h := C35_history (st := ⟨[], 0⟩) (v := none) (init := s.value) p hs.method hs.lag (by rw [hs.total]; norm_num)
    (by rw [hs.total]; norm_num) (by rw [hs.capture]; norm_num) hs.rawMin hs.rawMax hs.rangeMin hs.rangeMax hs.raw
    (by
      intro x hx
      obtain ⟨y, hy, rfl⟩ := List.mem_map.mp hx
      exact hok y hy) hs.start ⟨by rw [hs.idle]; rfl, fun hh => absurd rfl hh⟩ (by unfold turned; simpa using hlen) rfl
  rw [hs.capture, hs.total, hs.offset] at h
  have key : ∀ (m : List (ℚ × ℚ)) (st : WinSt) (line : ℚ → ℚ), (st.run 720 720 o line none m).2 = none := by
    intro m
    induction m with
    | nil => intro st line; rfl
    | cons x m ih =>
        intro st line
        have hI : ∀ q, InCapture 720 720 o q := by
          intro q
          obtain ⟨h0, h1⟩ := turn720_range (q - o)
          exact ⟨0, by norm_num, by simpa using h0, by simpa using h1⟩
        have hnc : ¬ Complete 720 720 o st x.1 := by
          rintro ⟨-, h1 | h1⟩
          · exact h1 (hI _)
          · exact absurd (turn720_range (x.1 - st.start)).2 (not_lt.mpr (by simpa using h1))
        have : (st.step 720 720 o x.1 (line x.2)).2 = none := by
          unfold WinSt.step
          simp only [hnc, if_false, hI, if_true]
        unfold WinSt.run
        simp only
        rw [this]
        exact ih _ line
  rw [h.1]
  simp only [key]

/-- The shipped pressure sensor with other windows. -/
def demoWindowed (capture total : BitVec 32) : Sensor :=
  let s := @dfltSensors exactFmt sensorMap
  { s with window := { s.window with captureWidth := capture, totalWidth := total, offset := 0 } }

/-- A decoder that reports 1000 revolutions per minute and the angle `a` at tick 0. -/
def demoAt (a : ℚ) : Decoder := { @dfltDecoder exactFmt with rpm := 1000, lastTriggerAngle := fin a, lastTriggerTime := 0 }

/-- Samples of the sensor at given angles. -/
def sampleRun [LibM] (s : Sensor) : List (ℚ × ℚ) → Except Fault Sensor
  | [] => .ok s
  | x :: l =>
    match @sensorConvert exactFmt _ 5000 (demoAt x.1) 0 s (fin x.2) 0 with
    | .ok s' => sampleRun s' l
    | .error f => .error f

theorem sampleRun_hist [LibM] {l : List (ℚ × ℚ)} (hl : ∀ x ∈ l, 0 ≤ x.1 ∧ x.1 < 720) {s s' : Sensor} (h : sampleRun s l = .ok s') :
    @SampleHist exactFmt _ 5000 s l s' := by
  let _ := exactFmt
  induction l generalizing s with
  | nil => cases h; exact .nil _
  | cons x l ih =>
      unfold sampleRun at h
      cases hc : sensorConvert 5000 (demoAt x.1) 0 s (fin x.2) 0 with
      | error f => rw [hc] at h; cases h
      | ok s1 =>
          rw [hc] at h
          obtain ⟨h0, h1⟩ := hl x (List.mem_cons_self ..)
          refine .cons (d := demoAt x.1) (now := 0) (t := 0) ?_ (show (1000 : BitVec 32) ≠ 0 by decide) hc (ih (fun y hy => hl y (List.mem_cons_of_mem _ hy)) h)
          have e : degreesFromTimeDiff ((0 : Time) - (demoAt x.1).lastTriggerTime) (demoAt x.1).rpm = fin 0 := by
            show degreesFromTimeDiff ((0 : Time) - 0) 1000 = fin 0
            decide +kernel
          unfold currentAngle
          rw [if_neg (show (demoAt x.1).rpm ≠ 0 from (show (1000 : BitVec 32) ≠ 0 by decide)), e, show (demoAt x.1).lastTriggerAngle = fin x.1 from rfl, fin_add, exact_rnd,
            add_zero, exact_turn, turn720_unique (q := x.1) (m := 0) (by simp) h0 h1]

theorem demo_windowed (c t : BitVec 32) : Windowed ⟨c.toNat, t.toNat, 0⟩ 0 5 12 420 (demoWindowed c t) :=
  have d : (@dfltSensors exactFmt sensorMap).method = .linearWindowed ∧ (@dfltSensors exactFmt sensorMap).lag = fin 0 ∧
      (@dfltSensors exactFmt sensorMap).rawMin = fin 0 ∧ (@dfltSensors exactFmt sensorMap).rawMax = fin 5 ∧
      (@dfltSensors exactFmt sensorMap).rangeMin = fin 12 ∧ (@dfltSensors exactFmt sensorMap).rangeMax = fin 420 ∧
      (@dfltSensors exactFmt sensorMap).window.collecting = false ∧ (@dfltSensors exactFmt sensorMap).window.startAngle = fin 0 := by
    decide +kernel
  ⟨d.1, d.2.1, rfl, rfl, rfl, d.2.2.1, d.2.2.2.1, d.2.2.2.2.1, d.2.2.2.2.2.1, by norm_num, d.2.2.2.2.2.2.1, 0, d.2.2.2.2.2.2.2⟩

/-- Two cycles with the window as wide as the cycle: after the first the mean of its samples should be reported. -/
theorem C97_full_false : ¬ C97_full := by
  let _ := exactFmt
  let _ : LibM := ⟨id, id⟩
  intro hf
  have ht : turned [(0, 1), (360, 2), (720, 3)] = [(0, 1), (360, 2), (0, 3)] := by
    unfold turned turn720; norm_num
  obtain ⟨s', h1, -⟩ := okAnd_ok (x := sampleRun (demoWindowed 720 720) [(0, 1), (360, 2), (0, 3)]) (p := fun _ => true)
    (by decide +kernel)
  have hh := sampleRun_hist (by
    intro x hx
    simp only [List.mem_cons, List.not_mem_nil, or_false] at hx
    rcases hx with rfl | rfl | rfl <;> norm_num) h1
  rw [← ht] at hh
  have hw : Windowed ⟨720, 720, 0⟩ 0 5 12 420 (demoWindowed 720 720) := demo_windowed 720 720
  have hok : ∀ x ∈ [((0 : ℚ), (1 : ℚ)), (360, 2), (720, 3)], detectFaults { demoWindowed 720 720 with rawValue := fin x.2 } = .none := by
    intro x hx
    simp only [List.mem_cons, List.not_mem_nil, or_false] at hx
    rcases hx with rfl | rfl | rfl <;> decide +kernel
  have hfr := C97_frozen hh hw hok (by norm_num)
  obtain ⟨v, ⟨hv, -⟩, hs⟩ := hf 5000 _ _ _ ⟨720, 720, 0⟩ 0 5 12 420 hh hw ⟨by norm_num, by norm_num, by norm_num⟩ hok (by norm_num)
    ⟨by simp; norm_num, by
      intro p x y s e
      rcases p with _ | ⟨_, _ | ⟨_, _ | ⟨_, p⟩⟩⟩ <;> simp at e
      · obtain ⟨rfl, rfl, -⟩ := e; norm_num
      · obtain ⟨-, rfl, rfl, -⟩ := e; norm_num⟩
  have hov : ∀ j, (⟨720, 720, 0⟩ : WinGeom).Over ([((0 : ℚ), (1 : ℚ)), (360, 2), (720, 3)].map fun x => (x.1, lineOf 0 5 12 420 x.2)) j → j ≤ 0 := by
    rintro j ⟨-, x, hx, hb⟩
    simp at hx
    subst hx
    norm_num at hb
    by_contra hn
    have : (1 : ℚ) ≤ j := by exact_mod_cast (by omega : 1 ≤ j)
    linarith
  have hm := hv 0 ⟨⟨(0, lineOf 0 5 12 420 1), by simp, by constructor <;> norm_num⟩, (720, lineOf 0 5 12 420 3), by simp, by norm_num⟩
    (fun j hj ho => absurd (hov j ho) (by omega))
  have hsm : (⟨720, 720, 0⟩ : WinGeom).samples 0 ([((0 : ℚ), (1 : ℚ)), (360, 2), (720, 3)].map fun x => (x.1, lineOf 0 5 12 420 x.2)) =
      [lineOf 0 5 12 420 1, lineOf 0 5 12 420 2] := by
    unfold WinGeom.samples WinGeom.In
    norm_num [List.filter]
  rw [hsm] at hm
  rw [hm, hfr] at hs
  have h0 : (demoWindowed 720 720).value = fin 0 := by decide +kernel
  rw [h0] at hs
  have := Fl.fin.inj hs
  unfold mean lineOf at this
  norm_num at this

/-- Five samples of the shipped windows, 90 degrees of every 120: the value becomes the mean of the first three. -/
example : let _ : LibM := ⟨id, id⟩; ∃ s', @SampleHist exactFmt _ 5000 (demoWindowed 90 120) (turned [(10, 1), (40, 1), (70, 4), (100, 4), (130, 4)]) s' ∧
    Windowed ⟨90, 120, 0⟩ 0 5 12 420 (demoWindowed 90 120) ∧ (⟨90, 120, 0⟩ : WinGeom).Tiles ∧
    SampledEvery (((120 : ℕ) : ℚ) - (90 : ℕ)) [((10 : ℚ), (1 : ℚ)), (40, 1), (70, 4), (100, 4), (130, 4)] ∧ s'.value = fin (lineOf 0 5 12 420 2) := by
  let _ := exactFmt
  let _ : LibM := ⟨id, id⟩
  have ht : turned [(10, 1), (40, 1), (70, 4), (100, 4), (130, 4)] = [(10, 1), (40, 1), (70, 4), (100, 4), (130, 4)] := by
    unfold turned turn720; norm_num
  obtain ⟨s', h1, h2⟩ := okAnd_ok (x := sampleRun (demoWindowed 90 120) [(10, 1), (40, 1), (70, 4), (100, 4), (130, 4)])
    (p := fun s => decide (s.value = fin (lineOf 0 5 12 420 2))) (by decide +kernel)
  rw [decide_eq_true_eq] at h2
  refine ⟨s', ?_, demo_windowed 90 120, ⟨by norm_num, by norm_num, by norm_num⟩, ⟨by simp; norm_num, ?_⟩, h2⟩
  · rw [ht]
    refine sampleRun_hist ?_ h1
    intro x hx
    simp only [List.mem_cons, List.not_mem_nil, or_false] at hx
    rcases hx with rfl | rfl | rfl | rfl | rfl <;> norm_num
  · intro p x y s e
    rcases p with _ | ⟨_, _ | ⟨_, _ | ⟨_, _ | ⟨_, _ | ⟨_, p⟩⟩⟩⟩⟩ <;> simp at e
    · obtain ⟨rfl, rfl, -⟩ := e; norm_num
    · obtain ⟨-, rfl, rfl, -⟩ := e; norm_num
    · obtain ⟨-, -, rfl, rfl, -⟩ := e; norm_num
    · obtain ⟨-, -, -, rfl, rfl, -⟩ := e; norm_num

/-- The crank must not seem to turn back: three samples in the window, one after it, and then one that is read a degree inside it again.  What
is reported is this last sample alone, although the sensor was at 1 V throughout the window. -/
example : let _ : LibM := ⟨id, id⟩; ∃ s', @SampleHist exactFmt _ 5000 (demoWindowed 90 120) [(10, 1), (40, 1), (70, 1), (91, 1), (89, 4), (92, 4)] s' ∧
    s'.value = fin (lineOf 0 5 12 420 4) := by
  let _ := exactFmt
  let _ : LibM := ⟨id, id⟩
  obtain ⟨s', h1, h2⟩ := okAnd_ok (x := sampleRun (demoWindowed 90 120) [(10, 1), (40, 1), (70, 1), (91, 1), (89, 4), (92, 4)])
    (p := fun s => decide (s.value = fin (lineOf 0 5 12 420 4))) (by decide +kernel)
  rw [decide_eq_true_eq] at h2
  refine ⟨s', sampleRun_hist ?_ h1, h2⟩
  intro x hx
  simp only [List.mem_cons, List.not_mem_nil, or_false] at hx
  rcases hx with rfl | rfl | rfl | rfl | rfl | rfl <;> norm_num

/-- A tooth is decoded while the angle is read: the old tooth's time and angle, and the new tooth's speed. -/
example : let d1 : Decoder := { @dfltDecoder exactFmt with rpm := 1490, lastTriggerAngle := fin 80, lastTriggerTime := 235555 }
    let d2 : Decoder := { @dfltDecoder exactFmt with rpm := 1500, lastTriggerAngle := fin 90, lastTriggerTime := 240000 }
    d1.rpm ≠ 0 ∧ d2.rpm ≠ 0 ∧ ReadsCrank (fun t => 90 + 9 / 4000 * (t - 240000)) ⟨0, 1 / 100, 0, 1⟩ 235555 240010 { d1 with rpm := d2.rpm } := by
  refine ⟨by decide, by decide, by decide, by decide, ⟨80, rfl, by norm_num, by norm_num, 0, ?_⟩, 9 / 4000, by norm_num, ?_, by norm_num,
    by norm_num⟩
  · rw [abs_le]; norm_num
  · show |(9 : ℚ) / 4000 * (4000000 / 6) - (BitVec.toNat (1500 : BitVec 32) : ℚ)| ≤ _
    have : BitVec.toNat (1500 : BitVec 32) = 1500 := by decide
    rw [this]
    norm_num

end Verif
