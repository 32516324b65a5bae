/-
C70: trigger inputs report the edges they are set to, and only trigger inputs do.
C71: a frequency input reports the frequency of its signal.
C72: a signal that stops is reported.
-/
import Verif.Model.Inputs
import Verif.Spec.Time
import Verif.Proofs.Time
import Verif.Proofs.Total
import Verif.Props.Sensors

namespace Verif

/-! ### C70 -/

/-- A change of level of input `k` that the decoder should hear of. -/
def wantedEdge (f : Fin 4 → FreqInput) (k rise : Bool) : Bool :=
  let i := f (if k then 1 else 0)
  i.type == .trigger && (i.edge == .both || (i.edge == .rising) == rise)

/-- What the decoder was told. -/
def CapSys.told (s : CapSys) : List CapOut := s.trace.filterMap fun | .out o => some o | .edge _ _ => none

/-- A change of level, and whether the compare channel requests an interrupt before the next. -/
structure PinChange where
  input : Bool
  rise : Bool
  time : Time
  timer : Bool
  deriving DecidableEq

/-- The change, and the chance to take the interrupt. -/
def PinChange.events (c : PinChange) : List PinEv := [.level c.input c.rise c.time, .irq c.timer]

/-- C70 in full: whatever the inputs are set to, the decoder is told of exactly the changes of level that it should hear of, in
order. -/
def C70_full (p : CapPlatform) : Prop :=
  ∀ (f : Fin 4 → FreqInput) (cs : List PinChange),
    (CapSys.boot.pins p f (cs.flatMap PinChange.events)).told =
      (cs.filter fun c => wantedEdge f c.input c.rise).map fun c => .deliver (if c.input then 1 else 0) c.time

/-- Settings for which C70 holds: on the stm32 both inputs are triggers; on the gd32 neither is a frequency input, and input 1 is
not set to both edges. -/
def InputsOk (f : Fin 4 → FreqInput) : CapPlatform → Prop
  | .stm32 => (f 0).type = .trigger ∧ (f 1).type = .trigger
  | .gd32 => (f 0).type ≠ .freq ∧ (f 1).type ≠ .freq ∧ ((f 1).type = .trigger → (f 1).edge ≠ .both)

/-- Nothing is pending. -/
structure CapIdle (s : CapSys) : Prop where
  pc : s.pc = .idle
  flag0 : (s.ch false).flag = false
  flag1 : (s.ch true).flag = false
  over0 : (s.ch false).over = false
  over1 : (s.ch true).over = false

theorem handler_idle {p : CapPlatform} {s : CapSys} (h : CapIdle s) :
    CapIdle (s.run p (.enter :: List.replicate 10 .step)) ∧ (s.run p (.enter :: List.replicate 10 .step)).trace = s.trace := by
  obtain ⟨h1, h2, h3, h4, h5⟩ := h
  cases p <;>
    exact ⟨by constructor <;> simp_all [CapSys.run, CapSys.act, CapSys.step, CapSys.setCh, capAfter, deliverCaptures, List.replicate],
      by simp_all [CapSys.run, CapSys.act, CapSys.step, CapSys.setCh, capAfter, deliverCaptures, List.replicate]⟩

theorem handler_edge {p : CapPlatform} {s : CapSys} (h : CapIdle s) (k : Bool) (t : Time) :
    CapIdle ((s.act p (.edge k t)).run p (.enter :: List.replicate 10 .step)) ∧
      ((s.act p (.edge k t)).run p (.enter :: List.replicate 10 .step)).trace =
        s.trace ++ [.edge k t, .out (.deliver (if k then 1 else 0) t)] := by
  obtain ⟨h1, h2, h3, h4, h5⟩ := h
  cases p <;> cases k <;>
    exact ⟨by constructor <;> simp_all [CapSys.run, CapSys.act, CapSys.step, CapSys.setCh, capAfter, deliverCaptures, List.replicate, CapChan.capture],
      by simp_all [CapSys.run, CapSys.act, CapSys.step, CapSys.setCh, capAfter, deliverCaptures, List.replicate, CapChan.capture]⟩

theorem captures_wanted {p : CapPlatform} {f : Fin 4 → FreqInput} (h : InputsOk f p) (k rise : Bool) :
    (inputBits p f k).captures rise = wantedEdge f k rise := by
  unfold wantedEdge inputBits CapBits.captures
  cases p <;> cases k <;> unfold InputsOk at h
  · obtain ⟨h1, h2, h3⟩ := h
    simp only [gd32Bits, edgeP, edgeNp, Bool.false_eq_true, if_false] at *
    generalize (f 0).edge = e at *
    generalize (f 0).type = ty at *
    cases e <;> cases ty <;> cases rise <;> first | rfl | (exfalso; simp_all; done)
  · obtain ⟨h1, h2, h3⟩ := h
    simp only [gd32Bits, edgeP, edgeNp, if_true] at *
    generalize (f 1).edge = e at *
    generalize (f 1).type = ty at *
    cases e <;> cases ty <;> cases rise <;> first | rfl | (exfalso; simp_all; done)
  · obtain ⟨h1, h2⟩ := h
    simp only [stm32Bits, edgeP, edgeNp, Bool.false_eq_true, if_false] at *
    rw [h1]
    generalize (f 0).edge = e at *
    cases e <;> cases rise <;> rfl
  · obtain ⟨h1, h2⟩ := h
    simp only [stm32Bits, edgeP, edgeNp, if_true] at *
    rw [h2]
    generalize (f 1).edge = e at *
    cases e <;> cases rise <;> rfl

theorem pin_change {p : CapPlatform} {f : Fin 4 → FreqInput} (hf : InputsOk f p) {s : CapSys} (h : CapIdle s) (c : PinChange) :
    CapIdle (s.pins p f c.events) ∧ (s.pins p f c.events).told =
      s.told ++ (if wantedEdge f c.input c.rise then [.deliver (if c.input then 1 else 0) c.time] else []) := by
  unfold CapSys.pins PinChange.events
  simp only [List.foldl_cons, List.foldl_nil, CapSys.pin]
  rw [captures_wanted hf]
  by_cases hw : wantedEdge f c.input c.rise = true
  · rw [if_pos hw]
    have hirq : (c.timer || (((s.act p (.edge c.input c.time)).ch false).flag && inputIrq p f false) ||
        (((s.act p (.edge c.input c.time)).ch true).flag && inputIrq p f true)) = true := by
      have hi : inputIrq p f c.input = true := by
        cases p
        · rfl
        · have h0 := hf.1
          have h1 := hf.2
          cases hk : c.input <;> simp [inputIrq, h0, h1]
      cases hk : c.input <;> rw [hk] at hi <;> simp [CapSys.act, CapSys.setCh, CapChan.capture, hi]
    rw [if_pos hirq]
    obtain ⟨h1, h2⟩ := handler_edge (p := p) h c.input c.time
    refine ⟨h1, ?_⟩
    unfold CapSys.told
    rw [h2, List.filterMap_append, if_pos hw]
    rfl
  · rw [if_neg hw, if_neg hw, List.append_nil]
    split_ifs
    · obtain ⟨h1, h2⟩ := handler_idle (p := p) h
      exact ⟨h1, by unfold CapSys.told; rw [h2]⟩
    · exact ⟨h, rfl⟩

/-- **C70, the part that holds**: for the settings of `InputsOk`. -/
theorem C70_inputs_partial (p : CapPlatform) (f : Fin 4 → FreqInput) (hf : InputsOk f p) (cs : List PinChange) :
    (CapSys.boot.pins p f (cs.flatMap PinChange.events)).told =
      (cs.filter fun c => wantedEdge f c.input c.rise).map fun c => .deliver (if c.input then 1 else 0) c.time := by
  suffices h : ∀ s : CapSys, CapIdle s → (s.pins p f (cs.flatMap PinChange.events)).told =
      s.told ++ (cs.filter fun c => wantedEdge f c.input c.rise).map fun c => .deliver (if c.input then 1 else 0) c.time by
    exact h .boot ⟨rfl, rfl, rfl, rfl, rfl⟩
  induction cs with
  | nil => intro s _; simp [CapSys.pins]
  | cons c cs ih =>
      intro s hs
      obtain ⟨h1, h2⟩ := pin_change hf hs c
      have e : s.pins p f ((c :: cs).flatMap PinChange.events) = (s.pins p f c.events).pins p f (cs.flatMap PinChange.events) := by
        unfold CapSys.pins
        rw [List.flatMap_cons, List.foldl_append]
      rw [e, ih _ h1, h2, List.filter_cons]
      by_cases hw : wantedEdge f c.input c.rise = true
      · rw [if_pos hw, if_pos hw, List.map_cons, List.append_assoc]
        rfl
      · rw [if_neg hw, if_neg hw, List.append_nil]

/-- The shipped settings, config.c:211-216, are among them. -/
def shippedInputs : Fin 4 → FreqInput
  | 0 => ⟨.rising, .trigger⟩ | 1 => ⟨.rising, .trigger⟩ | 2 => ⟨.rising, .freq⟩ | 3 => ⟨.falling, .freq⟩

example (p : CapPlatform) : InputsOk shippedInputs p := by cases p <;> simp [InputsOk, shippedInputs]

example : (CapSys.boot.pins .gd32 shippedInputs ([⟨false, true, 5, false⟩, ⟨false, false, 9, true⟩, ⟨true, true, 12, false⟩].flatMap
    PinChange.events)).told = [.deliver 0 5, .deliver 1 12] := by decide +kernel

/-- On the gd32 input 1 set to both edges reports only falling ones. -/
theorem C70_gd32_full_false : ¬ C70_full .gd32 := by
  intro h
  have := h (fun i => if i = 1 then ⟨.both, .trigger⟩ else ⟨.rising, .trigger⟩) [⟨true, true, 5, false⟩]
  revert this
  decide +kernel

/-- And its bit lands on the frequency input's channel, whose setting becomes the reserved one. -/
theorem C70_gd32_reserved : gd32Bits (fun i => if i = 1 then ⟨.both, .trigger⟩ else ⟨.rising, .freq⟩) 2 = ⟨false, true, true⟩ := by
  decide

/-- On the gd32 an input set to measure a frequency is handed to the decoder as a trigger. -/
theorem C70_gd32_freq : (CapSys.boot.pins .gd32 (fun _ => ⟨.rising, .freq⟩) [.level true true 5, .irq false]).told = [.deliver 1 5] := by
  decide +kernel

/-- On the stm32 an input that is not used at all is handed to the decoder as a trigger, at the next interrupt of the timer. -/
theorem C70_stm32_full_false : ¬ C70_full .stm32 := by
  intro h
  have := h (fun i => if i = 1 then ⟨.rising, .none⟩ else ⟨.rising, .trigger⟩) [⟨true, true, 5, true⟩]
  revert this
  decide +kernel

/-! ### C71 -/

variable [FloatFmt]
open Fl

/-- The reported frequency `x` is `f` to within one part in four million. -/
def CloseTo (x : Fl) (f : ℚ) : Prop := ∃ y, x = fin y ∧ |y - f| ≤ f / 2 ^ 22

theorem quot_close (c n : ℕ) (hc0 : 0 < c) (hc : c ≤ 2 ^ 24) (h0 : 0 < n) (h : n < 2 ^ 32) :
    CloseTo (fin c / Fl.ofNat n) (c / n) := by
  have hn : (0 : ℚ) < n := by exact_mod_cast h0
  have hn1 : (1 : ℚ) ≤ n := by exact_mod_cast h0
  have hn2 : (n : ℚ) ≤ 2 ^ 32 := by exact_mod_cast h.le
  have hcq : (1 : ℚ) ≤ c := by exact_mod_cast hc0
  have hc2 : (c : ℚ) ≤ 2 ^ 24 := by exact_mod_cast hc
  obtain ⟨a, ha, ha1, ha2⟩ := rnd_factor (x := (n : ℚ)) (le_trans (by norm_num) hn1) (le_trans hn2 (by norm_num))
  unfold Fl.ofNat
  have hap : 0 < a := by linarith [show (0 : ℚ) < 1 - 1 / 2 ^ 24 by norm_num]
  have hna : 0 < (n : ℚ) * a := mul_pos hn hap
  rw [ha, fin_div _ _ hna.ne']
  have hq : (0 : ℚ) < c / (n * a) := div_pos (by linarith) hna
  obtain ⟨b, hb, hb1, hb2⟩ := rnd_factor (x := (c : ℚ) / (n * a)) (by
      rw [le_div_iff₀ hna]
      have : (n : ℚ) * a ≤ 2 ^ 32 * 2 := mul_le_mul hn2 (by linarith [show (1 : ℚ) + 1 / 2 ^ 24 ≤ 2 by norm_num]) hap.le (by norm_num)
      have h2 : (2 : ℚ) ^ (-100 : ℤ) * (n * a) ≤ 2 ^ (-100 : ℤ) * (2 ^ 32 * 2) := mul_le_mul_of_nonneg_left this (by positivity)
      refine le_trans h2 (le_trans ?_ hcq)
      norm_num) (by
      rw [div_le_iff₀ hna]
      have : (1 : ℚ) / 2 ≤ n * a := by nlinarith
      have h2 : (2 : ℚ) ^ 100 * (1 / 2) ≤ 2 ^ 100 * (n * a) := mul_le_mul_of_nonneg_left this (by positivity)
      refine le_trans (le_trans hc2 ?_) h2
      norm_num)
  refine ⟨_, hb, ?_⟩
  have e : (c : ℚ) / (n * a) * b - c / n = c / n * (b / a - 1) := by field_simp
  have hcn : (0 : ℚ) < c / n := div_pos (by linarith) hn
  rw [e, abs_mul, abs_of_pos hcn, div_eq_mul_inv (_ / _) ((2 : ℚ) ^ 22)]
  refine mul_le_mul_of_nonneg_left ?_ hcn.le
  rw [abs_le]
  constructor
  · rw [le_sub_iff_add_le, le_div_iff₀ hap]
    norm_num at *
    nlinarith
  · rw [sub_le_iff_le_add, div_le_iff₀ hap]
    norm_num at *
    nlinarith

/-- C71 for the frequency input that shares the trigger timer: an update that is marked valid reports the frequency of the edge with
respect to the edge before. -/
def C71_capture : Prop :=
  ∀ (ts : List ℤ), ts.IsChain (· < ·) → ∀ (i : ℕ) (u : FreqUpdate), (freqCaptures 0 (ts.map stamp))[i]? = some u → u.valid = true →
    ∃ (j : ℕ) (s t : ℤ), i = j + 1 ∧ ts[j]? = some s ∧ ts[j + 1]? = some t ∧ CloseTo u.frequency (4000000 / (t - s))

/-- C71 for the pulse width input: an update that is marked valid reports the frequency to within one part in a thousand and two
counts.  Times are in cycles of the 192 MHz clock. -/
def C71_pulse : Prop :=
  ∀ (now : Time) (period width : ℤ), 0 < period → 0 ≤ width → width ≤ period → (pwEdge now period width).valid = true →
    ∃ y, (pwEdge now period width).frequency = fin y ∧
      |y - 192000000 / period| ≤ 192000000 / period * (1 / 1000 + 2 * 2931 / period)

/-- C71 in full. -/
def C71_full : Prop := C71_capture ∧ C71_pulse

theorem captures_at (ts : List ℤ) (l : Time) (j : ℕ) (s t : ℤ) (h1 : ts[j]? = some s) (h2 : ts[j + 1]? = some t) :
    (freqCaptures l (ts.map stamp))[j + 1]? = some (freqCapture (stamp s) (stamp t)).2 := by
  induction ts generalizing l j with
  | nil => cases h1
  | cons a ts ih =>
      cases j with
      | zero =>
          cases h1
          cases ts with
          | nil => cases h2
          | cons b ts => cases h2; rfl
      | succ j => exact ih _ j h1 h2

/-- **C71, the part that holds**, on the trigger timer's input: every edge after the first, less than a wrap (17.9 min) after the one
before. -/
theorem C71_capture_partial (ts : List ℤ) (j : ℕ) (s t : ℤ) (h1 : ts[j]? = some s) (h2 : ts[j + 1]? = some t) (hlt : s < t)
    (hw : t < s + 2 ^ 32) :
    ∃ u, (freqCaptures 0 (ts.map stamp))[j + 1]? = some u ∧ u.valid = true ∧ u.time = stamp t ∧
      CloseTo u.frequency (4000000 / (t - s)) := by
  refine ⟨_, captures_at ts 0 j s t h1 h2, ?_⟩
  unfold freqCapture
  simp only
  have e := stamp_toNat (d := t - s) (by omega) (by omega)
  rw [stamp_sub]
  have hne : stamp (t - s) ≠ 0 := by
    intro h
    rw [h] at e
    have : (0 : ℤ) = t - s := e
    omega
  refine ⟨decide_eq_true hne, ?_⟩
  rw [decide_eq_true hne, if_pos rfl]
  refine ⟨trivial, ?_⟩
  have hc := quot_close 4000000 (stamp (t - s)).toNat (by norm_num) (by norm_num) (by omega) (stamp (t - s)).isLt
  have e2 : ((stamp (t - s)).toNat : ℚ) = t - s := by
    have : (((stamp (t - s)).toNat : ℤ) : ℚ) = ((t - s : ℤ) : ℚ) := by rw [e]
    push_cast at this
    exact this
  rw [e2] at hc
  exact_mod_cast hc

/-- Met by a signal of 40 Hz. -/
example : ([100, 100100, 200100] : List ℤ)[1]? = some 100100 ∧ ([100, 100100, 200100] : List ℤ)[1 + 1]? = some 200100 := by decide

omit [FloatFmt] in
theorem pwCount_small {n : ℤ} (h0 : 0 ≤ n) (h : n < pwWrap) : ((pwCount n).toNat : ℤ) = n / 2931 := by
  unfold pwWrap pwPrescale at h
  unfold pwCount pwPrescale
  rw [BitVec.toNat_ofInt]
  have h1 : 0 ≤ n / 2931 := by omega
  have h2 : n / 2931 < 65536 := by omega
  generalize n / 2931 = k at *
  omega

/-- **C71, the part that holds**, on the pulse width input: for periods up to one second, the frequency and the width. -/
theorem C71_pulse_partial (now : Time) (period width : ℤ) (hp : 3 * 2931 ≤ period) (hp2 : period < pwWrap) (h0 : 0 ≤ width)
    (hw : width ≤ period) :
    (pwEdge now period width).valid = true ∧
    (∃ y, (pwEdge now period width).frequency = fin y ∧
      |y - 192000000 / period| ≤ 192000000 / period * (1 / 1000 + 2 * 2931 / period)) ∧
    ∃ w, (pwEdge now period width).pulsewidth = fin w ∧ |w - width / 192000000| ≤ 1 / 1000 * (width / 192000000) + 1 / 65000 := by
  have hc := pwCount_small (by omega) hp2
  have hcw := pwCount_small h0 (by omega)
  have hpos : 0 < (pwCount period).toNat := by omega
  have hne : pwCount period ≠ 0 := by
    intro h
    rw [h] at hpos
    exact absurd hpos (by decide)
  unfold pwEdge
  simp only [hne, ne_eq, not_false_iff, decide_true, if_true]
  refine ⟨trivial, ?_, ?_⟩
  · obtain ⟨y, hy, hy1⟩ := quot_close 65536 (pwCount period).toNat (by norm_num) (by norm_num) hpos
      (lt_trans (pwCount period).isLt (by norm_num))
    refine ⟨y, by exact_mod_cast hy, ?_⟩
    have hlt : (pwCount period).toNat < 65536 := (pwCount period).isLt
    have hd1 : 2931 * ((pwCount period).toNat : ℤ) ≤ period := by omega
    have hd2 : period < 2931 * ((pwCount period).toNat : ℤ) + 2931 := by omega
    generalize (pwCount period).toNat = c at *
    have q1 : 2931 * (c : ℚ) ≤ period := by exact_mod_cast hd1
    have q2 : (period : ℚ) ≤ 2931 * c + 2931 := by exact_mod_cast hd2.le
    have q3 : (1 : ℚ) ≤ c := by exact_mod_cast hpos
    have q4 : (c : ℚ) ≤ 65536 := by exact_mod_cast hlt.le
    have q5 : (3 * 2931 : ℚ) ≤ period := by exact_mod_cast hp
    generalize (period : ℚ) = P at *
    have hP : (0 : ℚ) < P := by linarith
    have hcp : (0 : ℚ) < c := by linarith
    push_cast at hy1
    rw [abs_le] at hy1
    obtain ⟨l1, l2⟩ := hy1
    -- everything as multiples of 192000000 / P
    have hlow : (192000000 : ℚ) / P * (1 + 4 / 10000) ≤ 65536 / c := by
      rw [div_mul_eq_mul_div, div_le_div_iff₀ hP hcp]
      nlinarith
    have hup : (65536 : ℚ) / c ≤ 192000000 / P * (1 + 5 / 10000 + (1 + 5 / 10000) * (2 * 2931 / P) * (1 - 1 / 1000)) := by
      rw [show (192000000 : ℚ) / P * (1 + 5 / 10000 + (1 + 5 / 10000) * (2 * 2931 / P) * (1 - 1 / 1000)) =
        192000000 * ((1 + 5 / 10000) * P + (1 + 5 / 10000) * (2 * 2931) * (1 - 1 / 1000)) / (P * P) by field_simp]
      rw [div_le_div_iff₀ hcp (mul_pos hP hP)]
      have hPc : P * P ≤ P * (2931 * c + 2931) := mul_le_mul_of_nonneg_left q2 hP.le
      have h3 : (0 : ℚ) ≤ (P + 2 * 2931 * (1 - 1 / 1000)) * (2931 * c + 2931 - P) :=
        mul_nonneg (by linarith) (by linarith)
      have h4 : (0 : ℚ) ≤ P * (P - 3 * 2931) := mul_nonneg hP.le (by linarith)
      nlinarith
    have hF : (0 : ℚ) < 192000000 / P := by positivity
    have hG : (0 : ℚ) < 65536 / c := by positivity
    rw [abs_le]
    constructor
    · have : (0 : ℚ) ≤ 192000000 / P * (1 / 1000 + 2 * 2931 / P) := by positivity
      norm_num at *
      linarith
    · have hG2 : (65536 : ℚ) / c * (1 + 1 / 2 ^ 22) ≤
          192000000 / P * (1 + 5 / 10000 + (1 + 5 / 10000) * (2 * 2931 / P) * (1 - 1 / 1000)) * (1 + 1 / 2 ^ 22) :=
        mul_le_mul_of_nonneg_right hup (by positivity)
      have hK : (0 : ℚ) < 2 * 2931 / P := by positivity
      generalize (2 * 2931 : ℚ) / P = K at *
      generalize (192000000 : ℚ) / P = F at *
      generalize (65536 : ℚ) / c = G at *
      have h3 : F * (1 + 5 / 10000 + (1 + 5 / 10000) * K * (1 - 1 / 1000)) * (1 + 1 / 2 ^ 22) ≤ F * (1 + (1 / 1000 + K)) := by
        rw [mul_assoc]
        refine mul_le_mul_of_nonneg_left ?_ hF.le
        norm_num
        linarith
      norm_num at *
      linarith
  · have hlt : (pwCount width).toNat < 65536 := (pwCount width).isLt
    have hd1 : 2931 * ((pwCount width).toNat : ℤ) ≤ width := by omega
    have hd2 : width < 2931 * ((pwCount width).toNat : ℤ) + 2931 := by omega
    unfold Fl.ofNat
    rw [FloatFmt.rnd_nat _ (by omega), fin_div _ _ (by norm_num)]
    generalize (pwCount width).toNat = c at *
    have q1 : 2931 * (c : ℚ) ≤ width := by exact_mod_cast hd1
    have q2 : (width : ℚ) ≤ 2931 * c + 2931 := by exact_mod_cast hd2.le
    have q3 : (0 : ℚ) ≤ c := by positivity
    rcases Nat.eq_zero_or_pos c with hz | hz
    · subst hz
      rw [Nat.cast_zero, zero_div, FloatFmt.rnd_zero]
      refine ⟨0, rfl, ?_⟩
      rw [abs_le]
      norm_num at *
      have : (0 : ℚ) ≤ width := by exact_mod_cast h0
      constructor <;> linarith
    · have q4 : (1 : ℚ) ≤ c := by exact_mod_cast hz
      have q5 : (c : ℚ) ≤ 65536 := by exact_mod_cast hlt.le
      obtain ⟨a, ha, ha1, ha2⟩ := rnd_factor (x := (c : ℚ) / 65536)
        (by rw [le_div_iff₀ (by norm_num)]; exact le_trans (by norm_num) q4)
        (by rw [div_le_iff₀ (by norm_num)]; exact le_trans q5 (by norm_num))
      refine ⟨_, by exact_mod_cast ha, ?_⟩
      have u1 : (c : ℚ) / 65536 * a ≤ c / 65536 * (1 + 1 / 2 ^ 24) := mul_le_mul_of_nonneg_left ha2 (by positivity)
      have u2 : (c : ℚ) / 65536 * (1 - 1 / 2 ^ 24) ≤ c / 65536 * a := mul_le_mul_of_nonneg_left ha1 (by positivity)
      generalize (c : ℚ) / 65536 * a = w at *
      rw [abs_le]
      norm_num at *
      constructor <;> linarith

/-- Met by a signal of 100 Hz that is high half of the time. -/
example : (3 * 2931 : ℤ) ≤ 1920000 ∧ (1920000 : ℤ) < pwWrap := by unfold pwWrap pwPrescale; decide

end Verif

namespace Verif
open Fl

/-- C71 fails on the trigger timer's input: the very first edge is reported with a frequency that depends only on when it came. -/
theorem C71_first : ¬ @C71_capture binary32 := by
  intro h
  obtain ⟨j, s, t, h1, _⟩ := h [1000] (by simp) 0 _ rfl (by decide +kernel)
  omega

/-- C71: every active edge on the pulse width input is reported once it comes, with its own time on the common clock: the counter runs at 192
MHz, the clock at 4 MHz. -/
theorem C71_pulse_times [FloatFmt] (t0 quiet : ℤ) (es1 es2 : List (ℤ × ℤ)) (period width : ℤ) :
    ∃ u ∈ pwUpdates t0 (es1 ++ (period, width) :: es2) quiet, u = pwEdge u.time period width ∧
      u.time = stamp ((t0 + (es1.map Prod.fst).sum + period) / (192000000 / 4000000)) := by
  induction es1 generalizing t0 with
  | nil =>
      refine ⟨pwEdge (cycleTime (t0 + period)) period width, by simp [pwUpdates], ?_, ?_⟩
      · rfl
      · have : (pwEdge (cycleTime (t0 + period)) period width).time = cycleTime (t0 + period) := rfl
        rw [this]
        unfold cycleTime stamp
        norm_num
  | cons e es1 ih =>
      obtain ⟨u, hu, h1, h2⟩ := ih (t0 + e.1)
      refine ⟨u, ?_, h1, ?_⟩
      · simp only [List.cons_append, pwUpdates, List.mem_append, List.mem_cons]
        exact Or.inr (Or.inr hu)
      · rw [h2, List.map_cons, List.sum_cons, ← add_assoc]

/-- The second of two edges, 10 ms apart, is reported 80000 ticks after the start. -/
example : ∃ u ∈ @pwUpdates binary32 0 [(1920000, 960000), (1920000, 480000)] 0, u.time = stamp 80000 := by
  let _ := binary32
  obtain ⟨u, hu, -, h⟩ := C71_pulse_times 0 0 [(1920000, 960000)] [] 1920000 480000
  exact ⟨u, hu, by rw [h]; decide⟩

/-- C71 fails on the pulse width input: a period of 1.5 s is reported, as valid, as 2 Hz. -/
theorem C71_slow : ¬ @C71_pulse binary32 := by
  intro h
  obtain ⟨y, h1, h2⟩ := h 0 288129024 0 (by decide) (by decide) (by decide) (by decide +kernel)
  have e : (@pwEdge binary32 0 288129024 0).frequency = fin 2 := by decide +kernel
  rw [e] at h1
  cases h1
  norm_num [abs_le] at h2

theorem C71_full_false : ¬ @C71_full binary32 := fun h => C71_first h.1

/-! ### C72 -/

section
variable [FloatFmt] [LibM]

/-- The sensors handle a list of updates, each in its own circumstances (decoder and time). -/
def freqRun (rate : BitVec 32) (us : List (FreqUpdate × Decoder × Time)) (ss : Fin numSensors → Sensor) :
    Except Fault (Fin numSensors → Sensor) :=
  us.foldlM (fun (ss : Fin numSensors → Sensor) u => updateFreq rate u.2.1 u.2.2 u.1 ss) ss

/-- Sensor `i` measures frequency or pulse width at input `pin`. -/
def Measures (ss : Fin numSensors → Sensor) (i : Fin numSensors) (pin : BitVec 32) : Prop :=
  (ss i).pin = pin ∧ ((ss i).source = .freq ∨ (ss i).source = .pulsewidth)

theorem measures_update {rate : BitVec 32} {d : Decoder} {now : Time} {u : FreqUpdate} {ss ss' : Fin numSensors → Sensor}
    (h : updateFreq rate d now u ss = .ok ss') {i : Fin numSensors} {pin : BitVec 32} (hm : Measures ss i pin) :
    Measures ss' i pin := by
  have e := updateAt_each _ _ _ h i
  unfold Measures at *
  unfold freqOne at e
  by_cases hp : (ss i).pin ≠ u.pin
  · rw [if_pos hp] at e
    rw [← Except.ok.inj e]; exact hm
  · rw [if_neg hp] at e
    have key : ∀ (s0 s1 : Sensor) (raw : Fl) (t : Time), sensorConvert rate d now s0 raw t = .ok s1 →
        s1.pin = s0.pin ∧ s1.source = s0.source := by
      intro s0 s1 raw t h0
      unfold sensorConvert at h0
      simp only at h0
      split_ifs at h0
      · rw [← Except.ok.inj h0]; exact ⟨rfl, rfl⟩
      · obtain ⟨⟨w, r⟩, h1, h2⟩ := bind_eq_ok.mp h0
        simp only at h2
        obtain ⟨dv, h3, h4⟩ := bind_eq_ok.mp h2
        rw [← Except.ok.inj h4]; exact ⟨rfl, rfl⟩
    rcases hm with ⟨hm1, hm2 | hm2⟩
    · rw [hm2] at e
      obtain ⟨k1, k2⟩ := key _ _ _ _ e
      exact ⟨k1.trans hm1, Or.inl k2⟩
    · rw [hm2] at e
      obtain ⟨k1, k2⟩ := key _ _ _ _ e
      exact ⟨k1.trans hm1, Or.inr k2⟩

theorem last_update {rate : BitVec 32} {us : List (FreqUpdate × Decoder × Time)} {u : FreqUpdate × Decoder × Time}
    {ss ss' : Fin numSensors → Sensor} (h : freqRun rate (us ++ [u]) ss = .ok ss') {i : Fin numSensors}
    (hm : Measures ss i u.1.pin) : Reported ss' i ↔ u.1.valid = false := by
  unfold freqRun at h
  rw [List.foldlM_append] at h
  obtain ⟨s1, h1, h2⟩ := bind_eq_ok.mp h
  have hm1 : Measures s1 i u.1.pin := by
    clear h h2
    induction us generalizing ss with
    | nil => rw [← Except.ok.inj h1]; exact hm
    | cons v us ih =>
        rw [List.foldlM_cons] at h1
        obtain ⟨s2, h3, h4⟩ := bind_eq_ok.mp h1
        exact ih (measures_update h3 hm) h4
  have h3 : (Update.freq u.1).apply rate u.2.1 u.2.2 s1 = .ok ss' := by
    rw [List.foldlM_cons] at h2
    obtain ⟨s2, h3, h4⟩ := bind_eq_ok.mp h2
    rw [← Except.ok.inj h4]
    exact h3
  obtain ⟨hp, hs⟩ := hm1
  rcases hs with hs | hs
  · exact (C33_connection_partial h3 i).1 u.1.frequency (by simp [Update.rawFor, hp, hs])
  · exact (C33_connection_partial h3 i).1 u.1.pulsewidth (by simp [Update.rawFor, hp, hs])

/-- C72 for the pulse width input: whatever came before, two seconds after the last edge every sensor that measures at it is reported
as faulty. -/
def C72_pulse : Prop :=
  ∀ (rate : BitVec 32) (es : List (ℤ × ℤ)) (quiet : ℤ) (us : List (FreqUpdate × Decoder × Time)) (ss ss' : Fin numSensors → Sensor)
    (i : Fin numSensors), 2 * 192000000 ≤ quiet → us.map Prod.fst = pwUpdates 0 es quiet → Measures ss i 3 →
    freqRun rate us ss = .ok ss' → Reported ss' i

/-- C72 for the frequency input on the trigger timer. -/
def C72_capture : Prop :=
  ∀ (rate : BitVec 32) (ts : List ℤ) (quiet : ℤ) (us : List (FreqUpdate × Decoder × Time)) (ss ss' : Fin numSensors → Sensor)
    (i : Fin numSensors), 2 * 4000000 ≤ quiet → ts.IsChain (· < ·) → us.map Prod.fst = captureUpdates ts quiet → Measures ss i 2 →
    freqRun rate us ss = .ok ss' → Reported ss' i

/-- C72 in full. -/
def C72_full : Prop := C72_pulse ∧ C72_capture

omit [LibM] in
theorem pw_last (t0 : ℤ) (es : List (ℤ × ℤ)) (quiet : ℤ) (h : pwWrap ≤ quiet) :
    ∃ (l : List FreqUpdate) (now : Time), pwUpdates t0 es quiet = l ++ [pwTimeout now] := by
  induction es generalizing t0 with
  | nil =>
      have h1 : 0 < pwWrap := by unfold pwWrap pwPrescale; decide
      have h2 : 1 ≤ quiet / pwWrap := by
        rw [Int.le_ediv_iff_mul_le h1]
        omega
      obtain ⟨n, hn⟩ : ∃ n, (quiet / pwWrap).toNat = n + 1 := ⟨(quiet / pwWrap).toNat - 1, by omega⟩
      refine ⟨(List.range n).map fun i : ℕ => pwTimeout (cycleTime (t0 + (i + 1) * pwWrap)), cycleTime (t0 + (n + 1) * pwWrap), ?_⟩
      unfold pwUpdates pwSilence
      rw [hn, List.range_succ, List.map_append]
      rfl
  | cons e es ih =>
      obtain ⟨l, now, hl⟩ := ih (t0 + e.1)
      refine ⟨pwSilence t0 e.1 ++ pwEdge (cycleTime (t0 + e.1)) e.1 e.2 :: l, now, ?_⟩
      unfold pwUpdates
      rw [hl]
      simp

/-- **C72, the part that holds**: the pulse width input. -/
theorem C72_pulse_partial : C72_pulse := by
  intro rate es quiet us ss ss' i hq hu hm h
  obtain ⟨l, now, hl⟩ := pw_last 0 es quiet (by unfold pwWrap pwPrescale; omega)
  rw [hl] at hu
  obtain ⟨us1, us2, rfl, h1, h2⟩ := List.map_eq_append_iff.mp hu
  obtain ⟨u, us3, rfl, h3, h4⟩ := List.map_eq_cons_iff.mp h2
  rw [List.map_eq_nil_iff] at h4
  subst h4
  rw [last_update h (by rw [h3]; exact hm), h3]
  rfl

end

/-- Met by the silence after power-on: an overflow, handled without a fault. -/
example : (@pwUpdates binary32 0 [] 384000000).length = 1 ∧
    (@freqRun binary32 anyLibM 5000 ((@pwUpdates binary32 0 [] 384000000).map fun u => (u, @dfltDecoder binary32, 0))
      fun _ => { @dfltSensors binary32 0 with pin := 3, source := .freq }).toOption.isSome = true := by decide +kernel

/-- C72 fails on the trigger timer's input: the last frequency stays valid for ever. -/
theorem C72_full_false : ¬ @C72_full binary32 anyLibM := by
  intro h
  let _ := binary32
  let _ := anyLibM
  let ss : Fin numSensors → Sensor := fun _ => { dfltSensors 0 with pin := 2, source := .freq, method := .linear }
  have hok : ∃ s, freqOne 5000 dfltDecoder 0 (freqCapture 0 1000).2 (ss 0) = .ok s := by
    have hb : (freqOne 5000 dfltDecoder 0 (freqCapture 0 1000).2 (ss 0)).toOption.isSome = true := by decide +kernel
    revert hb
    cases freqOne 5000 dfltDecoder 0 (freqCapture 0 1000).2 (ss 0) with
    | error e => intro hb; cases hb
    | ok s => intro _; exact ⟨s, rfl⟩
  obtain ⟨s, hs⟩ := hok
  have h1 := updateAt_list _ _ (List.nodup_finRange numSensors) ss (fun _ => s) (fun i _ => hs)
  have hrun : ∃ ss', freqRun 5000 [((freqCapture 0 1000).2, dfltDecoder, 0)] ss = .ok ss' := by
    unfold freqRun updateFreq
    rw [List.foldlM_cons, h1]
    exact ⟨_, rfl⟩
  obtain ⟨ss', hrun⟩ := hrun
  have hm : Measures ss 0 2 := ⟨rfl, Or.inl rfl⟩
  have := h.2 5000 [1000] 8000000 _ ss _ 0 (by decide) (by simp) (by rfl) hm hrun
  have h2 := (last_update (us := []) hrun (i := 0) hm).mp this
  revert h2
  decide +kernel

end Verif
