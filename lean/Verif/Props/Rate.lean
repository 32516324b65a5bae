/-
C65: a sensor's rate of change is per second of real time.
-/
import Verif.Model.Adc
import Verif.Props.Window
import Verif.Props.Adc

namespace Verif

open Fl FloatFmt

/-- The real time, in seconds, between two conversions of the same input: the sequence of commands is sent round and round. -/
def conversionPeriod (b : AdcBoard) : ℚ := numSpiTx b.chip / b.framesPerSecond

/-- C65, for analog inputs, in exact arithmetic. -/
def C65_analog (b : AdcBoard) : Prop :=
  ∀ (lib : LibM) (d : Decoder) (now t : Time) (s s' : Sensor) (raw : Fl) (x y : ℚ),
    @sensorConvert exactFmt lib b.adcRate d now s raw t = .ok s' →
    detectFaults { s with rawValue := raw, time := t } = .none →
    s.value = .fin x → s'.value = .fin y →
    s'.derivative = .fin ((y - x) / conversionPeriod b)

/-- C65, for frequency and pulse width inputs: two updates in a row, `n` ticks apart. -/
def C65_frequency : Prop :=
  ∀ (lib : LibM) (b : AdcBoard) (d : Decoder) (u v : FreqUpdate) (s s' s'' : Sensor) (x y : ℚ),
    @freqOne exactFmt lib b.adcRate d u.time u s = .ok s' →
    @freqOne exactFmt lib b.adcRate d v.time v s' = .ok s'' →
    s.pin = u.pin → v.pin = u.pin → (s.source = .freq ∨ s.source = .pulsewidth) →
    u.valid = true → v.valid = true → s.faultMax = .fin 0 → u.time.toNat < v.time.toNat →
    s'.value = .fin x → s''.value = .fin y →
    s''.derivative = .fin ((y - x) / ((v.time.toNat - u.time.toNat : ℚ) / 4000000))

def C65_full : Prop := (∀ b, C65_analog b) ∧ C65_frequency

theorem ok_of_toOption {α : Type} {x : Except Fault α} {a : α} (h : x.toOption = some a) : x = .ok a := by
  cases x with
  | error e => cases h
  | ok b => cases h; rfl

/-- What the code computes: 5000 times the difference. -/
theorem sensorConvert_derivative (lib : LibM) (d : Decoder) (now t : Time) (s s' : Sensor) (raw : Fl) (x y : ℚ)
    (h : @sensorConvert exactFmt lib 5000 d now s raw t = .ok s')
    (hf : detectFaults { s with rawValue := raw, time := t } = .none)
    (hx : s.value = .fin x) (hy : s'.value = .fin y) : s'.derivative = .fin ((y - x) * 5000) := by
  let _ := exactFmt
  unfold sensorConvert at h
  simp only at h
  rw [if_neg (by rw [hf]; decide)] at h
  obtain ⟨⟨w, v⟩, _, h⟩ := bind_eq_ok.mp h
  simp only at h
  obtain ⟨dv, h1, h⟩ := bind_eq_ok.mp h
  cases h
  simp only at hy ⊢
  unfold processDerivative at h1
  rw [if_neg (by decide)] at h1
  have e : timeFromUs (BitVec.ofNat 32 (1000000 / (5000 : BitVec 32).toNat)) = .ok 800 := by
    rw [timeFromUs_eq _ (by decide)]
    rfl
  rw [e] at h1
  cases h1
  rw [hy]
  simp only [hx]
  show (Fl.ofNat tickrate * (Fl.fin y - Fl.fin x) / Fl.ofU32 800 : Fl) = _
  have e1 : Fl.ofNat tickrate = .fin 4000000 := by
    exact (rnd_nat 4000000 (by norm_num)).trans (by norm_num)
  have e2 : Fl.ofU32 800 = .fin 800 := by
    exact (rnd_nat 800 (by norm_num)).trans (by norm_num)
  rw [e1, e2, fin_sub]
  show (Fl.fin 4000000 * Fl.fin (y - x) / Fl.fin 800 : Fl) = _
  rw [fin_mul]
  show (Fl.fin (4000000 * (y - x)) / Fl.fin 800 : Fl) = _
  rw [fin_div _ _ (by norm_num)]
  show Fl.fin _ = _
  congr 1
  ring

/-- C65 holds with the TLV2553, on both boards. -/
theorem C65_tlv2553_partial (b : AdcBoard) (h : b.chip = .tlv2553) : C65_analog b := by
  intro lib d now t s s' raw x y h1 h2 h3 h4
  have hr : b.adcRate = 5000 := by cases b <;> rfl
  rw [hr] at h1
  rw [sensorConvert_derivative lib d now t s s' raw x y h1 h2 h3 h4]
  unfold conversionPeriod
  have hp : b.framesPerSecond = 150000 := by cases b <;> first | rfl | (exact absurd h (by decide))
  rw [h, hp]
  congr 1
  norm_num
  ring

/-- A throttle sensor: 0 V to 5 V read as 0 to 100. -/
def rateSensor : Sensor :=
  { @dfltSensors exactFmt 0 with
    source := .adc, method := .linear, pin := 3, rawMin := .fin 0, rawMax := .fin 5, rangeMin := .fin 0, rangeMax := .fin 100,
    lag := .fin 0, faultMin := .fin 0, faultMax := .fin 0, value := .fin 0, fault := .none }

/-- With the AD7888 every rate of change is 9/14 of the real one: the nine commands take 9/70000 s, not 1/5000 s. -/
theorem C65_ad7888_wrong (lib : LibM) (d : Decoder) (now t : Time) (s s' : Sensor) (raw : Fl) (x y : ℚ)
    (h1 : @sensorConvert exactFmt lib AdcBoard.stm32Ad7888.adcRate d now s raw t = .ok s')
    (h2 : detectFaults { s with rawValue := raw, time := t } = .none)
    (h3 : s.value = .fin x) (h4 : s'.value = .fin y) :
    s'.derivative = .fin ((y - x) / conversionPeriod .stm32Ad7888 * (9 / 14)) := by
  rw [sensorConvert_derivative lib d now t s s' raw x y h1 h2 h3 h4]
  unfold conversionPeriod
  congr 1
  norm_num [AdcBoard.chip, AdcBoard.framesPerSecond]
  ring

/-- The shipped decoder. -/
def rateDecoder : Decoder := @dfltDecoder exactFmt

/-- One volt more on the throttle sensor. -/
theorem rate_sample : ∃ s', @sensorConvert exactFmt anyLibM 5000 rateDecoder 0 rateSensor (.fin 1) 0 = .ok s' ∧
    s'.value = .fin 20 := by
  refine ⟨{ rateSensor with rawValue := .fin 1, time := 0, value := .fin 20, derivative := .fin 100000 }, ?_, rfl⟩
  apply ok_of_toOption
  decide +kernel

/-- Violation: with the AD7888 the rate of change is wrong. -/
theorem C65_full_false : ¬ C65_full := by
  intro hf
  obtain ⟨s', h1, h2⟩ := rate_sample
  have h := hf.1 .stm32Ad7888 anyLibM rateDecoder 0 0 rateSensor s' (.fin 1) 0 20 h1 (by decide +kernel) rfl h2
  rw [sensorConvert_derivative anyLibM rateDecoder 0 0 rateSensor s' (.fin 1) 0 20 h1 (by decide +kernel) rfl h2] at h
  revert h
  simp [conversionPeriod, AdcBoard.chip, AdcBoard.framesPerSecond]
  norm_num

/-- Violation: frequency inputs are treated as if they too came 5000 times per second.  Here the input rises by one in one
second; the reported rate of change is 5000 per second. -/
theorem C65_frequency_false : ¬ C65_frequency := by
  intro hf
  let s : Sensor := { rateSensor with source := .freq }
  let u : FreqUpdate := { time := 4000000, valid := true, pin := 3, frequency := .fin 1, pulsewidth := .fin 0 }
  let v : FreqUpdate := { time := 8000000, valid := true, pin := 3, frequency := .fin 2, pulsewidth := .fin 0 }
  obtain ⟨s', h1, h2, h3, h4, h5⟩ : ∃ s', @freqOne exactFmt anyLibM 5000 rateDecoder u.time u s = .ok s' ∧
      s'.value = .fin 20 ∧ s' = { s with rawValue := .fin 1, time := 4000000, value := .fin 20, derivative := .fin 100000 } ∧
      True ∧ True := by
    refine ⟨_, ?_, rfl, rfl, trivial, trivial⟩
    apply ok_of_toOption
    decide +kernel
  obtain ⟨s'', h6, h7, h8⟩ : ∃ s'', @freqOne exactFmt anyLibM 5000 rateDecoder v.time v s' = .ok s'' ∧
      s''.value = .fin 40 ∧ s''.derivative = .fin 100000 := by
    rw [h3]
    refine ⟨{ s with rawValue := .fin 2, time := 8000000, value := .fin 40, derivative := .fin 100000 }, ?_, rfl, rfl⟩
    apply ok_of_toOption
    decide +kernel
  have h := hf anyLibM .gd32Tlv2553 rateDecoder u v s s' s'' 20 40 h1 h6 rfl rfl (Or.inl rfl) rfl rfl rfl (by decide) h2 h7
  rw [h8] at h
  have h9 : (100000 : ℚ) = (40 - 20) / (((8000000 : BitVec 32).toNat - (4000000 : BitVec 32).toNat : ℚ) / 4000000) :=
    Fl.fin.inj h
  have e1 : (8000000 : BitVec 32).toNat = 8000000 := by decide
  have e2 : (4000000 : BitVec 32).toNat = 4000000 := by decide
  rw [e1, e2] at h9
  norm_num at h9

/-- Non-vacuity of `C65_tlv2553_partial`. -/
example : ∃ s', @sensorConvert exactFmt anyLibM AdcBoard.gd32Tlv2553.adcRate rateDecoder 0 rateSensor (.fin 1) 0 = .ok s' ∧
    s'.derivative = .fin (20 / (1 / 5000)) := by
  obtain ⟨s', h1, h2⟩ := rate_sample
  refine ⟨s', h1, ?_⟩
  rw [C65_tlv2553_partial .gd32Tlv2553 rfl anyLibM rateDecoder 0 0 rateSensor s' (.fin 1) 0 20 h1 (by decide +kernel) rfl h2]
  congr 1
  norm_num [conversionPeriod, AdcBoard.chip, AdcBoard.framesPerSecond]

end Verif
