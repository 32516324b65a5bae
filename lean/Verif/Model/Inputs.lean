/-
Model of the capture inputs' set-up and of the frequency inputs: gd32f4_sched.c:48-110, 116-173, gd32f4_sensors.c:122-188,
stm32f4-discovery.c:83-133, 154-168.
-/
import Verif.Model.Capture
import Verif.Model.Console

namespace Verif

/-- The polarity and enable bits of one capture channel (CHxP, CHxNP, CHxEN on the gd32; CCxP, CCxNP, CCxE on the stm32). -/
structure CapBits where
  p : Bool
  np : Bool
  en : Bool
  deriving DecidableEq

/-- Reference manuals (GD32F4xx TIMER_CHCTL2, RM0090 TIMx_CCER): which edges a channel captures.  P alone selects the falling edge,
P and NP both edges, neither the rising edge; NP alone is reserved, and taken here to capture nothing. -/
def CapBits.captures (c : CapBits) (rise : Bool) : Bool :=
  c.en && (match c.p, c.np with
    | false, false => rise
    | true, false => !rise
    | true, true => true
    | false, true => false)

/-- gd32f4_sched.c:57-64. -/
def edgeP (e : TrigEdge) : Bool := e == .falling || e == .both
def edgeNp (e : TrigEdge) : Bool := e == .both

/-- gd32f4_sched.c:84-89 as written: the bit for both edges of channel 1 goes to channel 2. -/
def gd32Bits (f : Fin 4 → FreqInput) : Fin 3 → CapBits
  | 0 => { p := edgeP (f 0).edge, np := edgeNp (f 0).edge, en := (f 0).type != .none }
  | 1 => { p := edgeP (f 1).edge, np := false, en := (f 1).type != .none }
  | 2 => { p := edgeP (f 2).edge, np := edgeNp (f 1).edge || edgeNp (f 2).edge, en := (f 2).type != .none }

/-- stm32f4-discovery.c:83-93 `capture_edge_from_config` and 117-130 (libopencm3's `timer_ic_set_polarity` sets the bits as in the
reference manual): the captures are always enabled. -/
def stm32Bits (f : Fin 4 → FreqInput) (k : Bool) : CapBits :=
  let e := (f (if k then 1 else 0)).edge
  { p := edgeP e, np := edgeNp e, en := true }

/-- The bits of trigger input `k`. -/
def inputBits (p : CapPlatform) (f : Fin 4 → FreqInput) (k : Bool) : CapBits :=
  match p with
  | .gd32 => gd32Bits f (if k then 1 else 0)
  | .stm32 => stm32Bits f k

/-- Is the interrupt of trigger input `k` enabled?  gd32f4_sched.c:107-109; stm32f4-discovery.c:158-164. -/
def inputIrq (p : CapPlatform) (f : Fin 4 → FreqInput) (k : Bool) : Bool :=
  match p with
  | .gd32 => true
  | .stm32 => (f (if k then 1 else 0)).type == .trigger

/-- What happens around the inputs. -/
inductive PinEv
  /-- the level of trigger input `k` rises or falls -/
  | level (k : Bool) (rise : Bool) (t : Time)
  /-- the processor takes the timer's interrupt if it is requested; `timer`: the compare channel requests it -/
  | irq (timer : Bool)
  deriving DecidableEq

/-- One of them.  The handler runs to its end (Verif.Model.Capture has its single steps). -/
def CapSys.pin (p : CapPlatform) (f : Fin 4 → FreqInput) (s : CapSys) : PinEv → CapSys
  | .level k rise t => if (inputBits p f k).captures rise then s.act p (.edge k t) else s
  | .irq timer =>
      if timer || ((s.ch false).flag && inputIrq p f false) || ((s.ch true).flag && inputIrq p f true)
      then s.run p (.enter :: List.replicate 10 .step) else s

def CapSys.pins (p : CapPlatform) (f : Fin 4 → FreqInput) (s : CapSys) (es : List PinEv) : CapSys := es.foldl (CapSys.pin p f) s

section
variable [FloatFmt]

/-- gd32f4_sched.c:158-173: the frequency input on channel 2; `last` is `tim1_ch2_freq.last_time`. -/
def freqCapture (last t : Time) : Time × FreqUpdate :=
  let period := t - last
  let valid := decide (period ≠ 0)
  (t, { time := t, valid := valid, pin := 2,
        frequency := if valid then Fl.fin 4000000 / Fl.ofNat period.toNat else Fl.fin 0, pulsewidth := Fl.fin 0 })

/-- The updates for a sequence of captures. -/
def freqCaptures (last : Time) : List Time → List FreqUpdate
  | [] => []
  | t :: ts => (freqCapture last t).2 :: freqCaptures (freqCapture last t).1 ts

/-- gd32f4_sensors.c:133-135: the counter of the pulse width input advances once in PSC + 1 = 2931 cycles of the 192 MHz clock, and
overflows after 65536 counts. -/
def pwPrescale : ℤ := 2931
def pwWrap : ℤ := 65536 * pwPrescale

/-- The counter `n` cycles after it was restarted. -/
def pwCount (n : ℤ) : BitVec 16 := BitVec.ofInt 16 (n / pwPrescale)

/-- gd32f4_sensors.c:164-177: the update at an active edge `period` cycles after the one before, with the other edge `width` cycles
after it.  `now` is `current_time()`. -/
def pwEdge (now : Time) (period width : ℤ) : FreqUpdate :=
  let pulsewidth := pwCount width
  let per := pwCount period
  let valid := decide (per ≠ 0)
  { time := now, valid := valid, pin := 3,
    frequency := if valid then Fl.fin 65536 / Fl.ofNat per.toNat else Fl.fin 0,
    pulsewidth := Fl.ofNat pulsewidth.toNat / Fl.fin 65536 }

/-- gd32f4_sensors.c:179-187: the update when the counter overflows. -/
def pwTimeout (now : Time) : FreqUpdate :=
  { time := now, valid := false, pin := 3, frequency := Fl.fin 0, pulsewidth := Fl.fin 0 }

/-- `current_time()` at cycle `c` of the 192 MHz clock: the tick counter advances once in 48 cycles.  The handler's latency is
neglected. -/
def cycleTime (c : ℤ) : Time := BitVec.ofInt 32 (c / 48)

/-- The updates for the pulse width input while nothing comes for `n` cycles from cycle `t0`, where its counter was restarted: one at
each overflow. -/
def pwSilence (t0 n : ℤ) : List FreqUpdate :=
  (List.range (n / pwWrap).toNat).map fun i : ℕ => pwTimeout (cycleTime (t0 + (i + 1) * pwWrap))

/-- All updates for the pulse width input: active edges, each `period` cycles after the one before and with a pulse of `width`; then
`quiet` cycles without. -/
def pwUpdates (t0 : ℤ) : List (ℤ × ℤ) → ℤ → List FreqUpdate
  | [], quiet => pwSilence t0 quiet
  | (period, width) :: es, quiet =>
      pwSilence t0 period ++ pwEdge (cycleTime (t0 + period)) period width :: pwUpdates (t0 + period) es quiet

/-- All updates for the frequency input on channel 2: edges at the given ticks, then `quiet` ticks without.  Nothing in
gd32f4_sched.c looks at `tim1_ch2_freq` except at a capture, so no update comes from the silence. -/
def captureUpdates (ts : List ℤ) (_quiet : ℤ) : List FreqUpdate := freqCaptures 0 (ts.map fun t => BitVec.ofInt 32 t)

end

end Verif
