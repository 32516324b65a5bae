/-
C92: every injector opens once in every cycle.
-/
import Verif.Proofs.PulsesCore

namespace Verif

variable [FloatFmt]

/-- C92.  The firmware has started and the crank turns, at a speed within a band.  The teeth of its wheel reach the firmware as
captures, in order and within 64 microseconds; from the second synchronised tooth on each is handled within `late` ticks, the
fuel pulse is `dlo` to `dhi` ticks long, and nothing is cut; sensors, timer, buffers and the client may do anything.
The run goes on from a state `e1` in which injector `i` has nothing pending to a state `e`.  Then in every cycle `m`
which comes 1500 degrees or more after the last tooth decoded at `e1`, and is over at `e`, the hardware was given a tick `s` at which to open the
injector and a tick `t` at which to close it: a pulse of `dlo` to `dhi` ticks that ends at the commanded angle, within `ε`
degrees.  `ε` is the error of a spark and as many degrees as the crank may turn while the width of the pulse changes. -/
theorem C92_fires {d0 : Decoder} {N sh R n0 k1 : ℕ} {v g A O ε : ℚ} {p q dlo dhi late : ℤ} {T : ℕ → ℤ} {θ : ℤ → ℚ} {c : CrankTol}
    {eb e1 e : Engine} {n1 E1 n E : ℤ} {i : Fin maxEvents}
    (hu : RunSetup d0 N sh R v g p q T) (ht : d0.type = .missingNosync) (hg : FirstGap N sh R n0) (ho : d0.offset = .fin O) (hO : |O| ≤ 720)
    (turns : CrankTurns θ c (wheelPos N sh) n0 g T) (hT : Turning θ g p q) (hc : c.Sane) (s0 : 1 / 2 ^ 18 ≤ c.speed)
    (room : CycleRoom ε g p q dlo dhi late 0) (hε : g * (dhi - dlo) ≤ p * (ε - c.error))
    (hb : EngBoot eb) (hd : eb.cfg.decoder = decoderInit d0)
    (hi : (eb.cfg.events i).type = .fuel) (hA : (eb.cfg.events i).angle = .fin A) (hA1 : |A| ≤ 720)
    {Gd : ℤ → Engine → Prop} (hGd : ∀ n e, Gd n e → Injecting T n0 late dlo dhi n e) (h1 : EngTimed Honest Gd eb n1 E1 e1) (hk1 : Decoded (k1 + 1) e1) (hn : n0 < k1)
    (quiet : eventIsUnscheduled (e1.cfg.events i) = true ∨ eventHasFired (e1.cfg.events i) = true)
    (h : EngOn Honest Gd n1 E1 e1 n E e)
    {pin : Fin 16} (hpin : ((eb.cfg.events i).pin.setWidth 8).toNat = pin) {m : ℤ}
    (start : θ (T k1) + 1500 ≤ A + O + 720 * m) (over : A + O + 720 * m + ε ≤ θ n) :
    ∃ s t, AtAngle θ (A + O) ε m t ∧ s < t ∧
      dlo ≤ t - s ∧ t - s ≤ dhi ∧
      DrivenOn Honest Gd n1 E1 e1 n E e pin (!(eb.cfg.events i).inverted) s ∧
      DrivenOn Honest Gd n1 E1 e1 n E e pin (eb.cfg.events i).inverted t :=
  pulse_fires (missing_shape hu turns hc.speed1) (crank_feed hu.turn.wheel.teeth) hO turns hT hc room hε hb hi hA hA1 hGd h1 hk1 hn (Nat.le_succ _) (by omega)
    (run_follows hu ht hg ho turns hc s0 (fun n e h => (hGd n e h).1) hb hd h1 hk1 hn) quiet h hpin start over

/-- C92.  In the same run, with output `i` alone on its pin, every tick at which the hardware was given the pin's inactive level is at the commanded
angle of some cycle, and from then on no other tick of that cycle is given to it: the injector closes, and so opens, at most once in a cycle. -/
theorem C92_once {d0 : Decoder} {N sh R n0 k1 : ℕ} {v g A O ε : ℚ} {p q dlo dhi late : ℤ} {T : ℕ → ℤ} {θ : ℤ → ℚ} {c : CrankTol}
    {eb e1 e2 : Engine} {n1 E1 n2 E2 t2 : ℤ} {i : Fin maxEvents}
    (hu : RunSetup d0 N sh R v g p q T) (ht : d0.type = .missingNosync) (hg : FirstGap N sh R n0) (ho : d0.offset = .fin O) (hO : |O| ≤ 720)
    (turns : CrankTurns θ c (wheelPos N sh) n0 g T) (hT : Turning θ g p q) (hc : c.Sane) (s0 : 1 / 2 ^ 18 ≤ c.speed)
    (room : CycleRoom ε g p q dlo dhi late 0) (hε : g * (dhi - dlo) ≤ p * (ε - c.error))
    (hb : EngBoot eb) (hd : eb.cfg.decoder = decoderInit d0)
    (hi : (eb.cfg.events i).type = .fuel) (hA : (eb.cfg.events i).angle = .fin A) (hA1 : |A| ≤ 720)
    {Gd : ℤ → Engine → Prop} (hGd : ∀ n e, Gd n e → Injecting T n0 late dlo dhi n e) (h1 : EngTimed Honest Gd eb n1 E1 e1) (hk1 : Decoded (k1 + 1) e1) (hn : n0 < k1)
    (quiet : eventIsUnscheduled (e1.cfg.events i) = true ∨ eventHasFired (e1.cfg.events i) = true)
    {pin : Fin 16} (hpin : ((eb.cfg.events i).pin.setWidth 8).toNat = pin) (only : ∀ j, ((eb.cfg.events j).pin.setWidth 8).toNat = pin → j = i)
    (h2 : EngOn Honest Gd n1 E1 e1 n2 E2 e2)
    {b2 : Bool} (in2 : InBuffer E2 e2 b2 t2) (dr2 : Drives (e2.buf b2) (stamp t2) pin (eb.cfg.events i).inverted) :
    ∃ m, AtAngle θ (A + O) ε m t2 ∧
      ∀ n3 E3 e3 b3 t3, EngOn Honest Gd n2 E2 e2 n3 E3 e3 → InBuffer E3 e3 b3 t3 →
        Drives (e3.buf b3) (stamp t3) pin (eb.cfg.events i).inverted → AtAngle θ (A + O) ε m t3 → t3 = t2 :=
  pulse_once (missing_shape hu turns hc.speed1) (crank_feed hu.turn.wheel.teeth) hO turns hT hc room hε hb hi hA hA1 hGd h1 hk1 hn (Nat.le_succ _) (by omega)
    (run_follows hu ht hg ho turns hc s0 (fun n e h => (hGd n e h).1) hb hd h1 hk1 hn) quiet hpin only h2 in2 dr2

end Verif
