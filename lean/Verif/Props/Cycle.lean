/-
C86: every ignition output fires in every cycle.
-/
import Verif.Proofs.CycleCore

namespace Verif

variable [FloatFmt]

/-- C86.  The firmware has started and the crank turns, at a speed within a band.  The teeth of its wheel reach the firmware as
captures, in order and within 64 microseconds; from the second synchronised tooth on each is handled within `late` ticks, the
advance at tooth `j` is `adv j`, within `δ` of `V`, the dwell is `dlo` to `dhi` ticks, and nothing is cut; the band of the advance is narrower than
the distance between two teeth; sensors, timer, buffers and the client may do anything.
The run goes on from a state `e1` in which ignition output `i` has nothing pending to a state `e`.  Then in every cycle `m`
which comes 1500 degrees or more after the last tooth decoded at `e1`, and is over at `e`, the hardware was given a tick `t` at which to drive the pin of the output
to its inactive level, and a tick `s` before it at which to drive it to the active level: a spark at the commanded angle, to within `δ` and the
error of the crank, after a charge as long as commanded. -/
theorem C86_fires {d0 : Decoder} {N sh R n0 k1 : ℕ} {v g A V O δ : ℚ} {adv : ℕ → ℚ} {p q dlo dhi late : ℤ} {T : ℕ → ℤ} {θ : ℤ → ℚ} {c : CrankTol}
    {eb e1 e : Engine} {n1 E1 n E : ℤ} {i : Fin maxEvents}
    (hu : RunSetup d0 N sh R v g p q T) (ht : d0.type = .missingNosync) (hg : FirstGap N sh R n0) (ho : d0.offset = .fin O) (hO : |O| ≤ 720)
    (turns : CrankTurns θ c (wheelPos N sh) n0 g T) (hT : Turning θ g p q) (hc : c.Sane) (s0 : 1 / 2 ^ 18 ≤ c.speed)
    (room : CycleRoom (c.error + δ) g p q dlo dhi late eb.cfg.ignition.minFireUs) (hV : |V| + δ ≤ 720) (hadv : ∀ j, |adv j - V| ≤ δ) (hδ : 2 * δ + 1 / 125 < g)
    (hb : EngBoot eb) (hd : eb.cfg.decoder = decoderInit d0)
    (hi : (eb.cfg.events i).type = .ignition) (hA : (eb.cfg.events i).angle = .fin A) (hA1 : |A| ≤ 720)
    {Gd : ℤ → Engine → Prop} (hGd : ∀ n e, Gd n e → Firing T n0 late adv dlo dhi n e) (h1 : EngTimed Honest Gd eb n1 E1 e1) (hk1 : Decoded (k1 + 1) e1) (hn : n0 < k1)
    (quiet : eventIsUnscheduled (e1.cfg.events i) = true ∨ eventHasFired (e1.cfg.events i) = true)
    (h : EngOn Honest Gd n1 E1 e1 n E e)
    {pin : Fin 16} (hpin : ((eb.cfg.events i).pin.setWidth 8).toNat = pin) {m : ℤ}
    (start : θ (T k1) + 1500 ≤ A - V + O + 720 * m) (over : A - V + O + 720 * m + (c.error + δ) ≤ θ n) :
    ∃ s t, AtAngle θ (A - V + O) (c.error + δ) m t ∧ s < t ∧
      g * dlo - 2 * (c.error + δ) * q ≤ g * (t - s) ∧ g * (t - s) ≤ g * dhi + 2 * (c.error + δ) * q ∧
      DrivenOn Honest Gd n1 E1 e1 n E e pin (!(eb.cfg.events i).inverted) s ∧
      DrivenOn Honest Gd n1 E1 e1 n E e pin (eb.cfg.events i).inverted t :=
  cycle_fires (missing_shape hu turns hc.speed1) (crank_feed hu.turn.wheel.teeth) hO turns hT hc room hV hadv hδ hb hi hA hA1 hGd h1 hk1 hn (Nat.le_succ _) (by omega)
    (run_follows hu ht hg ho turns hc s0 (fun n e h => (hGd n e h).1) hb hd h1 hk1 hn) quiet h hpin start over

/-- C86.  In the same run, with output `i` alone on its pin, every tick at which the hardware was given the pin's inactive level is at the commanded
angle of some cycle, and from then on no other tick of that cycle is given to it: the output fires at most once in a cycle. -/
theorem C86_once {d0 : Decoder} {N sh R n0 k1 : ℕ} {v g A V O δ : ℚ} {adv : ℕ → ℚ} {p q dlo dhi late : ℤ} {T : ℕ → ℤ} {θ : ℤ → ℚ} {c : CrankTol}
    {eb e1 e2 : Engine} {n1 E1 n2 E2 t2 : ℤ} {i : Fin maxEvents}
    (hu : RunSetup d0 N sh R v g p q T) (ht : d0.type = .missingNosync) (hg : FirstGap N sh R n0) (ho : d0.offset = .fin O) (hO : |O| ≤ 720)
    (turns : CrankTurns θ c (wheelPos N sh) n0 g T) (hT : Turning θ g p q) (hc : c.Sane) (s0 : 1 / 2 ^ 18 ≤ c.speed)
    (room : CycleRoom (c.error + δ) g p q dlo dhi late eb.cfg.ignition.minFireUs) (hV : |V| + δ ≤ 720) (hadv : ∀ j, |adv j - V| ≤ δ) (hδ : 2 * δ + 1 / 125 < g)
    (hb : EngBoot eb) (hd : eb.cfg.decoder = decoderInit d0)
    (hi : (eb.cfg.events i).type = .ignition) (hA : (eb.cfg.events i).angle = .fin A) (hA1 : |A| ≤ 720)
    {Gd : ℤ → Engine → Prop} (hGd : ∀ n e, Gd n e → Firing T n0 late adv dlo dhi n e) (h1 : EngTimed Honest Gd eb n1 E1 e1) (hk1 : Decoded (k1 + 1) e1) (hn : n0 < k1)
    (quiet : eventIsUnscheduled (e1.cfg.events i) = true ∨ eventHasFired (e1.cfg.events i) = true)
    {pin : Fin 16} (hpin : ((eb.cfg.events i).pin.setWidth 8).toNat = pin) (only : ∀ j, ((eb.cfg.events j).pin.setWidth 8).toNat = pin → j = i)
    (h2 : EngOn Honest Gd n1 E1 e1 n2 E2 e2)
    {b2 : Bool} (in2 : InBuffer E2 e2 b2 t2) (dr2 : Drives (e2.buf b2) (stamp t2) pin (eb.cfg.events i).inverted) :
    ∃ m, AtAngle θ (A - V + O) (c.error + δ) m t2 ∧
      ∀ n3 E3 e3 b3 t3, EngOn Honest Gd n2 E2 e2 n3 E3 e3 → InBuffer E3 e3 b3 t3 →
        Drives (e3.buf b3) (stamp t3) pin (eb.cfg.events i).inverted → AtAngle θ (A - V + O) (c.error + δ) m t3 → t3 = t2 :=
  cycle_once (missing_shape hu turns hc.speed1) (crank_feed hu.turn.wheel.teeth) hO turns hT hc room hV hadv hδ hb hi hA hA1 hGd h1 hk1 hn (Nat.le_succ _) (by omega)
    (run_follows hu ht hg ho turns hc s0 (fun n e h => (hGd n e h).1) hb hd h1 hk1 hn) quiet hpin only h2 in2 dr2

end Verif
