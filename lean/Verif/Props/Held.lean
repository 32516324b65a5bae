/-
C101: a charge or an injection that has begun ends, in time.
-/
import Verif.Proofs.HeldCore
import Verif.Props.Cycle
import Verif.Props.Pulses
import Verif.Props.CamEngine
import Verif.Props.EvenEngine

namespace Verif

variable [FloatFmt]

/-- C101.  The firmware and the crank are as in `C86_fires`, and output `i` is alone on its pin.  At some moment of the run (`e2`) the hardware has
been given a tick `s2` at which to drive the pin to its active level.  Then this is the beginning of a charge for some cycle `m`: it
comes the dwell before the commanded angle.  At every later moment (`e3`) every tick given for the active level is this one, or begins the charge of
a later cycle.  And once the dwell and the error of the crank have passed since `s2`, the hardware has been given the tick at which to
drive the pin to its inactive level: the coil is fired at the commanded angle of that cycle, after a charge as long as commanded. -/
theorem C101_coil {d0 : Decoder} {N sh R n0 k1 : ℕ} {v g A V O δ : ℚ} {adv : ℕ → ℚ} {p q dlo dhi late : ℤ} {T : ℕ → ℤ} {θ : ℤ → ℚ} {c : CrankTol}
    {eb e1 e2 : Engine} {n1 E1 n2 E2 s2 : ℤ} {i : Fin maxEvents}
    (hu : RunSetup d0 N sh R v g p q T) (ht : d0.type = .missingNosync) (hg : FirstGap N sh R n0) (ho : d0.offset = .fin O) (hO : |O| ≤ 720)
    (turns : CrankTurns θ c (wheelPos N sh) n0 g T) (hT : Turning θ g p q) (hc : c.Sane) (s0 : 1 / 2 ^ 18 ≤ c.speed)
    (room : CycleRoom (c.error + δ) g p q dlo dhi late eb.cfg.ignition.minFireUs) (hV : |V| + δ ≤ 720) (hadv : ∀ j, |adv j - V| ≤ δ) (hδ : 2 * δ + 1 / 125 < g)
    (hb : EngBoot eb) (hd : eb.cfg.decoder = decoderInit d0)
    (hi : (eb.cfg.events i).type = .ignition) (hA : (eb.cfg.events i).angle = .fin A) (hA1 : |A| ≤ 720)
    {Gd : ℤ → Engine → Prop} (hGd : ∀ n e, Gd n e → Firing T n0 late adv dlo dhi n e) (h1 : EngTimed Honest Gd eb n1 E1 e1) (hk1 : Decoded (k1 + 1) e1) (hn : n0 < k1)
    (quiet : eventIsUnscheduled (e1.cfg.events i) = true ∨ eventHasFired (e1.cfg.events i) = true)
    {pin : Fin 16} (hpin : ((eb.cfg.events i).pin.setWidth 8).toNat = pin) (only : ∀ j, ((eb.cfg.events j).pin.setWidth 8).toNat = pin → j = i)
    (h2 : EngOn Honest Gd n1 E1 e1 n2 E2 e2)
    {b2 : Bool} (in2 : InBuffer E2 e2 b2 s2) (dr2 : Drives (e2.buf b2) (stamp s2) pin (!(eb.cfg.events i).inverted)) :
    ∃ m, (∃ P, AtAngle θ (A - V + O) (c.error + δ) m P ∧ dlo ≤ P - s2 ∧ P - s2 ≤ dhi) ∧
      ∀ n3 E3 e3, EngOn Honest Gd n2 E2 e2 n3 E3 e3 →
        (∀ b3 s3, InBuffer E3 e3 b3 s3 → Drives (e3.buf b3) (stamp s3) pin (!(eb.cfg.events i).inverted) →
          s3 = s2 ∨ ∃ m' > m, ∃ P, AtAngle θ (A - V + O) (c.error + δ) m' P ∧ dlo ≤ P - s3 ∧ P - s3 ≤ dhi) ∧
        (g * dhi + 2 * (c.error + δ) * q ≤ g * (n3 - s2) →
          ∃ t, AtAngle θ (A - V + O) (c.error + δ) m t ∧ s2 < t ∧
            g * dlo - 2 * (c.error + δ) * q ≤ g * (t - s2) ∧ g * (t - s2) ≤ g * dhi + 2 * (c.error + δ) * q ∧
            DrivenOn Honest Gd n2 E2 e2 n3 E3 e3 pin (eb.cfg.events i).inverted t) :=
  coil_held (missing_shape hu turns hc.speed1) (crank_feed hu.turn.wheel.teeth) hO turns hT hc room hV hadv hδ hb hi hA hA1 hGd h1 hk1 hn (Nat.le_succ _) (by omega)
    (run_follows hu ht hg ho turns hc s0 (fun n e h => (hGd n e h).1) hb hd h1 hk1 hn) quiet hpin only h2 in2 dr2

/-- C101, coils, on a wheel with a cam: the firmware and the crank are as in `C86_cam_fires`. -/
theorem C101_coil_cam {d0 : Decoder} {N sh R k n0 j1 : ℕ} {v g A V O δ : ℚ} {adv : ℕ → ℚ} {p q dlo dhi late : ℤ} {T P : ℕ → ℤ} {θ : ℤ → ℚ} {c : CrankTol}
    {eb e1 e2 : Engine} {n1 E1 n2 E2 s2 : ℤ} {i : Fin maxEvents}
    (hu : RunSetup d0 N sh R v g p q T) (hw : CamWheel d0 N sh R k n0 T P) (ho : d0.offset = .fin O) (hO : |O| ≤ 720)
    (turns : CrankTurns θ c (wheelPos N sh) n0 g T) (hT : Turning θ g p q) (hc : c.Sane) (s0 : 1 / 2 ^ 18 ≤ c.speed)
    (room : CycleRoom (c.error + δ) g p q dlo dhi late eb.cfg.ignition.minFireUs) (hV : |V| + δ ≤ 720) (hadv : ∀ j, |adv j - V| ≤ δ) (hδ : 2 * δ + 1 / 125 < g)
    (hb : EngBoot eb) (hd : eb.cfg.decoder = decoderInit d0)
    (hi : (eb.cfg.events i).type = .ignition) (hA : (eb.cfg.events i).angle = .fin A) (hA1 : |A| ≤ 720)
    {Gd : ℤ → Engine → Prop} (hGd : ∀ n e, Gd n e → FiringOn (camEvent (pulseAfter N sh k) T P) (j1 + 1) late (fun a => adv (camSlot (pulseAfter N sh k) a).tooth) dlo dhi n e) (h1 : EngTimed Honest Gd eb n1 E1 e1) (hj : Decoded (j1 + 1) e1)
    (hn : n0 + k < (camSlot (pulseAfter N sh k) j1).tooth)
    (quiet : eventIsUnscheduled (e1.cfg.events i) = true ∨ eventHasFired (e1.cfg.events i) = true)
    {pin : Fin 16} (hpin : ((eb.cfg.events i).pin.setWidth 8).toNat = pin) (only : ∀ j, ((eb.cfg.events j).pin.setWidth 8).toNat = pin → j = i)
    (h2 : EngOn Honest Gd n1 E1 e1 n2 E2 e2)
    {b2 : Bool} (in2 : InBuffer E2 e2 b2 s2) (dr2 : Drives (e2.buf b2) (stamp s2) pin (!(eb.cfg.events i).inverted)) :
    ∃ m, (∃ P, AtAngle θ (A - V + O) (c.error + δ) m P ∧ dlo ≤ P - s2 ∧ P - s2 ≤ dhi) ∧
      ∀ n3 E3 e3, EngOn Honest Gd n2 E2 e2 n3 E3 e3 →
        (∀ b3 s3, InBuffer E3 e3 b3 s3 → Drives (e3.buf b3) (stamp s3) pin (!(eb.cfg.events i).inverted) →
          s3 = s2 ∨ ∃ m' > m, ∃ P, AtAngle θ (A - V + O) (c.error + δ) m' P ∧ dlo ≤ P - s3 ∧ P - s3 ≤ dhi) ∧
        (g * dhi + 2 * (c.error + δ) * q ≤ g * (n3 - s2) →
          ∃ t, AtAngle θ (A - V + O) (c.error + δ) m t ∧ s2 < t ∧
            g * dlo - 2 * (c.error + δ) * q ≤ g * (t - s2) ∧ g * (t - s2) ≤ g * dhi + 2 * (c.error + δ) * q ∧
            DrivenOn Honest Gd n2 E2 e2 n3 E3 e3 pin (eb.cfg.events i).inverted t) :=
  coil_held (k0 := j1 + 1) (missing_shape hu turns hc.speed1) (cam_feed hu.turn.wheel.teeth.later hw.between) hO turns hT hc room hV hadv hδ hb hi hA hA1 hGd h1 hj (by omega) (Nat.le_succ _) (le_refl _)
    (cam_follows hu hw.type hw.unseen hw.place hw.between hw.start ho turns hc s0 (fun n e h => (hGd n e h).1) hb hd h1 hj hn) quiet hpin only h2 in2 dr2

/-- C101, coils, on an even wheel with a cam: the firmware and the crank are as in `C86_even_fires`. -/
theorem C101_coil_even {d0 : Decoder} {N R W low c m0 j1 : ℕ} {v g A V O δ : ℚ} {adv : ℕ → ℚ} {p q dlo dhi late : ℤ} {T P : ℕ → ℤ} {θ : ℤ → ℚ} {tol : CrankTol}
    {eb e1 e2 : Engine} {n1 E1 n2 E2 s2 : ℤ} {i : Fin maxEvents}
    (he : EvenWheel d0 N R W low c m0 v g p q T P) (ho : d0.offset = .fin O) (hO : |O| ≤ 720)
    (turns : CrankTurns θ tol id m0 g T) (hT : Turning θ g p q) (hc : tol.Sane) (s0 : 1 / 2 ^ 18 ≤ tol.speed)
    (room : CycleRoom (tol.error + δ) g p q dlo dhi late eb.cfg.ignition.minFireUs) (hV : |V| + δ ≤ 720) (hadv : ∀ j, |adv j - V| ≤ δ) (hδ : 2 * δ + 1 / 125 < g)
    (hb : EngBoot eb) (hd : eb.cfg.decoder = decoderInit d0)
    (hi : (eb.cfg.events i).type = .ignition) (hA : (eb.cfg.events i).angle = .fin A) (hA1 : |A| ≤ 720)
    {Gd : ℤ → Engine → Prop} (hGd : ∀ n e, Gd n e → FiringOn (camEvent (fun n => n % N = c) T P) (j1 + 1) late (fun k => adv (camSlot (fun n => n % N = c) k).tooth) dlo dhi n e) (h1 : EngTimed Honest Gd eb n1 E1 e1) (hj : Decoded (j1 + 1) e1)
    (hn : m0 < (camSlot (fun n => n % N = c) j1).tooth)
    (quiet : eventIsUnscheduled (e1.cfg.events i) = true ∨ eventHasFired (e1.cfg.events i) = true)
    {pin : Fin 16} (hpin : ((eb.cfg.events i).pin.setWidth 8).toNat = pin) (only : ∀ j, ((eb.cfg.events j).pin.setWidth 8).toNat = pin → j = i)
    (h2 : EngOn Honest Gd n1 E1 e1 n2 E2 e2)
    {b2 : Bool} (in2 : InBuffer E2 e2 b2 s2) (dr2 : Drives (e2.buf b2) (stamp s2) pin (!(eb.cfg.events i).inverted)) :
    ∃ m, (∃ P, AtAngle θ (A - V + O) (tol.error + δ) m P ∧ dlo ≤ P - s2 ∧ P - s2 ≤ dhi) ∧
      ∀ n3 E3 e3, EngOn Honest Gd n2 E2 e2 n3 E3 e3 →
        (∀ b3 s3, InBuffer E3 e3 b3 s3 → Drives (e3.buf b3) (stamp s3) pin (!(eb.cfg.events i).inverted) →
          s3 = s2 ∨ ∃ m' > m, ∃ P, AtAngle θ (A - V + O) (tol.error + δ) m' P ∧ dlo ≤ P - s3 ∧ P - s3 ≤ dhi) ∧
        (g * dhi + 2 * (tol.error + δ) * q ≤ g * (n3 - s2) →
          ∃ t, AtAngle θ (A - V + O) (tol.error + δ) m t ∧ s2 < t ∧
            g * dlo - 2 * (tol.error + δ) * q ≤ g * (t - s2) ∧ g * (t - s2) ≤ g * dhi + 2 * (tol.error + δ) * q ∧
            DrivenOn Honest Gd n2 E2 e2 n3 E3 e3 pin (eb.cfg.events i).inverted t) :=
  coil_held (k0 := j1 + 1) (even_pace he turns hc.speed1).1 (cam_feed he.wheel.teeth.later he.between) hO turns hT hc room hV hadv hδ hb hi hA hA1 hGd h1 hj (by omega) (Nat.le_succ _) (le_refl _)
    (even_follows he ho turns hc s0 (fun n e h => (hGd n e h).1) hb hd h1 hj hn) quiet hpin only h2 in2 dr2

/-- C101, injectors.  The firmware and the crank are as in `C92_fires`, and output `i` is alone on its pin.  When the hardware has been given a tick
`s2` at which to open the injector, this is the beginning of the injection of some cycle `m`.  At every later moment every tick given for opening it is
this one, or begins the injection of a later cycle.  And once the longest injection has passed since `s2`, the hardware has been given
the tick at which to close it: near the commanded angle of that cycle, after an injection as long as commanded. -/
theorem C101_injector {d0 : Decoder} {N sh R n0 k1 : ℕ} {v g A O ε : ℚ} {p q dlo dhi late : ℤ} {T : ℕ → ℤ} {θ : ℤ → ℚ} {c : CrankTol}
    {eb e1 e2 : Engine} {n1 E1 n2 E2 s2 : ℤ} {i : Fin maxEvents}
    (hu : RunSetup d0 N sh R v g p q T) (ht : d0.type = .missingNosync) (hg : FirstGap N sh R n0) (ho : d0.offset = .fin O) (hO : |O| ≤ 720)
    (turns : CrankTurns θ c (wheelPos N sh) n0 g T) (hT : Turning θ g p q) (hc : c.Sane) (s0 : 1 / 2 ^ 18 ≤ c.speed)
    (room : CycleRoom ε g p q dlo dhi late 0) (hε : g * (dhi - dlo) ≤ p * (ε - c.error))
    (hb : EngBoot eb) (hd : eb.cfg.decoder = decoderInit d0)
    (hi : (eb.cfg.events i).type = .fuel) (hA : (eb.cfg.events i).angle = .fin A) (hA1 : |A| ≤ 720)
    {Gd : ℤ → Engine → Prop} (hGd : ∀ n e, Gd n e → Injecting T n0 late dlo dhi n e) (h1 : EngTimed Honest Gd eb n1 E1 e1) (hk1 : Decoded (k1 + 1) e1) (hn : n0 < k1)
    (quiet : eventIsUnscheduled (e1.cfg.events i) = true ∨ eventHasFired (e1.cfg.events i) = true)
    {pin : Fin 16} (hpin : ((eb.cfg.events i).pin.setWidth 8).toNat = pin) (only : ∀ j, ((eb.cfg.events j).pin.setWidth 8).toNat = pin → j = i)
    (h2 : EngOn Honest Gd n1 E1 e1 n2 E2 e2)
    {b2 : Bool} (in2 : InBuffer E2 e2 b2 s2) (dr2 : Drives (e2.buf b2) (stamp s2) pin (!(eb.cfg.events i).inverted)) :
    ∃ m, (∃ P, AtAngle θ (A + O) c.error m P ∧ dlo ≤ P - s2 ∧ P - s2 ≤ dhi) ∧
      ∀ n3 E3 e3, EngOn Honest Gd n2 E2 e2 n3 E3 e3 →
        (∀ b3 s3, InBuffer E3 e3 b3 s3 → Drives (e3.buf b3) (stamp s3) pin (!(eb.cfg.events i).inverted) →
          s3 = s2 ∨ ∃ m' > m, ∃ P, AtAngle θ (A + O) c.error m' P ∧ dlo ≤ P - s3 ∧ P - s3 ≤ dhi) ∧
        (s2 + dhi ≤ n3 →
          ∃ t, AtAngle θ (A + O) ε m t ∧ s2 < t ∧ dlo ≤ t - s2 ∧ t - s2 ≤ dhi ∧
            DrivenOn Honest Gd n2 E2 e2 n3 E3 e3 pin (eb.cfg.events i).inverted t) :=
  squirt_held (missing_shape hu turns hc.speed1) (crank_feed hu.turn.wheel.teeth) hO turns hT hc room hε hb hi hA hA1 hGd h1 hk1 hn (Nat.le_succ _) (by omega)
    (run_follows hu ht hg ho turns hc s0 (fun n e h => (hGd n e h).1) hb hd h1 hk1 hn) quiet hpin only h2 in2 dr2

/-- C101, injectors, on a wheel with a cam: the firmware and the crank are as in `C92_cam_fires`. -/
theorem C101_injector_cam {d0 : Decoder} {N sh R k n0 j1 : ℕ} {v g A O ε : ℚ} {p q dlo dhi late : ℤ} {T P : ℕ → ℤ} {θ : ℤ → ℚ} {c : CrankTol}
    {eb e1 e2 : Engine} {n1 E1 n2 E2 s2 : ℤ} {i : Fin maxEvents}
    (hu : RunSetup d0 N sh R v g p q T) (hw : CamWheel d0 N sh R k n0 T P) (ho : d0.offset = .fin O) (hO : |O| ≤ 720)
    (turns : CrankTurns θ c (wheelPos N sh) n0 g T) (hT : Turning θ g p q) (hc : c.Sane) (s0 : 1 / 2 ^ 18 ≤ c.speed)
    (room : CycleRoom ε g p q dlo dhi late 0) (hε : g * (dhi - dlo) ≤ p * (ε - c.error))
    (hb : EngBoot eb) (hd : eb.cfg.decoder = decoderInit d0)
    (hi : (eb.cfg.events i).type = .fuel) (hA : (eb.cfg.events i).angle = .fin A) (hA1 : |A| ≤ 720)
    {Gd : ℤ → Engine → Prop} (hGd : ∀ n e, Gd n e → InjectingOn (camEvent (pulseAfter N sh k) T P) (j1 + 1) late dlo dhi n e) (h1 : EngTimed Honest Gd eb n1 E1 e1) (hj : Decoded (j1 + 1) e1)
    (hn : n0 + k < (camSlot (pulseAfter N sh k) j1).tooth)
    (quiet : eventIsUnscheduled (e1.cfg.events i) = true ∨ eventHasFired (e1.cfg.events i) = true)
    {pin : Fin 16} (hpin : ((eb.cfg.events i).pin.setWidth 8).toNat = pin) (only : ∀ j, ((eb.cfg.events j).pin.setWidth 8).toNat = pin → j = i)
    (h2 : EngOn Honest Gd n1 E1 e1 n2 E2 e2)
    {b2 : Bool} (in2 : InBuffer E2 e2 b2 s2) (dr2 : Drives (e2.buf b2) (stamp s2) pin (!(eb.cfg.events i).inverted)) :
    ∃ m, (∃ P, AtAngle θ (A + O) c.error m P ∧ dlo ≤ P - s2 ∧ P - s2 ≤ dhi) ∧
      ∀ n3 E3 e3, EngOn Honest Gd n2 E2 e2 n3 E3 e3 →
        (∀ b3 s3, InBuffer E3 e3 b3 s3 → Drives (e3.buf b3) (stamp s3) pin (!(eb.cfg.events i).inverted) →
          s3 = s2 ∨ ∃ m' > m, ∃ P, AtAngle θ (A + O) c.error m' P ∧ dlo ≤ P - s3 ∧ P - s3 ≤ dhi) ∧
        (s2 + dhi ≤ n3 →
          ∃ t, AtAngle θ (A + O) ε m t ∧ s2 < t ∧ dlo ≤ t - s2 ∧ t - s2 ≤ dhi ∧
            DrivenOn Honest Gd n2 E2 e2 n3 E3 e3 pin (eb.cfg.events i).inverted t) :=
  squirt_held (k0 := j1 + 1) (missing_shape hu turns hc.speed1) (cam_feed hu.turn.wheel.teeth.later hw.between) hO turns hT hc room hε hb hi hA hA1 hGd h1 hj (by omega) (Nat.le_succ _) (le_refl _)
    (cam_follows hu hw.type hw.unseen hw.place hw.between hw.start ho turns hc s0 (fun n e h => (hGd n e h).1) hb hd h1 hj hn) quiet hpin only h2 in2 dr2

/-- C101, injectors, on an even wheel with a cam: the firmware and the crank are as in `C92_even_fires`. -/
theorem C101_injector_even {d0 : Decoder} {N R W low c m0 j1 : ℕ} {v g A O ε : ℚ} {p q dlo dhi late : ℤ} {T P : ℕ → ℤ} {θ : ℤ → ℚ} {tol : CrankTol}
    {eb e1 e2 : Engine} {n1 E1 n2 E2 s2 : ℤ} {i : Fin maxEvents}
    (he : EvenWheel d0 N R W low c m0 v g p q T P) (ho : d0.offset = .fin O) (hO : |O| ≤ 720)
    (turns : CrankTurns θ tol id m0 g T) (hT : Turning θ g p q) (hc : tol.Sane) (s0 : 1 / 2 ^ 18 ≤ tol.speed)
    (room : CycleRoom ε g p q dlo dhi late 0) (hε : g * (dhi - dlo) ≤ p * (ε - tol.error))
    (hb : EngBoot eb) (hd : eb.cfg.decoder = decoderInit d0)
    (hi : (eb.cfg.events i).type = .fuel) (hA : (eb.cfg.events i).angle = .fin A) (hA1 : |A| ≤ 720)
    {Gd : ℤ → Engine → Prop} (hGd : ∀ n e, Gd n e → InjectingOn (camEvent (fun n => n % N = c) T P) (j1 + 1) late dlo dhi n e) (h1 : EngTimed Honest Gd eb n1 E1 e1) (hj : Decoded (j1 + 1) e1)
    (hn : m0 < (camSlot (fun n => n % N = c) j1).tooth)
    (quiet : eventIsUnscheduled (e1.cfg.events i) = true ∨ eventHasFired (e1.cfg.events i) = true)
    {pin : Fin 16} (hpin : ((eb.cfg.events i).pin.setWidth 8).toNat = pin) (only : ∀ j, ((eb.cfg.events j).pin.setWidth 8).toNat = pin → j = i)
    (h2 : EngOn Honest Gd n1 E1 e1 n2 E2 e2)
    {b2 : Bool} (in2 : InBuffer E2 e2 b2 s2) (dr2 : Drives (e2.buf b2) (stamp s2) pin (!(eb.cfg.events i).inverted)) :
    ∃ m, (∃ P, AtAngle θ (A + O) tol.error m P ∧ dlo ≤ P - s2 ∧ P - s2 ≤ dhi) ∧
      ∀ n3 E3 e3, EngOn Honest Gd n2 E2 e2 n3 E3 e3 →
        (∀ b3 s3, InBuffer E3 e3 b3 s3 → Drives (e3.buf b3) (stamp s3) pin (!(eb.cfg.events i).inverted) →
          s3 = s2 ∨ ∃ m' > m, ∃ P, AtAngle θ (A + O) tol.error m' P ∧ dlo ≤ P - s3 ∧ P - s3 ≤ dhi) ∧
        (s2 + dhi ≤ n3 →
          ∃ t, AtAngle θ (A + O) ε m t ∧ s2 < t ∧ dlo ≤ t - s2 ∧ t - s2 ≤ dhi ∧
            DrivenOn Honest Gd n2 E2 e2 n3 E3 e3 pin (eb.cfg.events i).inverted t) :=
  squirt_held (k0 := j1 + 1) (even_pace he turns hc.speed1).1 (cam_feed he.wheel.teeth.later he.between) hO turns hT hc room hε hb hi hA hA1 hGd h1 hj (by omega) (Nat.le_succ _) (le_refl _)
    (even_follows he ho turns hc s0 (fun n e h => (hGd n e h).1) hb hd h1 hj hn) quiet hpin only h2 in2 dr2

end Verif
