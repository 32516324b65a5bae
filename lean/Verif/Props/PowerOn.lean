/-
C104: from the moment the firmware is started, every spark and every injection is at its commanded angle, once in each cycle.
-/
import Verif.Proofs.PowerOn
import Verif.Props.FreeEngine

namespace Verif

variable [FloatFmt]

/-- C104, on an even wheel without a cam: from the moment the firmware is started, each ignition output fires in every cycle, after the coil has charged for the commanded time; the crank is at 0 at the last of the required teeth.  `h` is any run from the start, with nothing assumed of the outputs: the first spark due is that 1500 degrees after this tooth. -/
theorem C104_sparks {d0 : Decoder} {N R W low : ℕ} {v g A V O δ : ℚ} {p q dlo dhi late : ℤ} {T : ℕ → ℤ} {θ : ℤ → ℚ} {tol : CrankTol}
    {eb e : Engine} {n E : ℤ} {i : Fin maxEvents}
    (he : FreeWheel d0 N R W low v g p q T) (ho : d0.offset = .fin O) (hO : |O| ≤ 720)
    (turns : CrankTurnsFrom θ tol id (R - 1) (R - 1) g T) (hT : Turning θ g p q) (hc : tol.Sane) (s0 : 1 / 2 ^ 18 ≤ tol.speed)
    (room : CycleRoom (tol.error + δ) g p q dlo dhi late eb.cfg.ignition.minFireUs) (hV : |V| + δ ≤ 720) (hδ0 : 0 ≤ δ) (hδ : 2 * δ + 1 / 125 < g)
    (hb : EngBoot eb) (hd : eb.cfg.decoder = decoderInit d0)
    (hi : (eb.cfg.events i).type = .ignition) (hA : (eb.cfg.events i).angle = .fin A) (hA1 : |A| ≤ 720)
    {S : (Fin numSensors → Sensor) → Prop} {Ti : Tipin → Prop} {flo fhi : ℤ}
    (hC : Commands eb.cfg S Ti g p q V δ dlo dhi flo fhi) (hTi : Ti eb.tipin) {Gd : ℤ → Engine → Prop} (hGd : ∀ n e, Gd n e → InputsOn (fun j => (0, T j)) late S n e)
    (h : EngTimed Honest Gd eb n E e)
    {pin : Fin 16} (hpin : ((eb.cfg.events i).pin.setWidth 8).toNat = pin) {m : ℤ}
    (start : θ (T (R - 1)) + 1500 ≤ A - V + O + 720 * m) (over : A - V + O + 720 * m + (tol.error + δ) ≤ θ n) :
    ∃ s t, AtAngle θ (A - V + O) (tol.error + δ) m t ∧ s < t ∧
      g * dlo - 2 * (tol.error + δ) * q ≤ g * (t - s) ∧ g * (t - s) ≤ g * dhi + 2 * (tol.error + δ) * q ∧
      DrivenIn Honest Gd eb n E e pin (!(eb.cfg.events i).inverted) s ∧
      DrivenIn Honest Gd eb n E e pin (eb.cfg.events i).inverted t := by
  rcases free_start he (fun n e h => (hGd n e h).1) hb hd h with ⟨-, hlt⟩ | ⟨n1, E1, e1, h1, hk1, as, h⟩
  · have := free_early he hT (by have := room.buffer; linarith) hlt
    have := error_pos turns hc
    linarith
  · obtain ⟨adv, F, a1, a2, a3, a4, a5, -⟩ := whole_path hδ0 (free_speed_on he) hGd hC hTi hb hd h1 h .refl
    have key := cycle_fires (pace_shape he.pace turns hc.speed1).1 (free_feed he.pace.wheel.teeth.later) hO turns hT hc room hV a1 hδ hb hi hA hA1 a3 a4 hk1 le_rfl le_rfl (by omega)
      (free_follows he ho turns hc s0 (fun n e h => (a3 n e h).1) hb hd a4 hk1 le_rfl le_rfl) (as.quiet i) a5 hpin start over
    obtain ⟨s, t, x1, x2, x3, x4, x5, x6⟩ := key
    exact ⟨s, t, x1, x2, x3, x4, driven_in h1 (driven_weaken a2 x5), driven_in h1 (driven_weaken a2 x6)⟩

/-- C104, on an even wheel without a cam: from the moment the firmware is started, there is no spark but at the commanded angle, and at most one in a cycle. -/
theorem C104_sparks_once {d0 : Decoder} {N R W low : ℕ} {v g A V O δ : ℚ} {p q dlo dhi late : ℤ} {T : ℕ → ℤ} {θ : ℤ → ℚ} {tol : CrankTol}
    {eb e2 : Engine} {n2 E2 t2 : ℤ} {i : Fin maxEvents}
    (he : FreeWheel d0 N R W low v g p q T) (ho : d0.offset = .fin O) (hO : |O| ≤ 720)
    (turns : CrankTurnsFrom θ tol id (R - 1) (R - 1) g T) (hT : Turning θ g p q) (hc : tol.Sane) (s0 : 1 / 2 ^ 18 ≤ tol.speed)
    (room : CycleRoom (tol.error + δ) g p q dlo dhi late eb.cfg.ignition.minFireUs) (hV : |V| + δ ≤ 720) (hδ0 : 0 ≤ δ) (hδ : 2 * δ + 1 / 125 < g)
    (hb : EngBoot eb) (hd : eb.cfg.decoder = decoderInit d0)
    (hi : (eb.cfg.events i).type = .ignition) (hA : (eb.cfg.events i).angle = .fin A) (hA1 : |A| ≤ 720)
    {S : (Fin numSensors → Sensor) → Prop} {Ti : Tipin → Prop} {flo fhi : ℤ}
    (hC : Commands eb.cfg S Ti g p q V δ dlo dhi flo fhi) (hTi : Ti eb.tipin) {Gd : ℤ → Engine → Prop} (hGd : ∀ n e, Gd n e → InputsOn (fun j => (0, T j)) late S n e)
    {pin : Fin 16} (hpin : ((eb.cfg.events i).pin.setWidth 8).toNat = pin) (only : ∀ j, ((eb.cfg.events j).pin.setWidth 8).toNat = pin → j = i)
    (h2 : EngTimed Honest Gd eb n2 E2 e2)
    {b2 : Bool} (in2 : InBuffer E2 e2 b2 t2) (dr2 : Drives (e2.buf b2) (stamp t2) pin (eb.cfg.events i).inverted) :
    ∃ m, AtAngle θ (A - V + O) (tol.error + δ) m t2 ∧
      ∀ n3 E3 e3 b3 t3, EngOn Honest Gd n2 E2 e2 n3 E3 e3 → InBuffer E3 e3 b3 t3 →
        Drives (e3.buf b3) (stamp t3) pin (eb.cfg.events i).inverted → AtAngle θ (A - V + O) (tol.error + δ) m t3 → t3 = t2 := by
  rcases free_start he (fun n e h => (hGd n e h).1) hb hd h2 with ⟨as, -⟩ | ⟨n1, E1, e1, h1, hk1, as, h2'⟩
  · exact absurd dr2 (as.silent hb h2 only _)
  · have runs := fun n3 E3 e3 (h3 : EngOn Honest Gd n2 E2 e2 n3 E3 e3) => whole_path hδ0 (free_speed_on he) hGd hC hTi hb hd h1 h2' h3
    obtain ⟨adv, F, a1, a2, a3, a4, a5, -⟩ := runs _ _ _ .refl
    obtain ⟨m, hm, -⟩ := cycle_once (pace_shape he.pace turns hc.speed1).1 (free_feed he.pace.wheel.teeth.later) hO turns hT hc room hV a1 hδ hb hi hA hA1 a3 a4 hk1 le_rfl le_rfl (by omega)
      (free_follows he ho turns hc s0 (fun n e h => (a3 n e h).1) hb hd a4 hk1 le_rfl le_rfl) (as.quiet i) hpin only a5 in2 dr2
    refine ⟨m, hm, fun n3 E3 e3 b3 t3 h3 in3 dr3 at3 => ?_⟩
    obtain ⟨adv', F', c1, c2, c3, c4, c5, c6⟩ := runs _ _ _ h3
    obtain ⟨m', hm', once⟩ := cycle_once (pace_shape he.pace turns hc.speed1).1 (free_feed he.pace.wheel.teeth.later) hO turns hT hc room hV c1 hδ hb hi hA hA1 c3 c4 hk1 le_rfl le_rfl (by omega)
      (free_follows he ho turns hc s0 (fun n e h => (c3 n e h).1) hb hd c4 hk1 le_rfl le_rfl) (as.quiet i) hpin only c5 in2 dr2
    obtain rfl := angle_unique room.error hm hm'
    exact once _ _ _ _ _ c6 in3 dr3 at3

/-- C104, on an even wheel without a cam: from the moment the firmware is started, a charge begins the commanded time before the commanded angle of some cycle, and ends in time with a spark there. -/
theorem C104_coil {d0 : Decoder} {N R W low : ℕ} {v g A V O δ : ℚ} {p q dlo dhi late : ℤ} {T : ℕ → ℤ} {θ : ℤ → ℚ} {tol : CrankTol}
    {eb e2 : Engine} {n2 E2 s2 : ℤ} {i : Fin maxEvents}
    (he : FreeWheel d0 N R W low v g p q T) (ho : d0.offset = .fin O) (hO : |O| ≤ 720)
    (turns : CrankTurnsFrom θ tol id (R - 1) (R - 1) g T) (hT : Turning θ g p q) (hc : tol.Sane) (s0 : 1 / 2 ^ 18 ≤ tol.speed)
    (room : CycleRoom (tol.error + δ) g p q dlo dhi late eb.cfg.ignition.minFireUs) (hV : |V| + δ ≤ 720) (hδ0 : 0 ≤ δ) (hδ : 2 * δ + 1 / 125 < g)
    (hb : EngBoot eb) (hd : eb.cfg.decoder = decoderInit d0)
    (hi : (eb.cfg.events i).type = .ignition) (hA : (eb.cfg.events i).angle = .fin A) (hA1 : |A| ≤ 720)
    {S : (Fin numSensors → Sensor) → Prop} {Ti : Tipin → Prop} {flo fhi : ℤ}
    (hC : Commands eb.cfg S Ti g p q V δ dlo dhi flo fhi) (hTi : Ti eb.tipin) {Gd : ℤ → Engine → Prop} (hGd : ∀ n e, Gd n e → InputsOn (fun j => (0, T j)) late S n e)
    {pin : Fin 16} (hpin : ((eb.cfg.events i).pin.setWidth 8).toNat = pin) (only : ∀ j, ((eb.cfg.events j).pin.setWidth 8).toNat = pin → j = i)
    (h2 : EngTimed Honest Gd eb n2 E2 e2)
    {b2 : Bool} (in2 : InBuffer E2 e2 b2 s2) (dr2 : Drives (e2.buf b2) (stamp s2) pin (!(eb.cfg.events i).inverted)) :
    ∃ m, (∃ P, AtAngle θ (A - V + O) (tol.error + δ) m P ∧ dlo ≤ P - s2 ∧ P - s2 ≤ dhi) ∧
      ∀ n3 E3 e3, EngOn Honest Gd n2 E2 e2 n3 E3 e3 →
        (∀ b3 s3, InBuffer E3 e3 b3 s3 → Drives (e3.buf b3) (stamp s3) pin (!(eb.cfg.events i).inverted) →
          s3 = s2 ∨ ∃ m' > m, ∃ P, AtAngle θ (A - V + O) (tol.error + δ) m' P ∧ dlo ≤ P - s3 ∧ P - s3 ≤ dhi) ∧
        (g * dhi + 2 * (tol.error + δ) * q ≤ g * (n3 - s2) →
          ∃ t, AtAngle θ (A - V + O) (tol.error + δ) m t ∧ s2 < t ∧
            g * dlo - 2 * (tol.error + δ) * q ≤ g * (t - s2) ∧ g * (t - s2) ≤ g * dhi + 2 * (tol.error + δ) * q ∧
            DrivenOn Honest Gd n2 E2 e2 n3 E3 e3 pin (eb.cfg.events i).inverted t) := by
  rcases free_start he (fun n e h => (hGd n e h).1) hb hd h2 with ⟨as, -⟩ | ⟨n1, E1, e1, h1, hk1, as, h2'⟩
  · exact absurd dr2 (as.silent hb h2 only _)
  · have runs := fun n3 E3 e3 (h3 : EngOn Honest Gd n2 E2 e2 n3 E3 e3) => whole_path hδ0 (free_speed_on he) hGd hC hTi hb hd h1 h2' h3
    obtain ⟨adv, F, a1, a2, a3, a4, a5, -⟩ := runs _ _ _ .refl
    obtain ⟨m, ⟨P, hm, l1, l2⟩, -⟩ := coil_held (pace_shape he.pace turns hc.speed1).1 (free_feed he.pace.wheel.teeth.later) hO turns hT hc room hV a1 hδ hb hi hA hA1 a3 a4 hk1 le_rfl le_rfl (by omega)
      (free_follows he ho turns hc s0 (fun n e h => (a3 n e h).1) hb hd a4 hk1 le_rfl le_rfl) (as.quiet i) hpin only a5 in2 dr2
    refine ⟨m, ⟨P, hm, l1, l2⟩, fun n3 E3 e3 h3 => ?_⟩
    obtain ⟨adv', F', c1, c2, c3, c4, c5, c6⟩ := runs _ _ _ h3
    obtain ⟨m', ⟨P', hm', r1, r2⟩, held⟩ := coil_held (pace_shape he.pace turns hc.speed1).1 (free_feed he.pace.wheel.teeth.later) hO turns hT hc room hV c1 hδ hb hi hA hA1 c3 c4 hk1 le_rfl le_rfl (by omega)
      (free_follows he ho turns hc s0 (fun n e h => (c3 n e h).1) hb hd c4 hk1 le_rfl le_rfl) (as.quiet i) hpin only c5 in2 dr2
    obtain rfl := angle_close (pace_shape he.pace turns hc.speed1).1 turns hc hδ0 room hT hm hm' l1 l2 r1 r2
    obtain ⟨u1, u2⟩ := held _ _ _ c6
    refine ⟨u1, fun hh => ?_⟩
    obtain ⟨t, x1, x2, x3, x4, x5⟩ := u2 hh
    exact ⟨t, x1, x2, x3, x4, driven_weaken c2 x5⟩

/-- C104, on an even wheel without a cam: from the moment the firmware is started, each injector opens in every cycle, for the commanded time, and closes at its angle. -/
theorem C104_injects {d0 : Decoder} {N R W low : ℕ} {v g A O ε : ℚ} {p q dlo dhi late : ℤ} {T : ℕ → ℤ} {θ : ℤ → ℚ} {tol : CrankTol}
    {eb e : Engine} {n E : ℤ} {i : Fin maxEvents}
    (he : FreeWheel d0 N R W low v g p q T) (ho : d0.offset = .fin O) (hO : |O| ≤ 720)
    (turns : CrankTurnsFrom θ tol id (R - 1) (R - 1) g T) (hT : Turning θ g p q) (hc : tol.Sane) (s0 : 1 / 2 ^ 18 ≤ tol.speed)
    (room : CycleRoom ε g p q dlo dhi late 0) (hε : g * (dhi - dlo) ≤ p * (ε - tol.error))
    (hb : EngBoot eb) (hd : eb.cfg.decoder = decoderInit d0)
    (hi : (eb.cfg.events i).type = .fuel) (hA : (eb.cfg.events i).angle = .fin A) (hA1 : |A| ≤ 720)
    {S : (Fin numSensors → Sensor) → Prop} {Ti : Tipin → Prop} {V δ : ℚ} {tlo thi : ℤ}
    (hC : Commands eb.cfg S Ti g p q V δ tlo thi dlo dhi) (hTi : Ti eb.tipin) {Gd : ℤ → Engine → Prop} (hGd : ∀ n e, Gd n e → InputsOn (fun j => (0, T j)) late S n e)
    (h : EngTimed Honest Gd eb n E e)
    {pin : Fin 16} (hpin : ((eb.cfg.events i).pin.setWidth 8).toNat = pin) {m : ℤ}
    (start : θ (T (R - 1)) + 1500 ≤ A + O + 720 * m) (over : A + O + 720 * m + ε ≤ θ n) :
    ∃ s t, AtAngle θ (A + O) ε m t ∧ s < t ∧
      dlo ≤ t - s ∧ t - s ≤ dhi ∧
      DrivenIn Honest Gd eb n E e pin (!(eb.cfg.events i).inverted) s ∧
      DrivenIn Honest Gd eb n E e pin (eb.cfg.events i).inverted t := by
  rcases free_start he (fun n e h => (hGd n e h).1) hb hd h with ⟨-, hlt⟩ | ⟨n1, E1, e1, h1, hk1, as, h⟩
  · have := free_early he hT (by have := room.buffer; linarith) hlt
    have := room_error room he.pace.pitch hε (error_pos turns hc)
    linarith
  · obtain ⟨a4, a5, -⟩ := command_runs (free_speed_on he) hGd hC hTi hb hd h1 h .refl
    have key := pulse_fires (pace_shape he.pace turns hc.speed1).1 (free_feed he.pace.wheel.teeth.later) hO turns hT hc room hε hb hi hA hA1 (fun _ _ h => h.2.injecting (by have := he.pace.wheel.cfg.R2; omega)) a4 hk1 le_rfl le_rfl (by omega)
      (free_follows he ho turns hc s0 (fun n e h => h.2.1) hb hd a4 hk1 le_rfl le_rfl) (as.quiet i) a5 hpin start over
    obtain ⟨s, t, x1, x2, x3, x4, x5, x6⟩ := key
    exact ⟨s, t, x1, x2, x3, x4, driven_in h1 (driven_weaken (fun _ _ h => h.1) x5), driven_in h1 (driven_weaken (fun _ _ h => h.1) x6)⟩

/-- C104, on an even wheel without a cam: from the moment the firmware is started, no injection ends but at its angle, and at most one in a cycle. -/
theorem C104_injects_once {d0 : Decoder} {N R W low : ℕ} {v g A O ε : ℚ} {p q dlo dhi late : ℤ} {T : ℕ → ℤ} {θ : ℤ → ℚ} {tol : CrankTol}
    {eb e2 : Engine} {n2 E2 t2 : ℤ} {i : Fin maxEvents}
    (he : FreeWheel d0 N R W low v g p q T) (ho : d0.offset = .fin O) (hO : |O| ≤ 720)
    (turns : CrankTurnsFrom θ tol id (R - 1) (R - 1) g T) (hT : Turning θ g p q) (hc : tol.Sane) (s0 : 1 / 2 ^ 18 ≤ tol.speed)
    (room : CycleRoom ε g p q dlo dhi late 0) (hε : g * (dhi - dlo) ≤ p * (ε - tol.error))
    (hb : EngBoot eb) (hd : eb.cfg.decoder = decoderInit d0)
    (hi : (eb.cfg.events i).type = .fuel) (hA : (eb.cfg.events i).angle = .fin A) (hA1 : |A| ≤ 720)
    {S : (Fin numSensors → Sensor) → Prop} {Ti : Tipin → Prop} {V δ : ℚ} {tlo thi : ℤ}
    (hC : Commands eb.cfg S Ti g p q V δ tlo thi dlo dhi) (hTi : Ti eb.tipin) {Gd : ℤ → Engine → Prop} (hGd : ∀ n e, Gd n e → InputsOn (fun j => (0, T j)) late S n e)
    {pin : Fin 16} (hpin : ((eb.cfg.events i).pin.setWidth 8).toNat = pin) (only : ∀ j, ((eb.cfg.events j).pin.setWidth 8).toNat = pin → j = i)
    (h2 : EngTimed Honest Gd eb n2 E2 e2)
    {b2 : Bool} (in2 : InBuffer E2 e2 b2 t2) (dr2 : Drives (e2.buf b2) (stamp t2) pin (eb.cfg.events i).inverted) :
    ∃ m, AtAngle θ (A + O) ε m t2 ∧
      ∀ n3 E3 e3 b3 t3, EngOn Honest Gd n2 E2 e2 n3 E3 e3 → InBuffer E3 e3 b3 t3 →
        Drives (e3.buf b3) (stamp t3) pin (eb.cfg.events i).inverted → AtAngle θ (A + O) ε m t3 → t3 = t2 := by
  rcases free_start he (fun n e h => (hGd n e h).1) hb hd h2 with ⟨as, -⟩ | ⟨n1, E1, e1, h1, hk1, as, h2'⟩
  · exact absurd dr2 (as.silent hb h2 only _)
  · have runs := fun n3 E3 e3 (h3 : EngOn Honest Gd n2 E2 e2 n3 E3 e3) => command_runs (free_speed_on he) hGd hC hTi hb hd h1 h2' h3
    obtain ⟨a4, a5, -⟩ := runs _ _ _ .refl
    have key := pulse_once (pace_shape he.pace turns hc.speed1).1 (free_feed he.pace.wheel.teeth.later) hO turns hT hc room hε hb hi hA hA1 (fun _ _ h => h.2.injecting (by have := he.pace.wheel.cfg.R2; omega)) a4 hk1 le_rfl le_rfl (by omega)
      (free_follows he ho turns hc s0 (fun n e h => h.2.1) hb hd a4 hk1 le_rfl le_rfl) (as.quiet i) hpin only a5 in2 dr2
    obtain ⟨m, hm, once⟩ := key
    exact ⟨m, hm, fun n3 E3 e3 b3 t3 h3 => once n3 E3 e3 b3 t3 (runs _ _ _ h3).2.2⟩

/-- C104, on an even wheel without a cam: from the moment the firmware is started, an injection begins the commanded time before its angle in some cycle, and ends there. -/
theorem C104_injector {d0 : Decoder} {N R W low : ℕ} {v g A O ε : ℚ} {p q dlo dhi late : ℤ} {T : ℕ → ℤ} {θ : ℤ → ℚ} {tol : CrankTol}
    {eb e2 : Engine} {n2 E2 s2 : ℤ} {i : Fin maxEvents}
    (he : FreeWheel d0 N R W low v g p q T) (ho : d0.offset = .fin O) (hO : |O| ≤ 720)
    (turns : CrankTurnsFrom θ tol id (R - 1) (R - 1) g T) (hT : Turning θ g p q) (hc : tol.Sane) (s0 : 1 / 2 ^ 18 ≤ tol.speed)
    (room : CycleRoom ε g p q dlo dhi late 0) (hε : g * (dhi - dlo) ≤ p * (ε - tol.error))
    (hb : EngBoot eb) (hd : eb.cfg.decoder = decoderInit d0)
    (hi : (eb.cfg.events i).type = .fuel) (hA : (eb.cfg.events i).angle = .fin A) (hA1 : |A| ≤ 720)
    {S : (Fin numSensors → Sensor) → Prop} {Ti : Tipin → Prop} {V δ : ℚ} {tlo thi : ℤ}
    (hC : Commands eb.cfg S Ti g p q V δ tlo thi dlo dhi) (hTi : Ti eb.tipin) {Gd : ℤ → Engine → Prop} (hGd : ∀ n e, Gd n e → InputsOn (fun j => (0, T j)) late S n e)
    {pin : Fin 16} (hpin : ((eb.cfg.events i).pin.setWidth 8).toNat = pin) (only : ∀ j, ((eb.cfg.events j).pin.setWidth 8).toNat = pin → j = i)
    (h2 : EngTimed Honest Gd eb n2 E2 e2)
    {b2 : Bool} (in2 : InBuffer E2 e2 b2 s2) (dr2 : Drives (e2.buf b2) (stamp s2) pin (!(eb.cfg.events i).inverted)) :
    ∃ m, (∃ P, AtAngle θ (A + O) tol.error m P ∧ dlo ≤ P - s2 ∧ P - s2 ≤ dhi) ∧
      ∀ n3 E3 e3, EngOn Honest Gd n2 E2 e2 n3 E3 e3 →
        (∀ b3 s3, InBuffer E3 e3 b3 s3 → Drives (e3.buf b3) (stamp s3) pin (!(eb.cfg.events i).inverted) →
          s3 = s2 ∨ ∃ m' > m, ∃ P, AtAngle θ (A + O) tol.error m' P ∧ dlo ≤ P - s3 ∧ P - s3 ≤ dhi) ∧
        (s2 + dhi ≤ n3 →
          ∃ t, AtAngle θ (A + O) ε m t ∧ s2 < t ∧ dlo ≤ t - s2 ∧ t - s2 ≤ dhi ∧
            DrivenOn Honest Gd n2 E2 e2 n3 E3 e3 pin (eb.cfg.events i).inverted t) := by
  rcases free_start he (fun n e h => (hGd n e h).1) hb hd h2 with ⟨as, -⟩ | ⟨n1, E1, e1, h1, hk1, as, h2'⟩
  · exact absurd dr2 (as.silent hb h2 only _)
  · have runs := fun n3 E3 e3 (h3 : EngOn Honest Gd n2 E2 e2 n3 E3 e3) => command_runs (free_speed_on he) hGd hC hTi hb hd h1 h2' h3
    obtain ⟨a4, a5, -⟩ := runs _ _ _ .refl
    have key := squirt_held (pace_shape he.pace turns hc.speed1).1 (free_feed he.pace.wheel.teeth.later) hO turns hT hc room hε hb hi hA hA1 (fun _ _ h => h.2.injecting (by have := he.pace.wheel.cfg.R2; omega)) a4 hk1 le_rfl le_rfl (by omega)
      (free_follows he ho turns hc s0 (fun n e h => h.2.1) hb hd a4 hk1 le_rfl le_rfl) (as.quiet i) hpin only a5 in2 dr2
    obtain ⟨m, hm, held⟩ := key
    refine ⟨m, hm, fun n3 E3 e3 h3 => ?_⟩
    obtain ⟨u1, u2⟩ := held _ _ _ (runs _ _ _ h3).2.2
    refine ⟨u1, fun hh => ?_⟩
    obtain ⟨t, x1, x2, x3, x4, x5⟩ := u2 hh
    exact ⟨t, x1, x2, x3, x4, driven_weaken (fun _ _ h => h.1) x5⟩

end Verif
