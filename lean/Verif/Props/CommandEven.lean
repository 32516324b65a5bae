/-
C103: every output does its work in every cycle, for all inputs and settings of a kind; even wheels.
-/
import Verif.Props.Command
import Verif.Props.EvenEngine
import Verif.Props.FreeEngine

namespace Verif

variable [FloatFmt]

/-- C103, on an even wheel with a cam: each ignition output fires in every cycle.  As `C86_even_fires`, with nothing assumed of what the firmware calculates.  With the sensor values of `S` the advance depends on the speed alone. -/
theorem C103_even_sparks {d0 : Decoder} {N R W low c m0 j1 : ℕ} {v g A V O δ : ℚ} {p q dlo dhi late : ℤ} {T P : ℕ → ℤ} {θ : ℤ → ℚ} {tol : CrankTol}
    {eb e1 e : Engine} {n1 E1 n E : ℤ} {i : Fin maxEvents}
    (he : EvenWheel d0 N R W low c m0 v g p q T P) (ho : d0.offset = .fin O) (hO : |O| ≤ 720)
    (turns : CrankTurns θ tol id m0 g T) (hT : Turning θ g p q) (hc : tol.Sane) (s0 : 1 / 2 ^ 18 ≤ tol.speed)
    (room : CycleRoom (tol.error + δ) g p q dlo dhi late eb.cfg.ignition.minFireUs) (hV : |V| + δ ≤ 720) (hδ0 : 0 ≤ δ) (hδ : 2 * δ + 1 / 125 < g)
    (hb : EngBoot eb) (hd : eb.cfg.decoder = decoderInit d0)
    (hi : (eb.cfg.events i).type = .ignition) (hA : (eb.cfg.events i).angle = .fin A) (hA1 : |A| ≤ 720)
    {S : (Fin numSensors → Sensor) → Prop} {Ti : Tipin → Prop} {flo fhi : ℤ}
    (hC : Commands eb.cfg S Ti g p q V δ dlo dhi flo fhi) (hst : SteadyAdvance eb.cfg S) (hTi : Ti eb.tipin) {Gd : ℤ → Engine → Prop} (hGd : ∀ n e, Gd n e → InputsOn (camEvent (fun n => n % N = c) T P) late S n e) (h1 : EngTimed Honest Gd eb n1 E1 e1) (hj : Decoded (j1 + 1) e1)
    (hn : m0 < (camSlot (fun n => n % N = c) j1).tooth)
    (quiet : eventIsUnscheduled (e1.cfg.events i) = true ∨ eventHasFired (e1.cfg.events i) = true)
    (h : EngOn Honest Gd n1 E1 e1 n E e)
    {pin : Fin 16} (hpin : ((eb.cfg.events i).pin.setWidth 8).toNat = pin) {m : ℤ}
    (start : θ (T (camSlot (fun n => n % N = c) j1).tooth) + 1500 ≤ A - V + O + 720 * m) (over : A - V + O + 720 * m + (tol.error + δ) ≤ θ n) :
    ∃ s t, AtAngle θ (A - V + O) (tol.error + δ) m t ∧ s < t ∧
      g * dlo - 2 * (tol.error + δ) * q ≤ g * (t - s) ∧ g * (t - s) ≤ g * dhi + 2 * (tol.error + δ) * q ∧
      DrivenOn Honest Gd n1 E1 e1 n E e pin (!(eb.cfg.events i).inverted) s ∧
      DrivenOn Honest Gd n1 E1 e1 n E e pin (eb.cfg.events i).inverted t := by
  obtain ⟨adv, a1, all⟩ := steady_runs hδ0 (even_speed he hn) hGd hC hst hTi hb hd
  obtain ⟨a4, a5, -⟩ := three_runs all h1 h .refl
  have key := C86_even_fires he ho hO turns hT hc s0 room hV a1 hδ hb hd hi hA hA1 (fun _ _ h => h.2) a4 hj hn quiet a5 hpin start over
  obtain ⟨s, t, x1, x2, x3, x4, x5, x6⟩ := key
  exact ⟨s, t, x1, x2, x3, x4, driven_weaken (fun _ _ h => h.1) x5, driven_weaken (fun _ _ h => h.1) x6⟩

/-- C103, on an even wheel with a cam: each ignition output fires at most once in a cycle.  As `C86_even_once`, with nothing assumed of what the firmware calculates.  With the sensor values of `S` the advance depends on the speed alone. -/
theorem C103_even_sparks_once {d0 : Decoder} {N R W low c m0 j1 : ℕ} {v g A V O δ : ℚ} {p q dlo dhi late : ℤ} {T P : ℕ → ℤ} {θ : ℤ → ℚ} {tol : CrankTol}
    {eb e1 e2 : Engine} {n1 E1 n2 E2 t2 : ℤ} {i : Fin maxEvents}
    (he : EvenWheel d0 N R W low c m0 v g p q T P) (ho : d0.offset = .fin O) (hO : |O| ≤ 720)
    (turns : CrankTurns θ tol id m0 g T) (hT : Turning θ g p q) (hc : tol.Sane) (s0 : 1 / 2 ^ 18 ≤ tol.speed)
    (room : CycleRoom (tol.error + δ) g p q dlo dhi late eb.cfg.ignition.minFireUs) (hV : |V| + δ ≤ 720) (hδ0 : 0 ≤ δ) (hδ : 2 * δ + 1 / 125 < g)
    (hb : EngBoot eb) (hd : eb.cfg.decoder = decoderInit d0)
    (hi : (eb.cfg.events i).type = .ignition) (hA : (eb.cfg.events i).angle = .fin A) (hA1 : |A| ≤ 720)
    {S : (Fin numSensors → Sensor) → Prop} {Ti : Tipin → Prop} {flo fhi : ℤ}
    (hC : Commands eb.cfg S Ti g p q V δ dlo dhi flo fhi) (hst : SteadyAdvance eb.cfg S) (hTi : Ti eb.tipin) {Gd : ℤ → Engine → Prop} (hGd : ∀ n e, Gd n e → InputsOn (camEvent (fun n => n % N = c) T P) late S n e) (h1 : EngTimed Honest Gd eb n1 E1 e1) (hj : Decoded (j1 + 1) e1)
    (hn : m0 < (camSlot (fun n => n % N = c) j1).tooth)
    (quiet : eventIsUnscheduled (e1.cfg.events i) = true ∨ eventHasFired (e1.cfg.events i) = true)
    {pin : Fin 16} (hpin : ((eb.cfg.events i).pin.setWidth 8).toNat = pin) (only : ∀ j, ((eb.cfg.events j).pin.setWidth 8).toNat = pin → j = i)
    (h2 : EngOn Honest Gd n1 E1 e1 n2 E2 e2)
    {b2 : Bool} (in2 : InBuffer E2 e2 b2 t2) (dr2 : Drives (e2.buf b2) (stamp t2) pin (eb.cfg.events i).inverted) :
    ∃ m, AtAngle θ (A - V + O) (tol.error + δ) m t2 ∧
      ∀ n3 E3 e3 b3 t3, EngOn Honest Gd n2 E2 e2 n3 E3 e3 → InBuffer E3 e3 b3 t3 →
        Drives (e3.buf b3) (stamp t3) pin (eb.cfg.events i).inverted → AtAngle θ (A - V + O) (tol.error + δ) m t3 → t3 = t2 := by
  obtain ⟨adv, a1, all⟩ := steady_runs hδ0 (even_speed he hn) hGd hC hst hTi hb hd
  have runs := fun n3 E3 e3 (h3 : EngOn Honest Gd n2 E2 e2 n3 E3 e3) => three_runs all h1 h2 h3
  obtain ⟨a4, a5, -⟩ := runs _ _ _ .refl
  have key := C86_even_once he ho hO turns hT hc s0 room hV a1 hδ hb hd hi hA hA1 (fun _ _ h => h.2) a4 hj hn quiet hpin only a5 in2 dr2
  obtain ⟨m, hm, once⟩ := key
  exact ⟨m, hm, fun n3 E3 e3 b3 t3 h3 => once n3 E3 e3 b3 t3 (runs _ _ _ h3).2.2⟩

/-- C103, on an even wheel with a cam: a charge that has begun ends in time with a spark.  As `C101_coil_even`, with nothing assumed of what the firmware calculates.  With the sensor values of `S` the advance depends on the speed alone. -/
theorem C103_even_coil {d0 : Decoder} {N R W low c m0 j1 : ℕ} {v g A V O δ : ℚ} {p q dlo dhi late : ℤ} {T P : ℕ → ℤ} {θ : ℤ → ℚ} {tol : CrankTol}
    {eb e1 e2 : Engine} {n1 E1 n2 E2 s2 : ℤ} {i : Fin maxEvents}
    (he : EvenWheel d0 N R W low c m0 v g p q T P) (ho : d0.offset = .fin O) (hO : |O| ≤ 720)
    (turns : CrankTurns θ tol id m0 g T) (hT : Turning θ g p q) (hc : tol.Sane) (s0 : 1 / 2 ^ 18 ≤ tol.speed)
    (room : CycleRoom (tol.error + δ) g p q dlo dhi late eb.cfg.ignition.minFireUs) (hV : |V| + δ ≤ 720) (hδ0 : 0 ≤ δ) (hδ : 2 * δ + 1 / 125 < g)
    (hb : EngBoot eb) (hd : eb.cfg.decoder = decoderInit d0)
    (hi : (eb.cfg.events i).type = .ignition) (hA : (eb.cfg.events i).angle = .fin A) (hA1 : |A| ≤ 720)
    {S : (Fin numSensors → Sensor) → Prop} {Ti : Tipin → Prop} {flo fhi : ℤ}
    (hC : Commands eb.cfg S Ti g p q V δ dlo dhi flo fhi) (hst : SteadyAdvance eb.cfg S) (hTi : Ti eb.tipin) {Gd : ℤ → Engine → Prop} (hGd : ∀ n e, Gd n e → InputsOn (camEvent (fun n => n % N = c) T P) late S n e) (h1 : EngTimed Honest Gd eb n1 E1 e1) (hj : Decoded (j1 + 1) e1)
    (hn : m0 < (camSlot (fun n => n % N = c) j1).tooth)
    (quiet : eventIsUnscheduled (e1.cfg.events i) = true ∨ eventHasFired (e1.cfg.events i) = true)
    {pin : Fin 16} (hpin : ((eb.cfg.events i).pin.setWidth 8).toNat = pin) (only : ∀ j, ((eb.cfg.events j).pin.setWidth 8).toNat = pin → j = i)
    (h2 : EngOn Honest Gd n1 E1 e1 n2 E2 e2)
    {b2 : Bool} (in2 : InBuffer E2 e2 b2 s2) (dr2 : Drives (e2.buf b2) (stamp s2) pin (!(eb.cfg.events i).inverted)) :
    ∃ m, (∃ P, AtAngle θ (A - V + O) (tol.error + δ) m P ∧ dlo ≤ P - s2 ∧ P - s2 ≤ dhi) ∧
      ∀ n3 E3 e3, EngOn Honest Gd n2 E2 e2 n3 E3 e3 →
        (∀ b3 s3, InBuffer E3 e3 b3 s3 → Drives (e3.buf b3) (stamp s3) pin (!(eb.cfg.events i).inverted) →
          s3 = s2 ∨ ∃ m' > m, ∃ P, AtAngle θ (A - V + O) (tol.error + δ) m' P ∧ dlo ≤ P - s3 ∧ P - s3 ≤ dhi) ∧
        (g * dhi + 2 * (tol.error + δ) * q ≤ g * (n3 - s2) →
          ∃ t, AtAngle θ (A - V + O) (tol.error + δ) m t ∧ s2 < t ∧
            g * dlo - 2 * (tol.error + δ) * q ≤ g * (t - s2) ∧ g * (t - s2) ≤ g * dhi + 2 * (tol.error + δ) * q ∧
            DrivenOn Honest Gd n2 E2 e2 n3 E3 e3 pin (eb.cfg.events i).inverted t) := by
  obtain ⟨adv, a1, all⟩ := steady_runs hδ0 (even_speed he hn) hGd hC hst hTi hb hd
  have runs := fun n3 E3 e3 (h3 : EngOn Honest Gd n2 E2 e2 n3 E3 e3) => three_runs all h1 h2 h3
  obtain ⟨a4, a5, -⟩ := runs _ _ _ .refl
  have key := C101_coil_even he ho hO turns hT hc s0 room hV a1 hδ hb hd hi hA hA1 (fun _ _ h => h.2) a4 hj hn quiet hpin only a5 in2 dr2
  obtain ⟨m, hm, held⟩ := key
  refine ⟨m, hm, fun n3 E3 e3 h3 => ?_⟩
  obtain ⟨u1, u2⟩ := held _ _ _ (runs _ _ _ h3).2.2
  refine ⟨u1, fun hh => ?_⟩
  obtain ⟨t, x1, x2, x3, x4, x5⟩ := u2 hh
  exact ⟨t, x1, x2, x3, x4, driven_weaken (fun _ _ h => h.1) x5⟩

/-- C103, on an even wheel with a cam: each injector opens in every cycle.  As `C92_even_fires`, with nothing assumed of what the firmware calculates. -/
theorem C103_even_injects {d0 : Decoder} {N R W low c m0 j1 : ℕ} {v g A O ε : ℚ} {p q dlo dhi late : ℤ} {T P : ℕ → ℤ} {θ : ℤ → ℚ} {tol : CrankTol}
    {eb e1 e : Engine} {n1 E1 n E : ℤ} {i : Fin maxEvents}
    (he : EvenWheel d0 N R W low c m0 v g p q T P) (ho : d0.offset = .fin O) (hO : |O| ≤ 720)
    (turns : CrankTurns θ tol id m0 g T) (hT : Turning θ g p q) (hc : tol.Sane) (s0 : 1 / 2 ^ 18 ≤ tol.speed)
    (room : CycleRoom ε g p q dlo dhi late 0) (hε : g * (dhi - dlo) ≤ p * (ε - tol.error))
    (hb : EngBoot eb) (hd : eb.cfg.decoder = decoderInit d0)
    (hi : (eb.cfg.events i).type = .fuel) (hA : (eb.cfg.events i).angle = .fin A) (hA1 : |A| ≤ 720)
    {S : (Fin numSensors → Sensor) → Prop} {Ti : Tipin → Prop} {V δ : ℚ} {tlo thi : ℤ}
    (hC : Commands eb.cfg S Ti g p q V δ tlo thi dlo dhi) (hTi : Ti eb.tipin) {Gd : ℤ → Engine → Prop} (hGd : ∀ n e, Gd n e → InputsOn (camEvent (fun n => n % N = c) T P) late S n e) (h1 : EngTimed Honest Gd eb n1 E1 e1) (hj : Decoded (j1 + 1) e1)
    (hn : m0 < (camSlot (fun n => n % N = c) j1).tooth)
    (quiet : eventIsUnscheduled (e1.cfg.events i) = true ∨ eventHasFired (e1.cfg.events i) = true)
    (h : EngOn Honest Gd n1 E1 e1 n E e)
    {pin : Fin 16} (hpin : ((eb.cfg.events i).pin.setWidth 8).toNat = pin) {m : ℤ}
    (start : θ (T (camSlot (fun n => n % N = c) j1).tooth) + 1500 ≤ A + O + 720 * m) (over : A + O + 720 * m + ε ≤ θ n) :
    ∃ s t, AtAngle θ (A + O) ε m t ∧ s < t ∧
      dlo ≤ t - s ∧ t - s ≤ dhi ∧
      DrivenOn Honest Gd n1 E1 e1 n E e pin (!(eb.cfg.events i).inverted) s ∧
      DrivenOn Honest Gd n1 E1 e1 n E e pin (eb.cfg.events i).inverted t := by
  obtain ⟨a4, a5, -⟩ := command_runs (even_speed he hn).plan hGd hC hTi hb hd h1 h .refl
  have key := C92_even_fires he ho hO turns hT hc s0 room hε hb hd hi hA hA1 (fun _ _ h => h.2.injecting (Nat.le_add_left 1 _)) a4 hj hn quiet a5 hpin start over
  obtain ⟨s, t, x1, x2, x3, x4, x5, x6⟩ := key
  exact ⟨s, t, x1, x2, x3, x4, driven_weaken (fun _ _ h => h.1) x5, driven_weaken (fun _ _ h => h.1) x6⟩

/-- C103, on an even wheel with a cam: each injector opens at most once in a cycle.  As `C92_even_once`, with nothing assumed of what the firmware calculates. -/
theorem C103_even_injects_once {d0 : Decoder} {N R W low c m0 j1 : ℕ} {v g A O ε : ℚ} {p q dlo dhi late : ℤ} {T P : ℕ → ℤ} {θ : ℤ → ℚ} {tol : CrankTol}
    {eb e1 e2 : Engine} {n1 E1 n2 E2 t2 : ℤ} {i : Fin maxEvents}
    (he : EvenWheel d0 N R W low c m0 v g p q T P) (ho : d0.offset = .fin O) (hO : |O| ≤ 720)
    (turns : CrankTurns θ tol id m0 g T) (hT : Turning θ g p q) (hc : tol.Sane) (s0 : 1 / 2 ^ 18 ≤ tol.speed)
    (room : CycleRoom ε g p q dlo dhi late 0) (hε : g * (dhi - dlo) ≤ p * (ε - tol.error))
    (hb : EngBoot eb) (hd : eb.cfg.decoder = decoderInit d0)
    (hi : (eb.cfg.events i).type = .fuel) (hA : (eb.cfg.events i).angle = .fin A) (hA1 : |A| ≤ 720)
    {S : (Fin numSensors → Sensor) → Prop} {Ti : Tipin → Prop} {V δ : ℚ} {tlo thi : ℤ}
    (hC : Commands eb.cfg S Ti g p q V δ tlo thi dlo dhi) (hTi : Ti eb.tipin) {Gd : ℤ → Engine → Prop} (hGd : ∀ n e, Gd n e → InputsOn (camEvent (fun n => n % N = c) T P) late S n e) (h1 : EngTimed Honest Gd eb n1 E1 e1) (hj : Decoded (j1 + 1) e1)
    (hn : m0 < (camSlot (fun n => n % N = c) j1).tooth)
    (quiet : eventIsUnscheduled (e1.cfg.events i) = true ∨ eventHasFired (e1.cfg.events i) = true)
    {pin : Fin 16} (hpin : ((eb.cfg.events i).pin.setWidth 8).toNat = pin) (only : ∀ j, ((eb.cfg.events j).pin.setWidth 8).toNat = pin → j = i)
    (h2 : EngOn Honest Gd n1 E1 e1 n2 E2 e2)
    {b2 : Bool} (in2 : InBuffer E2 e2 b2 t2) (dr2 : Drives (e2.buf b2) (stamp t2) pin (eb.cfg.events i).inverted) :
    ∃ m, AtAngle θ (A + O) ε m t2 ∧
      ∀ n3 E3 e3 b3 t3, EngOn Honest Gd n2 E2 e2 n3 E3 e3 → InBuffer E3 e3 b3 t3 →
        Drives (e3.buf b3) (stamp t3) pin (eb.cfg.events i).inverted → AtAngle θ (A + O) ε m t3 → t3 = t2 := by
  have runs := fun n3 E3 e3 (h3 : EngOn Honest Gd n2 E2 e2 n3 E3 e3) => command_runs (even_speed he hn).plan hGd hC hTi hb hd h1 h2 h3
  obtain ⟨a4, a5, -⟩ := runs _ _ _ .refl
  have key := C92_even_once he ho hO turns hT hc s0 room hε hb hd hi hA hA1 (fun _ _ h => h.2.injecting (Nat.le_add_left 1 _)) a4 hj hn quiet hpin only a5 in2 dr2
  obtain ⟨m, hm, once⟩ := key
  exact ⟨m, hm, fun n3 E3 e3 b3 t3 h3 => once n3 E3 e3 b3 t3 (runs _ _ _ h3).2.2⟩

/-- C103, on an even wheel with a cam: an injection that has begun ends in time.  As `C101_injector_even`, with nothing assumed of what the firmware calculates. -/
theorem C103_even_injector {d0 : Decoder} {N R W low c m0 j1 : ℕ} {v g A O ε : ℚ} {p q dlo dhi late : ℤ} {T P : ℕ → ℤ} {θ : ℤ → ℚ} {tol : CrankTol}
    {eb e1 e2 : Engine} {n1 E1 n2 E2 s2 : ℤ} {i : Fin maxEvents}
    (he : EvenWheel d0 N R W low c m0 v g p q T P) (ho : d0.offset = .fin O) (hO : |O| ≤ 720)
    (turns : CrankTurns θ tol id m0 g T) (hT : Turning θ g p q) (hc : tol.Sane) (s0 : 1 / 2 ^ 18 ≤ tol.speed)
    (room : CycleRoom ε g p q dlo dhi late 0) (hε : g * (dhi - dlo) ≤ p * (ε - tol.error))
    (hb : EngBoot eb) (hd : eb.cfg.decoder = decoderInit d0)
    (hi : (eb.cfg.events i).type = .fuel) (hA : (eb.cfg.events i).angle = .fin A) (hA1 : |A| ≤ 720)
    {S : (Fin numSensors → Sensor) → Prop} {Ti : Tipin → Prop} {V δ : ℚ} {tlo thi : ℤ}
    (hC : Commands eb.cfg S Ti g p q V δ tlo thi dlo dhi) (hTi : Ti eb.tipin) {Gd : ℤ → Engine → Prop} (hGd : ∀ n e, Gd n e → InputsOn (camEvent (fun n => n % N = c) T P) late S n e) (h1 : EngTimed Honest Gd eb n1 E1 e1) (hj : Decoded (j1 + 1) e1)
    (hn : m0 < (camSlot (fun n => n % N = c) j1).tooth)
    (quiet : eventIsUnscheduled (e1.cfg.events i) = true ∨ eventHasFired (e1.cfg.events i) = true)
    {pin : Fin 16} (hpin : ((eb.cfg.events i).pin.setWidth 8).toNat = pin) (only : ∀ j, ((eb.cfg.events j).pin.setWidth 8).toNat = pin → j = i)
    (h2 : EngOn Honest Gd n1 E1 e1 n2 E2 e2)
    {b2 : Bool} (in2 : InBuffer E2 e2 b2 s2) (dr2 : Drives (e2.buf b2) (stamp s2) pin (!(eb.cfg.events i).inverted)) :
    ∃ m, (∃ P, AtAngle θ (A + O) tol.error m P ∧ dlo ≤ P - s2 ∧ P - s2 ≤ dhi) ∧
      ∀ n3 E3 e3, EngOn Honest Gd n2 E2 e2 n3 E3 e3 →
        (∀ b3 s3, InBuffer E3 e3 b3 s3 → Drives (e3.buf b3) (stamp s3) pin (!(eb.cfg.events i).inverted) →
          s3 = s2 ∨ ∃ m' > m, ∃ P, AtAngle θ (A + O) tol.error m' P ∧ dlo ≤ P - s3 ∧ P - s3 ≤ dhi) ∧
        (s2 + dhi ≤ n3 →
          ∃ t, AtAngle θ (A + O) ε m t ∧ s2 < t ∧ dlo ≤ t - s2 ∧ t - s2 ≤ dhi ∧
            DrivenOn Honest Gd n2 E2 e2 n3 E3 e3 pin (eb.cfg.events i).inverted t) := by
  have runs := fun n3 E3 e3 (h3 : EngOn Honest Gd n2 E2 e2 n3 E3 e3) => command_runs (even_speed he hn).plan hGd hC hTi hb hd h1 h2 h3
  obtain ⟨a4, a5, -⟩ := runs _ _ _ .refl
  have key := C101_injector_even he ho hO turns hT hc s0 room hε hb hd hi hA hA1 (fun _ _ h => h.2.injecting (Nat.le_add_left 1 _)) a4 hj hn quiet hpin only a5 in2 dr2
  obtain ⟨m, hm, held⟩ := key
  refine ⟨m, hm, fun n3 E3 e3 h3 => ?_⟩
  obtain ⟨u1, u2⟩ := held _ _ _ (runs _ _ _ h3).2.2
  refine ⟨u1, fun hh => ?_⟩
  obtain ⟨t, x1, x2, x3, x4, x5⟩ := u2 hh
  exact ⟨t, x1, x2, x3, x4, driven_weaken (fun _ _ h => h.1) x5⟩

/-- C103, on an even wheel without a cam: each ignition output fires in every cycle.  As `C86_free_fires`, with nothing assumed of what the firmware calculates. -/
theorem C103_free_sparks {d0 : Decoder} {N R W low k1 : ℕ} {v g A V O δ : ℚ} {p q dlo dhi late : ℤ} {T : ℕ → ℤ} {θ : ℤ → ℚ} {tol : CrankTol}
    {eb e1 e : Engine} {n1 E1 n E : ℤ} {i : Fin maxEvents}
    (he : FreeWheel d0 N R W low v g p q T) (ho : d0.offset = .fin O) (hO : |O| ≤ 720)
    (turns : CrankTurns θ tol id (R - 1) g T) (hT : Turning θ g p q) (hc : tol.Sane) (s0 : 1 / 2 ^ 18 ≤ tol.speed)
    (room : CycleRoom (tol.error + δ) g p q dlo dhi late eb.cfg.ignition.minFireUs) (hV : |V| + δ ≤ 720) (hδ0 : 0 ≤ δ) (hδ : 2 * δ + 1 / 125 < g)
    (hb : EngBoot eb) (hd : eb.cfg.decoder = decoderInit d0)
    (hi : (eb.cfg.events i).type = .ignition) (hA : (eb.cfg.events i).angle = .fin A) (hA1 : |A| ≤ 720)
    {S : (Fin numSensors → Sensor) → Prop} {Ti : Tipin → Prop} {flo fhi : ℤ}
    (hC : Commands eb.cfg S Ti g p q V δ dlo dhi flo fhi) (hTi : Ti eb.tipin) {Gd : ℤ → Engine → Prop} (hGd : ∀ n e, Gd n e → InputsOn (fun j => (0, T j)) late S n e) (h1 : EngTimed Honest Gd eb n1 E1 e1) (hk1 : Decoded (k1 + 1) e1)
    (hn : R - 1 < k1)
    (quiet : eventIsUnscheduled (e1.cfg.events i) = true ∨ eventHasFired (e1.cfg.events i) = true)
    (h : EngOn Honest Gd n1 E1 e1 n E e)
    {pin : Fin 16} (hpin : ((eb.cfg.events i).pin.setWidth 8).toNat = pin) {m : ℤ}
    (start : θ (T k1) + 1500 ≤ A - V + O + 720 * m) (over : A - V + O + 720 * m + (tol.error + δ) ≤ θ n) :
    ∃ s t, AtAngle θ (A - V + O) (tol.error + δ) m t ∧ s < t ∧
      g * dlo - 2 * (tol.error + δ) * q ≤ g * (t - s) ∧ g * (t - s) ≤ g * dhi + 2 * (tol.error + δ) * q ∧
      DrivenOn Honest Gd n1 E1 e1 n E e pin (!(eb.cfg.events i).inverted) s ∧
      DrivenOn Honest Gd n1 E1 e1 n E e pin (eb.cfg.events i).inverted t := by
  obtain ⟨adv, F, a1, a2, a3, a4, a5, -⟩ := whole_path hδ0 (free_speed he) hGd hC hTi hb hd h1 h .refl
  have key := C86_free_fires he ho hO turns hT hc s0 room hV a1 hδ hb hd hi hA hA1 a3 a4 hk1 hn quiet a5 hpin start over
  obtain ⟨s, t, x1, x2, x3, x4, x5, x6⟩ := key
  exact ⟨s, t, x1, x2, x3, x4, driven_weaken a2 x5, driven_weaken a2 x6⟩

/-- C103, on an even wheel without a cam: each ignition output fires at most once in a cycle.  As `C86_free_once`, with nothing assumed of what the firmware calculates. -/
theorem C103_free_sparks_once {d0 : Decoder} {N R W low k1 : ℕ} {v g A V O δ : ℚ} {p q dlo dhi late : ℤ} {T : ℕ → ℤ} {θ : ℤ → ℚ} {tol : CrankTol}
    {eb e1 e2 : Engine} {n1 E1 n2 E2 t2 : ℤ} {i : Fin maxEvents}
    (he : FreeWheel d0 N R W low v g p q T) (ho : d0.offset = .fin O) (hO : |O| ≤ 720)
    (turns : CrankTurns θ tol id (R - 1) g T) (hT : Turning θ g p q) (hc : tol.Sane) (s0 : 1 / 2 ^ 18 ≤ tol.speed)
    (room : CycleRoom (tol.error + δ) g p q dlo dhi late eb.cfg.ignition.minFireUs) (hV : |V| + δ ≤ 720) (hδ0 : 0 ≤ δ) (hδ : 2 * δ + 1 / 125 < g)
    (hb : EngBoot eb) (hd : eb.cfg.decoder = decoderInit d0)
    (hi : (eb.cfg.events i).type = .ignition) (hA : (eb.cfg.events i).angle = .fin A) (hA1 : |A| ≤ 720)
    {S : (Fin numSensors → Sensor) → Prop} {Ti : Tipin → Prop} {flo fhi : ℤ}
    (hC : Commands eb.cfg S Ti g p q V δ dlo dhi flo fhi) (hTi : Ti eb.tipin) {Gd : ℤ → Engine → Prop} (hGd : ∀ n e, Gd n e → InputsOn (fun j => (0, T j)) late S n e) (h1 : EngTimed Honest Gd eb n1 E1 e1) (hk1 : Decoded (k1 + 1) e1)
    (hn : R - 1 < k1)
    (quiet : eventIsUnscheduled (e1.cfg.events i) = true ∨ eventHasFired (e1.cfg.events i) = true)
    {pin : Fin 16} (hpin : ((eb.cfg.events i).pin.setWidth 8).toNat = pin) (only : ∀ j, ((eb.cfg.events j).pin.setWidth 8).toNat = pin → j = i)
    (h2 : EngOn Honest Gd n1 E1 e1 n2 E2 e2)
    {b2 : Bool} (in2 : InBuffer E2 e2 b2 t2) (dr2 : Drives (e2.buf b2) (stamp t2) pin (eb.cfg.events i).inverted) :
    ∃ m, AtAngle θ (A - V + O) (tol.error + δ) m t2 ∧
      ∀ n3 E3 e3 b3 t3, EngOn Honest Gd n2 E2 e2 n3 E3 e3 → InBuffer E3 e3 b3 t3 →
        Drives (e3.buf b3) (stamp t3) pin (eb.cfg.events i).inverted → AtAngle θ (A - V + O) (tol.error + δ) m t3 → t3 = t2 := by
  have runs := fun n3 E3 e3 (h3 : EngOn Honest Gd n2 E2 e2 n3 E3 e3) => whole_path hδ0 (free_speed he) hGd hC hTi hb hd h1 h2 h3
  obtain ⟨adv, F, a1, a2, a3, a4, a5, -⟩ := runs _ _ _ .refl
  obtain ⟨m, hm, -⟩ := C86_free_once he ho hO turns hT hc s0 room hV a1 hδ hb hd hi hA hA1 a3 a4 hk1 hn quiet hpin only a5 in2 dr2
  refine ⟨m, hm, fun n3 E3 e3 b3 t3 h3 in3 dr3 at3 => ?_⟩
  obtain ⟨adv', F', c1, c2, c3, c4, c5, c6⟩ := runs _ _ _ h3
  obtain ⟨m', hm', once⟩ := C86_free_once he ho hO turns hT hc s0 room hV c1 hδ hb hd hi hA hA1 c3 c4 hk1 hn quiet hpin only c5 in2 dr2
  obtain rfl := angle_unique room.error hm hm'
  exact once _ _ _ _ _ c6 in3 dr3 at3

/-- C103, on an even wheel without a cam: a charge that has begun ends in time with a spark.  As `C101_coil_free`, with nothing assumed of what the firmware calculates. -/
theorem C103_free_coil {d0 : Decoder} {N R W low k1 : ℕ} {v g A V O δ : ℚ} {p q dlo dhi late : ℤ} {T : ℕ → ℤ} {θ : ℤ → ℚ} {tol : CrankTol}
    {eb e1 e2 : Engine} {n1 E1 n2 E2 s2 : ℤ} {i : Fin maxEvents}
    (he : FreeWheel d0 N R W low v g p q T) (ho : d0.offset = .fin O) (hO : |O| ≤ 720)
    (turns : CrankTurns θ tol id (R - 1) g T) (hT : Turning θ g p q) (hc : tol.Sane) (s0 : 1 / 2 ^ 18 ≤ tol.speed)
    (room : CycleRoom (tol.error + δ) g p q dlo dhi late eb.cfg.ignition.minFireUs) (hV : |V| + δ ≤ 720) (hδ0 : 0 ≤ δ) (hδ : 2 * δ + 1 / 125 < g)
    (hb : EngBoot eb) (hd : eb.cfg.decoder = decoderInit d0)
    (hi : (eb.cfg.events i).type = .ignition) (hA : (eb.cfg.events i).angle = .fin A) (hA1 : |A| ≤ 720)
    {S : (Fin numSensors → Sensor) → Prop} {Ti : Tipin → Prop} {flo fhi : ℤ}
    (hC : Commands eb.cfg S Ti g p q V δ dlo dhi flo fhi) (hTi : Ti eb.tipin) {Gd : ℤ → Engine → Prop} (hGd : ∀ n e, Gd n e → InputsOn (fun j => (0, T j)) late S n e) (h1 : EngTimed Honest Gd eb n1 E1 e1) (hk1 : Decoded (k1 + 1) e1)
    (hn : R - 1 < k1)
    (quiet : eventIsUnscheduled (e1.cfg.events i) = true ∨ eventHasFired (e1.cfg.events i) = true)
    {pin : Fin 16} (hpin : ((eb.cfg.events i).pin.setWidth 8).toNat = pin) (only : ∀ j, ((eb.cfg.events j).pin.setWidth 8).toNat = pin → j = i)
    (h2 : EngOn Honest Gd n1 E1 e1 n2 E2 e2)
    {b2 : Bool} (in2 : InBuffer E2 e2 b2 s2) (dr2 : Drives (e2.buf b2) (stamp s2) pin (!(eb.cfg.events i).inverted)) :
    ∃ m, (∃ P, AtAngle θ (A - V + O) (tol.error + δ) m P ∧ dlo ≤ P - s2 ∧ P - s2 ≤ dhi) ∧
      ∀ n3 E3 e3, EngOn Honest Gd n2 E2 e2 n3 E3 e3 →
        (∀ b3 s3, InBuffer E3 e3 b3 s3 → Drives (e3.buf b3) (stamp s3) pin (!(eb.cfg.events i).inverted) →
          s3 = s2 ∨ ∃ m' > m, ∃ P, AtAngle θ (A - V + O) (tol.error + δ) m' P ∧ dlo ≤ P - s3 ∧ P - s3 ≤ dhi) ∧
        (g * dhi + 2 * (tol.error + δ) * q ≤ g * (n3 - s2) →
          ∃ t, AtAngle θ (A - V + O) (tol.error + δ) m t ∧ s2 < t ∧
            g * dlo - 2 * (tol.error + δ) * q ≤ g * (t - s2) ∧ g * (t - s2) ≤ g * dhi + 2 * (tol.error + δ) * q ∧
            DrivenOn Honest Gd n2 E2 e2 n3 E3 e3 pin (eb.cfg.events i).inverted t) := by
  have runs := fun n3 E3 e3 (h3 : EngOn Honest Gd n2 E2 e2 n3 E3 e3) => whole_path hδ0 (free_speed he) hGd hC hTi hb hd h1 h2 h3
  obtain ⟨adv, F, a1, a2, a3, a4, a5, -⟩ := runs _ _ _ .refl
  obtain ⟨m, ⟨P, hm, l1, l2⟩, -⟩ := C101_coil_free he ho hO turns hT hc s0 room hV a1 hδ hb hd hi hA hA1 a3 a4 hk1 hn quiet hpin only a5 in2 dr2
  refine ⟨m, ⟨P, hm, l1, l2⟩, fun n3 E3 e3 h3 => ?_⟩
  obtain ⟨adv', F', c1, c2, c3, c4, c5, c6⟩ := runs _ _ _ h3
  obtain ⟨m', ⟨P', hm', r1, r2⟩, held⟩ := C101_coil_free he ho hO turns hT hc s0 room hV c1 hδ hb hd hi hA hA1 c3 c4 hk1 hn quiet hpin only c5 in2 dr2
  obtain rfl := angle_close (pace_shape he.pace turns hc.speed1).1 turns hc hδ0 room hT hm hm' l1 l2 r1 r2
  obtain ⟨u1, u2⟩ := held _ _ _ c6
  refine ⟨u1, fun hh => ?_⟩
  obtain ⟨t, x1, x2, x3, x4, x5⟩ := u2 hh
  exact ⟨t, x1, x2, x3, x4, driven_weaken c2 x5⟩

/-- C103, on an even wheel without a cam: each injector opens in every cycle.  As `C92_free_fires`, with nothing assumed of what the firmware calculates. -/
theorem C103_free_injects {d0 : Decoder} {N R W low k1 : ℕ} {v g A O ε : ℚ} {p q dlo dhi late : ℤ} {T : ℕ → ℤ} {θ : ℤ → ℚ} {tol : CrankTol}
    {eb e1 e : Engine} {n1 E1 n E : ℤ} {i : Fin maxEvents}
    (he : FreeWheel d0 N R W low v g p q T) (ho : d0.offset = .fin O) (hO : |O| ≤ 720)
    (turns : CrankTurns θ tol id (R - 1) g T) (hT : Turning θ g p q) (hc : tol.Sane) (s0 : 1 / 2 ^ 18 ≤ tol.speed)
    (room : CycleRoom ε g p q dlo dhi late 0) (hε : g * (dhi - dlo) ≤ p * (ε - tol.error))
    (hb : EngBoot eb) (hd : eb.cfg.decoder = decoderInit d0)
    (hi : (eb.cfg.events i).type = .fuel) (hA : (eb.cfg.events i).angle = .fin A) (hA1 : |A| ≤ 720)
    {S : (Fin numSensors → Sensor) → Prop} {Ti : Tipin → Prop} {V δ : ℚ} {tlo thi : ℤ}
    (hC : Commands eb.cfg S Ti g p q V δ tlo thi dlo dhi) (hTi : Ti eb.tipin) {Gd : ℤ → Engine → Prop} (hGd : ∀ n e, Gd n e → InputsOn (fun j => (0, T j)) late S n e) (h1 : EngTimed Honest Gd eb n1 E1 e1) (hk1 : Decoded (k1 + 1) e1)
    (hn : R - 1 < k1)
    (quiet : eventIsUnscheduled (e1.cfg.events i) = true ∨ eventHasFired (e1.cfg.events i) = true)
    (h : EngOn Honest Gd n1 E1 e1 n E e)
    {pin : Fin 16} (hpin : ((eb.cfg.events i).pin.setWidth 8).toNat = pin) {m : ℤ}
    (start : θ (T k1) + 1500 ≤ A + O + 720 * m) (over : A + O + 720 * m + ε ≤ θ n) :
    ∃ s t, AtAngle θ (A + O) ε m t ∧ s < t ∧
      dlo ≤ t - s ∧ t - s ≤ dhi ∧
      DrivenOn Honest Gd n1 E1 e1 n E e pin (!(eb.cfg.events i).inverted) s ∧
      DrivenOn Honest Gd n1 E1 e1 n E e pin (eb.cfg.events i).inverted t := by
  obtain ⟨a4, a5, -⟩ := command_runs (free_speed he) hGd hC hTi hb hd h1 h .refl
  have key := C92_free_fires he ho hO turns hT hc s0 room hε hb hd hi hA hA1 (fun _ _ h => h.2.injecting (Nat.le_add_left 1 _)) a4 hk1 hn quiet a5 hpin start over
  obtain ⟨s, t, x1, x2, x3, x4, x5, x6⟩ := key
  exact ⟨s, t, x1, x2, x3, x4, driven_weaken (fun _ _ h => h.1) x5, driven_weaken (fun _ _ h => h.1) x6⟩

/-- C103, on an even wheel without a cam: each injector opens at most once in a cycle.  As `C92_free_once`, with nothing assumed of what the firmware calculates. -/
theorem C103_free_injects_once {d0 : Decoder} {N R W low k1 : ℕ} {v g A O ε : ℚ} {p q dlo dhi late : ℤ} {T : ℕ → ℤ} {θ : ℤ → ℚ} {tol : CrankTol}
    {eb e1 e2 : Engine} {n1 E1 n2 E2 t2 : ℤ} {i : Fin maxEvents}
    (he : FreeWheel d0 N R W low v g p q T) (ho : d0.offset = .fin O) (hO : |O| ≤ 720)
    (turns : CrankTurns θ tol id (R - 1) g T) (hT : Turning θ g p q) (hc : tol.Sane) (s0 : 1 / 2 ^ 18 ≤ tol.speed)
    (room : CycleRoom ε g p q dlo dhi late 0) (hε : g * (dhi - dlo) ≤ p * (ε - tol.error))
    (hb : EngBoot eb) (hd : eb.cfg.decoder = decoderInit d0)
    (hi : (eb.cfg.events i).type = .fuel) (hA : (eb.cfg.events i).angle = .fin A) (hA1 : |A| ≤ 720)
    {S : (Fin numSensors → Sensor) → Prop} {Ti : Tipin → Prop} {V δ : ℚ} {tlo thi : ℤ}
    (hC : Commands eb.cfg S Ti g p q V δ tlo thi dlo dhi) (hTi : Ti eb.tipin) {Gd : ℤ → Engine → Prop} (hGd : ∀ n e, Gd n e → InputsOn (fun j => (0, T j)) late S n e) (h1 : EngTimed Honest Gd eb n1 E1 e1) (hk1 : Decoded (k1 + 1) e1)
    (hn : R - 1 < k1)
    (quiet : eventIsUnscheduled (e1.cfg.events i) = true ∨ eventHasFired (e1.cfg.events i) = true)
    {pin : Fin 16} (hpin : ((eb.cfg.events i).pin.setWidth 8).toNat = pin) (only : ∀ j, ((eb.cfg.events j).pin.setWidth 8).toNat = pin → j = i)
    (h2 : EngOn Honest Gd n1 E1 e1 n2 E2 e2)
    {b2 : Bool} (in2 : InBuffer E2 e2 b2 t2) (dr2 : Drives (e2.buf b2) (stamp t2) pin (eb.cfg.events i).inverted) :
    ∃ m, AtAngle θ (A + O) ε m t2 ∧
      ∀ n3 E3 e3 b3 t3, EngOn Honest Gd n2 E2 e2 n3 E3 e3 → InBuffer E3 e3 b3 t3 →
        Drives (e3.buf b3) (stamp t3) pin (eb.cfg.events i).inverted → AtAngle θ (A + O) ε m t3 → t3 = t2 := by
  have runs := fun n3 E3 e3 (h3 : EngOn Honest Gd n2 E2 e2 n3 E3 e3) => command_runs (free_speed he) hGd hC hTi hb hd h1 h2 h3
  obtain ⟨a4, a5, -⟩ := runs _ _ _ .refl
  have key := C92_free_once he ho hO turns hT hc s0 room hε hb hd hi hA hA1 (fun _ _ h => h.2.injecting (Nat.le_add_left 1 _)) a4 hk1 hn quiet hpin only a5 in2 dr2
  obtain ⟨m, hm, once⟩ := key
  exact ⟨m, hm, fun n3 E3 e3 b3 t3 h3 => once n3 E3 e3 b3 t3 (runs _ _ _ h3).2.2⟩

/-- C103, on an even wheel without a cam: an injection that has begun ends in time.  As `C101_injector_free`, with nothing assumed of what the firmware calculates. -/
theorem C103_free_injector {d0 : Decoder} {N R W low k1 : ℕ} {v g A O ε : ℚ} {p q dlo dhi late : ℤ} {T : ℕ → ℤ} {θ : ℤ → ℚ} {tol : CrankTol}
    {eb e1 e2 : Engine} {n1 E1 n2 E2 s2 : ℤ} {i : Fin maxEvents}
    (he : FreeWheel d0 N R W low v g p q T) (ho : d0.offset = .fin O) (hO : |O| ≤ 720)
    (turns : CrankTurns θ tol id (R - 1) g T) (hT : Turning θ g p q) (hc : tol.Sane) (s0 : 1 / 2 ^ 18 ≤ tol.speed)
    (room : CycleRoom ε g p q dlo dhi late 0) (hε : g * (dhi - dlo) ≤ p * (ε - tol.error))
    (hb : EngBoot eb) (hd : eb.cfg.decoder = decoderInit d0)
    (hi : (eb.cfg.events i).type = .fuel) (hA : (eb.cfg.events i).angle = .fin A) (hA1 : |A| ≤ 720)
    {S : (Fin numSensors → Sensor) → Prop} {Ti : Tipin → Prop} {V δ : ℚ} {tlo thi : ℤ}
    (hC : Commands eb.cfg S Ti g p q V δ tlo thi dlo dhi) (hTi : Ti eb.tipin) {Gd : ℤ → Engine → Prop} (hGd : ∀ n e, Gd n e → InputsOn (fun j => (0, T j)) late S n e) (h1 : EngTimed Honest Gd eb n1 E1 e1) (hk1 : Decoded (k1 + 1) e1)
    (hn : R - 1 < k1)
    (quiet : eventIsUnscheduled (e1.cfg.events i) = true ∨ eventHasFired (e1.cfg.events i) = true)
    {pin : Fin 16} (hpin : ((eb.cfg.events i).pin.setWidth 8).toNat = pin) (only : ∀ j, ((eb.cfg.events j).pin.setWidth 8).toNat = pin → j = i)
    (h2 : EngOn Honest Gd n1 E1 e1 n2 E2 e2)
    {b2 : Bool} (in2 : InBuffer E2 e2 b2 s2) (dr2 : Drives (e2.buf b2) (stamp s2) pin (!(eb.cfg.events i).inverted)) :
    ∃ m, (∃ P, AtAngle θ (A + O) tol.error m P ∧ dlo ≤ P - s2 ∧ P - s2 ≤ dhi) ∧
      ∀ n3 E3 e3, EngOn Honest Gd n2 E2 e2 n3 E3 e3 →
        (∀ b3 s3, InBuffer E3 e3 b3 s3 → Drives (e3.buf b3) (stamp s3) pin (!(eb.cfg.events i).inverted) →
          s3 = s2 ∨ ∃ m' > m, ∃ P, AtAngle θ (A + O) tol.error m' P ∧ dlo ≤ P - s3 ∧ P - s3 ≤ dhi) ∧
        (s2 + dhi ≤ n3 →
          ∃ t, AtAngle θ (A + O) ε m t ∧ s2 < t ∧ dlo ≤ t - s2 ∧ t - s2 ≤ dhi ∧
            DrivenOn Honest Gd n2 E2 e2 n3 E3 e3 pin (eb.cfg.events i).inverted t) := by
  have runs := fun n3 E3 e3 (h3 : EngOn Honest Gd n2 E2 e2 n3 E3 e3) => command_runs (free_speed he) hGd hC hTi hb hd h1 h2 h3
  obtain ⟨a4, a5, -⟩ := runs _ _ _ .refl
  have key := C101_injector_free he ho hO turns hT hc s0 room hε hb hd hi hA hA1 (fun _ _ h => h.2.injecting (Nat.le_add_left 1 _)) a4 hk1 hn quiet hpin only a5 in2 dr2
  obtain ⟨m, hm, held⟩ := key
  refine ⟨m, hm, fun n3 E3 e3 h3 => ?_⟩
  obtain ⟨u1, u2⟩ := held _ _ _ (runs _ _ _ h3).2.2
  refine ⟨u1, fun hh => ?_⟩
  obtain ⟨t, x1, x2, x3, x4, x5⟩ := u2 hh
  exact ⟨t, x1, x2, x3, x4, driven_weaken (fun _ _ h => h.1) x5⟩

end Verif
