/-
C66, C76, C79, C86, C92 and C101 for the whole firmware on an even wheel without a cam.
-/
import Verif.Proofs.FreePlan
import Verif.Props.Held

namespace Verif

variable [FloatFmt]

/-- C66 for the whole firmware, even wheel without a cam (partial: a band of speeds narrower than the tolerance, and teeth that are steady from the first on; see
C102).  The firmware has started, the teeth of the wheel reach it as captures, in order and within 64 microseconds, no capture is
lost, and the timer interrupt comes whenever it likes; outputs, sensors, buffers and the client may do anything.  Then from
the last of the `R` required teeth on, the decoder is valid in every state, at the time of the tooth, and its angle is as many pitches as teeth have passed since. -/
theorem C66_engine_free_partial {d0 : Decoder} {N R W low : ℕ} {v g : ℚ} {p q : ℤ} {T : ℕ → ℤ} {G : ℤ → Engine → Prop} {e0 e : Engine} {n E : ℤ}
    (he : FreeWheel d0 N R W low v g p q T)
    (hG : ∀ n e, G n e → TeethGiven T n e) (hb : EngBoot e0) (hd : e0.cfg.decoder = decoderInit d0)
    (h : EngTimed Honest G e0 n E e) {j : ℕ} (hj : Decoded (j + 1) e) (hn : R ≤ j + 1) :
    e.cfg.decoder.valid = true ∧ e.cfg.decoder.lastTriggerTime = stamp (T j) ∧
      e.cfg.decoder.lastTriggerAngle = .fin (g * (((j + 1 - R) % N : ℕ) : ℚ)) := by
  obtain ⟨x, hp, hx⟩ := free_plan he
  obtain ⟨-, i, hi⟩ := timed_decoded hp (G := G) hG hb hd h
  obtain rfl := hj.unique hi.count
  obtain ⟨a, b, hdec⟩ := hi.decoder
  obtain ⟨r, -⟩ := hx j hn
  have hR2 := he.pace.wheel.cfg.R2
  rw [hdec, show j + 1 - R = j - (R - 1) by omega]
  exact ⟨r.valid, r.time, r.angle⟩

/-- C76 for the whole firmware on a real even wheel without a cam.  The firmware has started; the teeth reach it as
captures, in order and within 64 microseconds, no capture is lost, and the timing advance is one of `Adv`; anything else may
happen at any time.  From any state `e1` after the first tooth that follows the required ones, in which the
output has nothing pending: at every spark the crank is at the commanded angle, counted from the last of the required teeth.  (Which
angle of the engine this is the firmware cannot know.) -/
theorem C76_free_wheel_partial {d0 : Decoder} {N R W low k1 : ℕ} {v g offset : ℚ} {p q : ℤ} {T : ℕ → ℤ} {θ : ℤ → ℚ} {tol : CrankTol}
    {Adv : ℚ → Prop} {e0 e1 e : Engine} {n1 E1 n E t : ℤ}
    (he : FreeWheel d0 N R W low v g p q T) (ho : d0.offset = .fin offset)
    (turns : CrankTurns θ tol id (R - 1) g T) (hc : tol.Sane) (s0 : 1 / 2 ^ 18 ≤ tol.speed)
    (hb : EngBoot e0) (hd : e0.cfg.decoder = decoderInit d0) (ha : CycleAngles e0 offset Adv)
    (h1 : EngTimed Honest (OnWheel T Adv) e0 n1 E1 e1) (hk1 : Decoded (k1 + 1) e1) (hn : R - 1 < k1)
    (h : EngOn Honest (OnWheel T Adv) n1 E1 e1 n E e) {i : Fin maxEvents} {A : ℚ}
    (hi : (e0.cfg.events i).type = .ignition) (hA : (e0.cfg.events i).angle = .fin A) (quiet : ¬ Live (e1.cfg.events i).stop.state)
    {pin : Fin 16} (only : ∀ j, ((e0.cfg.events j).pin.setWidth 8).toNat = pin → j = i) {b : Bool} (hin : InBuffer E e b t)
    (hdr : Drives (e.buf b) (stamp t) pin (e0.cfg.events i).inverted) :
    ∃ adv, Adv adv ∧ Near (θ t) (A - adv + offset) tol.error := by
  have hc1 := timed_clock h1
  obtain ⟨hr1, -, -⟩ := clock_reach hb .boot hc1
  have hst := clock_static hc1
  have fol := free_follows he ho turns hc s0 (fun n e h => h.1) hb hd h1 hk1 hn (Nat.le_succ _)
  have key : EngClock (Tracks θ tol offset Adv) e1 n E e := on_clock hb h1 h fun m E' y hy => by
    obtain ⟨gy, k, -, hat⟩ := fol _ _ _ hy
    exact fun _ => ⟨hat.offset, ⟨_, hat.passed, hat.recent, hat.knows⟩, gy.2⟩
  have ha1 : CycleAngles e1 offset Adv := ⟨fun i hi => by
    rw [(hst i).2.1]
    exact ha.events i (by rw [← (hst i).1]; exact hi), ha.offset, ha.advance⟩
  exact C76_spark_partial hc hb hr1 ha1 key (i := i) (by rw [(hst i).1]; exact hi) (by rw [(hst i).2.1]; exact hA) quiet
    (fun j hj => only j (by rw [← (hst j).2.2.1]; exact hj)) hin.1 hin.2 (by rw [(hst i).2.2.2]; exact hdr)

/-- C79 for the whole firmware on a real even wheel without a cam, with a constant command: from any state `e1` after the first tooth that
follows the required ones, in which the injector has nothing pending, every injection ends at the commanded
angle, and began the commanded time before. -/
theorem C79_free_wheel_partial {d0 : Decoder} {N R W low k1 : ℕ} {v g offset : ℚ} {p q : ℤ} {T : ℕ → ℤ} {θ : ℤ → ℚ} {tol : CrankTol}
    {fu : BitVec 32} {e0 e1 e : Engine} {n1 E1 n E t : ℤ}
    (he : FreeWheel d0 N R W low v g p q T) (ho : d0.offset = .fin offset)
    (hO : |offset| ≤ 720) (turns : CrankTurns θ tol id (R - 1) g T) (hc : tol.Sane) (s0 : 1 / 2 ^ 18 ≤ tol.speed) (small : fu.toNat < 2 ^ 28)
    (hb : EngBoot e0) (hd : e0.cfg.decoder = decoderInit d0)
    (h1 : EngTimed Honest (FuelOnWheel T fu) e0 n1 E1 e1) (hk1 : Decoded (k1 + 1) e1)
    (hn : R - 1 < k1)
    (h : EngOn Honest (FuelOnWheel T fu) n1 E1 e1 n E e) {i : Fin maxEvents} {A : ℚ}
    (hi : (e0.cfg.events i).type = .fuel) (hA : (e0.cfg.events i).angle = .fin A) (hA1 : |A| ≤ 720)
    (quiet : eventIsUnscheduled (e1.cfg.events i) = true ∨ eventHasFired (e1.cfg.events i) = true)
    {pin : Fin 16} (hp : ((e0.cfg.events i).pin.setWidth 8).toNat = pin)
    (only : ∀ j, ((e0.cfg.events j).pin.setWidth 8).toNat = pin → j = i) {b : Bool} (hin : InBuffer E e b t)
    (hdr : Drives (e.buf b) (stamp t) pin (e0.cfg.events i).inverted) :
    Near (θ t) (A + offset) tol.error ∧
      DrivenBy (FuelTracks θ tol offset (· = fu)) e1 n E e pin (!(e0.cfg.events i).inverted) (t - 4 * fu.toNat) := by
  have hc1 := timed_clock h1
  obtain ⟨hr1, -, -⟩ := clock_reach hb .boot hc1
  have hst := clock_static hc1
  have fol := free_follows he ho turns hc s0 (fun n e h => h.1) hb hd h1 hk1 hn (Nat.le_succ _)
  have key : EngClock (FuelTracks θ tol offset (· = fu)) e1 n E e := on_clock hb h1 h fun m E' y hy => by
    obtain ⟨gy, k, -, hat⟩ := fol _ _ _ hy
    exact fun hv => ⟨hat.offset, ⟨_, hat.passed, hat.recent, hat.knows⟩, gy.2 hv⟩
  have := C79_constant_partial hc small hb hr1 hO key (i := i) (by rw [(hst i).1]; exact hi) (by rw [(hst i).2.1]; exact hA) hA1 quiet
    (by rw [(hst i).2.2.1]; exact hp) (fun j hj => only j (by rw [← (hst j).2.2.1]; exact hj)) hin (by rw [(hst i).2.2.2]; exact hdr)
  rw [(hst i).2.2.2] at this
  exact this

/-- C86 on an even wheel without a cam.  As `C86_fires`, where the crank is at 0 at the last of the required teeth. -/
theorem C86_free_fires {d0 : Decoder} {N R W low k1 : ℕ} {v g A V O δ : ℚ} {adv : ℕ → ℚ} {p q dlo dhi late : ℤ} {T : ℕ → ℤ} {θ : ℤ → ℚ} {tol : CrankTol}
    {eb e1 e : Engine} {n1 E1 n E : ℤ} {i : Fin maxEvents}
    (he : FreeWheel d0 N R W low v g p q T) (ho : d0.offset = .fin O) (hO : |O| ≤ 720)
    (turns : CrankTurns θ tol id (R - 1) g T) (hT : Turning θ g p q) (hc : tol.Sane) (s0 : 1 / 2 ^ 18 ≤ tol.speed)
    (room : CycleRoom (tol.error + δ) g p q dlo dhi late eb.cfg.ignition.minFireUs) (hV : |V| + δ ≤ 720) (hadv : ∀ j, |adv j - V| ≤ δ) (hδ : 2 * δ + 1 / 125 < g)
    (hb : EngBoot eb) (hd : eb.cfg.decoder = decoderInit d0)
    (hi : (eb.cfg.events i).type = .ignition) (hA : (eb.cfg.events i).angle = .fin A) (hA1 : |A| ≤ 720)
    {Gd : ℤ → Engine → Prop} (hGd : ∀ n e, Gd n e → Firing T (R - 1) late adv dlo dhi n e) (h1 : EngTimed Honest Gd eb n1 E1 e1) (hk1 : Decoded (k1 + 1) e1)
    (hn : R - 1 < k1)
    (quiet : eventIsUnscheduled (e1.cfg.events i) = true ∨ eventHasFired (e1.cfg.events i) = true)
    (h : EngOn Honest Gd n1 E1 e1 n E e)
    {pin : Fin 16} (hpin : ((eb.cfg.events i).pin.setWidth 8).toNat = pin) {m : ℤ}
    (start : θ (T k1) + 1500 ≤ A - V + O + 720 * m) (over : A - V + O + 720 * m + (tol.error + δ) ≤ θ n) :
    ∃ s t, AtAngle θ (A - V + O) (tol.error + δ) m t ∧ s < t ∧
      g * dlo - 2 * (tol.error + δ) * q ≤ g * (t - s) ∧ g * (t - s) ≤ g * dhi + 2 * (tol.error + δ) * q ∧
      DrivenOn Honest Gd n1 E1 e1 n E e pin (!(eb.cfg.events i).inverted) s ∧
      DrivenOn Honest Gd n1 E1 e1 n E e pin (eb.cfg.events i).inverted t :=
  cycle_fires (pace_shape he.pace turns hc.speed1).1 (free_feed he.pace.wheel.teeth.later) hO turns hT hc room hV hadv hδ hb hi hA hA1 hGd h1 hk1 hn (Nat.le_succ _) (by omega)
    (free_follows he ho turns hc s0 (fun n e h => (hGd n e h).1) hb hd h1 hk1 hn (Nat.le_succ _)) quiet h hpin start over

/-- C86 on an even wheel without a cam.  In the same run, with output `i` alone on its pin, the output fires at most once in a cycle. -/
theorem C86_free_once {d0 : Decoder} {N R W low k1 : ℕ} {v g A V O δ : ℚ} {adv : ℕ → ℚ} {p q dlo dhi late : ℤ} {T : ℕ → ℤ} {θ : ℤ → ℚ} {tol : CrankTol}
    {eb e1 e2 : Engine} {n1 E1 n2 E2 t2 : ℤ} {i : Fin maxEvents}
    (he : FreeWheel d0 N R W low v g p q T) (ho : d0.offset = .fin O) (hO : |O| ≤ 720)
    (turns : CrankTurns θ tol id (R - 1) g T) (hT : Turning θ g p q) (hc : tol.Sane) (s0 : 1 / 2 ^ 18 ≤ tol.speed)
    (room : CycleRoom (tol.error + δ) g p q dlo dhi late eb.cfg.ignition.minFireUs) (hV : |V| + δ ≤ 720) (hadv : ∀ j, |adv j - V| ≤ δ) (hδ : 2 * δ + 1 / 125 < g)
    (hb : EngBoot eb) (hd : eb.cfg.decoder = decoderInit d0)
    (hi : (eb.cfg.events i).type = .ignition) (hA : (eb.cfg.events i).angle = .fin A) (hA1 : |A| ≤ 720)
    {Gd : ℤ → Engine → Prop} (hGd : ∀ n e, Gd n e → Firing T (R - 1) late adv dlo dhi n e) (h1 : EngTimed Honest Gd eb n1 E1 e1) (hk1 : Decoded (k1 + 1) e1)
    (hn : R - 1 < k1)
    (quiet : eventIsUnscheduled (e1.cfg.events i) = true ∨ eventHasFired (e1.cfg.events i) = true)
    {pin : Fin 16} (hpin : ((eb.cfg.events i).pin.setWidth 8).toNat = pin) (only : ∀ j, ((eb.cfg.events j).pin.setWidth 8).toNat = pin → j = i)
    (h2 : EngOn Honest Gd n1 E1 e1 n2 E2 e2)
    {b2 : Bool} (in2 : InBuffer E2 e2 b2 t2) (dr2 : Drives (e2.buf b2) (stamp t2) pin (eb.cfg.events i).inverted) :
    ∃ m, AtAngle θ (A - V + O) (tol.error + δ) m t2 ∧
      ∀ n3 E3 e3 b3 t3, EngOn Honest Gd n2 E2 e2 n3 E3 e3 → InBuffer E3 e3 b3 t3 →
        Drives (e3.buf b3) (stamp t3) pin (eb.cfg.events i).inverted → AtAngle θ (A - V + O) (tol.error + δ) m t3 → t3 = t2 :=
  cycle_once (pace_shape he.pace turns hc.speed1).1 (free_feed he.pace.wheel.teeth.later) hO turns hT hc room hV hadv hδ hb hi hA hA1 hGd h1 hk1 hn (Nat.le_succ _) (by omega)
    (free_follows he ho turns hc s0 (fun n e h => (hGd n e h).1) hb hd h1 hk1 hn (Nat.le_succ _)) quiet hpin only h2 in2 dr2

/-- C92 on an even wheel without a cam.  As `C92_fires`, where the crank is at 0 at the last of the required teeth. -/
theorem C92_free_fires {d0 : Decoder} {N R W low k1 : ℕ} {v g A O ε : ℚ} {p q dlo dhi late : ℤ} {T : ℕ → ℤ} {θ : ℤ → ℚ} {tol : CrankTol}
    {eb e1 e : Engine} {n1 E1 n E : ℤ} {i : Fin maxEvents}
    (he : FreeWheel d0 N R W low v g p q T) (ho : d0.offset = .fin O) (hO : |O| ≤ 720)
    (turns : CrankTurns θ tol id (R - 1) g T) (hT : Turning θ g p q) (hc : tol.Sane) (s0 : 1 / 2 ^ 18 ≤ tol.speed)
    (room : CycleRoom ε g p q dlo dhi late 0) (hε : g * (dhi - dlo) ≤ p * (ε - tol.error))
    (hb : EngBoot eb) (hd : eb.cfg.decoder = decoderInit d0)
    (hi : (eb.cfg.events i).type = .fuel) (hA : (eb.cfg.events i).angle = .fin A) (hA1 : |A| ≤ 720)
    {Gd : ℤ → Engine → Prop} (hGd : ∀ n e, Gd n e → Injecting T (R - 1) late dlo dhi n e) (h1 : EngTimed Honest Gd eb n1 E1 e1) (hk1 : Decoded (k1 + 1) e1)
    (hn : R - 1 < k1)
    (quiet : eventIsUnscheduled (e1.cfg.events i) = true ∨ eventHasFired (e1.cfg.events i) = true)
    (h : EngOn Honest Gd n1 E1 e1 n E e)
    {pin : Fin 16} (hpin : ((eb.cfg.events i).pin.setWidth 8).toNat = pin) {m : ℤ}
    (start : θ (T k1) + 1500 ≤ A + O + 720 * m) (over : A + O + 720 * m + ε ≤ θ n) :
    ∃ s t, AtAngle θ (A + O) ε m t ∧ s < t ∧
      dlo ≤ t - s ∧ t - s ≤ dhi ∧
      DrivenOn Honest Gd n1 E1 e1 n E e pin (!(eb.cfg.events i).inverted) s ∧
      DrivenOn Honest Gd n1 E1 e1 n E e pin (eb.cfg.events i).inverted t :=
  pulse_fires (pace_shape he.pace turns hc.speed1).1 (free_feed he.pace.wheel.teeth.later) hO turns hT hc room hε hb hi hA hA1 hGd h1 hk1 hn (Nat.le_succ _) (by omega)
    (free_follows he ho turns hc s0 (fun n e h => (hGd n e h).1) hb hd h1 hk1 hn (Nat.le_succ _)) quiet h hpin start over

/-- C92 on an even wheel without a cam.  In the same run, with output `i` alone on its pin, the injector closes at most once in a cycle. -/
theorem C92_free_once {d0 : Decoder} {N R W low k1 : ℕ} {v g A O ε : ℚ} {p q dlo dhi late : ℤ} {T : ℕ → ℤ} {θ : ℤ → ℚ} {tol : CrankTol}
    {eb e1 e2 : Engine} {n1 E1 n2 E2 t2 : ℤ} {i : Fin maxEvents}
    (he : FreeWheel d0 N R W low v g p q T) (ho : d0.offset = .fin O) (hO : |O| ≤ 720)
    (turns : CrankTurns θ tol id (R - 1) g T) (hT : Turning θ g p q) (hc : tol.Sane) (s0 : 1 / 2 ^ 18 ≤ tol.speed)
    (room : CycleRoom ε g p q dlo dhi late 0) (hε : g * (dhi - dlo) ≤ p * (ε - tol.error))
    (hb : EngBoot eb) (hd : eb.cfg.decoder = decoderInit d0)
    (hi : (eb.cfg.events i).type = .fuel) (hA : (eb.cfg.events i).angle = .fin A) (hA1 : |A| ≤ 720)
    {Gd : ℤ → Engine → Prop} (hGd : ∀ n e, Gd n e → Injecting T (R - 1) late dlo dhi n e) (h1 : EngTimed Honest Gd eb n1 E1 e1) (hk1 : Decoded (k1 + 1) e1)
    (hn : R - 1 < k1)
    (quiet : eventIsUnscheduled (e1.cfg.events i) = true ∨ eventHasFired (e1.cfg.events i) = true)
    {pin : Fin 16} (hpin : ((eb.cfg.events i).pin.setWidth 8).toNat = pin) (only : ∀ j, ((eb.cfg.events j).pin.setWidth 8).toNat = pin → j = i)
    (h2 : EngOn Honest Gd n1 E1 e1 n2 E2 e2)
    {b2 : Bool} (in2 : InBuffer E2 e2 b2 t2) (dr2 : Drives (e2.buf b2) (stamp t2) pin (eb.cfg.events i).inverted) :
    ∃ m, AtAngle θ (A + O) ε m t2 ∧
      ∀ n3 E3 e3 b3 t3, EngOn Honest Gd n2 E2 e2 n3 E3 e3 → InBuffer E3 e3 b3 t3 →
        Drives (e3.buf b3) (stamp t3) pin (eb.cfg.events i).inverted → AtAngle θ (A + O) ε m t3 → t3 = t2 :=
  pulse_once (pace_shape he.pace turns hc.speed1).1 (free_feed he.pace.wheel.teeth.later) hO turns hT hc room hε hb hi hA hA1 hGd h1 hk1 hn (Nat.le_succ _) (by omega)
    (free_follows he ho turns hc s0 (fun n e h => (hGd n e h).1) hb hd h1 hk1 hn (Nat.le_succ _)) quiet hpin only h2 in2 dr2

/-- C101, coils, on an even wheel without a cam: the firmware and the crank are as in `C86_free_fires`. -/
theorem C101_coil_free {d0 : Decoder} {N R W low k1 : ℕ} {v g A V O δ : ℚ} {adv : ℕ → ℚ} {p q dlo dhi late : ℤ} {T : ℕ → ℤ} {θ : ℤ → ℚ} {tol : CrankTol}
    {eb e1 e2 : Engine} {n1 E1 n2 E2 s2 : ℤ} {i : Fin maxEvents}
    (he : FreeWheel d0 N R W low v g p q T) (ho : d0.offset = .fin O) (hO : |O| ≤ 720)
    (turns : CrankTurns θ tol id (R - 1) g T) (hT : Turning θ g p q) (hc : tol.Sane) (s0 : 1 / 2 ^ 18 ≤ tol.speed)
    (room : CycleRoom (tol.error + δ) g p q dlo dhi late eb.cfg.ignition.minFireUs) (hV : |V| + δ ≤ 720) (hadv : ∀ j, |adv j - V| ≤ δ) (hδ : 2 * δ + 1 / 125 < g)
    (hb : EngBoot eb) (hd : eb.cfg.decoder = decoderInit d0)
    (hi : (eb.cfg.events i).type = .ignition) (hA : (eb.cfg.events i).angle = .fin A) (hA1 : |A| ≤ 720)
    {Gd : ℤ → Engine → Prop} (hGd : ∀ n e, Gd n e → Firing T (R - 1) late adv dlo dhi n e) (h1 : EngTimed Honest Gd eb n1 E1 e1) (hk1 : Decoded (k1 + 1) e1)
    (hn : R - 1 < k1)
    (quiet : eventIsUnscheduled (e1.cfg.events i) = true ∨ eventHasFired (e1.cfg.events i) = true)
    {pin : Fin 16} (hpin : ((eb.cfg.events i).pin.setWidth 8).toNat = pin) (only : ∀ j, ((eb.cfg.events j).pin.setWidth 8).toNat = pin → j = i)
    (h2 : EngOn Honest Gd n1 E1 e1 n2 E2 e2)
    {b2 : Bool} (in2 : InBuffer E2 e2 b2 s2) (dr2 : Drives (e2.buf b2) (stamp s2) pin (!(eb.cfg.events i).inverted)) :
    ∃ m, (∃ P, AtAngle θ (A - V + O) (tol.error + δ) m P ∧ dlo ≤ P - s2 ∧ P - s2 ≤ dhi) ∧
      ∀ n3 E3 e3, EngOn Honest Gd n2 E2 e2 n3 E3 e3 →
        (∀ b3 s3, InBuffer E3 e3 b3 s3 → Drives (e3.buf b3) (stamp s3) pin (!(eb.cfg.events i).inverted) →
          s3 = s2 ∨ ∃ m' > m, ∃ P, AtAngle θ (A - V + O) (tol.error + δ) m' P ∧ dlo ≤ P - s3 ∧ P - s3 ≤ dhi) ∧
        (g * dhi + 2 * (tol.error + δ) * q ≤ g * (n3 - s2) →
          ∃ t, AtAngle θ (A - V + O) (tol.error + δ) m t ∧ s2 < t ∧
            g * dlo - 2 * (tol.error + δ) * q ≤ g * (t - s2) ∧ g * (t - s2) ≤ g * dhi + 2 * (tol.error + δ) * q ∧
            DrivenOn Honest Gd n2 E2 e2 n3 E3 e3 pin (eb.cfg.events i).inverted t) :=
  coil_held (pace_shape he.pace turns hc.speed1).1 (free_feed he.pace.wheel.teeth.later) hO turns hT hc room hV hadv hδ hb hi hA hA1 hGd h1 hk1 hn (Nat.le_succ _) (by omega)
    (free_follows he ho turns hc s0 (fun n e h => (hGd n e h).1) hb hd h1 hk1 hn (Nat.le_succ _)) quiet hpin only h2 in2 dr2

/-- C101, injectors, on an even wheel without a cam: the firmware and the crank are as in `C92_free_fires`. -/
theorem C101_injector_free {d0 : Decoder} {N R W low k1 : ℕ} {v g A O ε : ℚ} {p q dlo dhi late : ℤ} {T : ℕ → ℤ} {θ : ℤ → ℚ} {tol : CrankTol}
    {eb e1 e2 : Engine} {n1 E1 n2 E2 s2 : ℤ} {i : Fin maxEvents}
    (he : FreeWheel d0 N R W low v g p q T) (ho : d0.offset = .fin O) (hO : |O| ≤ 720)
    (turns : CrankTurns θ tol id (R - 1) g T) (hT : Turning θ g p q) (hc : tol.Sane) (s0 : 1 / 2 ^ 18 ≤ tol.speed)
    (room : CycleRoom ε g p q dlo dhi late 0) (hε : g * (dhi - dlo) ≤ p * (ε - tol.error))
    (hb : EngBoot eb) (hd : eb.cfg.decoder = decoderInit d0)
    (hi : (eb.cfg.events i).type = .fuel) (hA : (eb.cfg.events i).angle = .fin A) (hA1 : |A| ≤ 720)
    {Gd : ℤ → Engine → Prop} (hGd : ∀ n e, Gd n e → Injecting T (R - 1) late dlo dhi n e) (h1 : EngTimed Honest Gd eb n1 E1 e1) (hk1 : Decoded (k1 + 1) e1)
    (hn : R - 1 < k1)
    (quiet : eventIsUnscheduled (e1.cfg.events i) = true ∨ eventHasFired (e1.cfg.events i) = true)
    {pin : Fin 16} (hpin : ((eb.cfg.events i).pin.setWidth 8).toNat = pin) (only : ∀ j, ((eb.cfg.events j).pin.setWidth 8).toNat = pin → j = i)
    (h2 : EngOn Honest Gd n1 E1 e1 n2 E2 e2)
    {b2 : Bool} (in2 : InBuffer E2 e2 b2 s2) (dr2 : Drives (e2.buf b2) (stamp s2) pin (!(eb.cfg.events i).inverted)) :
    ∃ m, (∃ P, AtAngle θ (A + O) tol.error m P ∧ dlo ≤ P - s2 ∧ P - s2 ≤ dhi) ∧
      ∀ n3 E3 e3, EngOn Honest Gd n2 E2 e2 n3 E3 e3 →
        (∀ b3 s3, InBuffer E3 e3 b3 s3 → Drives (e3.buf b3) (stamp s3) pin (!(eb.cfg.events i).inverted) →
          s3 = s2 ∨ ∃ m' > m, ∃ P, AtAngle θ (A + O) tol.error m' P ∧ dlo ≤ P - s3 ∧ P - s3 ≤ dhi) ∧
        (s2 + dhi ≤ n3 →
          ∃ t, AtAngle θ (A + O) ε m t ∧ s2 < t ∧ dlo ≤ t - s2 ∧ t - s2 ≤ dhi ∧
            DrivenOn Honest Gd n2 E2 e2 n3 E3 e3 pin (eb.cfg.events i).inverted t) :=
  squirt_held (pace_shape he.pace turns hc.speed1).1 (free_feed he.pace.wheel.teeth.later) hO turns hT hc room hε hb hi hA hA1 hGd h1 hk1 hn (Nat.le_succ _) (by omega)
    (free_follows he ho turns hc s0 (fun n e h => (hGd n e h).1) hb hd h1 hk1 hn (Nat.le_succ _)) quiet hpin only h2 in2 dr2

end Verif
