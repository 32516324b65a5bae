/-
C66, C76, C79, C86 and C92 for the whole firmware on a wheel with a cam.
-/
import Verif.Proofs.CamPlan
import Verif.Proofs.CycleCore
import Verif.Proofs.PulsesCore

namespace Verif

variable [FloatFmt]

/-- C66 for the whole firmware, crank wheel and cam (partial: a band of speeds narrower than the tolerance).  The firmware has
started, the teeth of the wheel and the cam pulses reach it as captures, in order and within 64 microseconds, no capture is
lost, and the timer interrupt comes whenever it likes; outputs, sensors, buffers and the client may do anything.  Then from
the first tooth after the cam pulse of the first whole cycle on, the decoder is valid in every state, at the true angle of the
engine cycle. -/
theorem C66_engine_cam_partial {d0 : Decoder} {N s R k n0 : ℕ} {v g : ℚ} {p q : ℤ} {T P : ℕ → ℤ} {G : ℤ → Engine → Prop} {e0 e : Engine} {n E : ℤ}
    (hu : RunSetup d0 N s R v g p q T) (hw : CamWheel d0 N s R k n0 T P)
    (hG : ∀ n e, G n e → EventsGiven (camEvent (pulseAfter N s k) T P) n e) (hb : EngBoot e0) (hd : e0.cfg.decoder = decoderInit d0)
    (h : EngTimed Honest G e0 n E e) {j : ℕ} (hj : Decoded (j + 1) e) (hn : n0 + k < (camSlot (pulseAfter N s k) j).tooth) :
    e.cfg.decoder.valid = true ∧ e.cfg.decoder.lastTriggerTime = stamp (T (camSlot (pulseAfter N s k) j).tooth) ∧
      e.cfg.decoder.lastTriggerAngle = .fin (g * ((wheelPos N s (camSlot (pulseAfter N s k) j).tooth % (2 * N) : ℕ) : ℚ)) := by
  obtain ⟨x, hp, hx, -⟩ := cam_plan hu hw.type hw.unseen hw.place hw.between hw.start
  obtain ⟨-, i, hi⟩ := timed_decoded hp (G := G) hG hb hd h
  obtain rfl := hj.unique hi.count
  obtain ⟨a, b, hdec⟩ := hi.decoder
  obtain ⟨r, -⟩ := hx j hn
  have hN : 2 ≤ N := by have := hw.place; omega
  have := cycle_angle (g := g) hN hw.start (by omega : n0 ≤ (camSlot (pulseAfter N s k) j).tooth)
  unfold trueAngle at this
  rw [hdec, this]
  exact ⟨r.valid, r.time, r.angle⟩

/-- C76 for the whole firmware on a real wheel with a cam.  The firmware has started; the teeth and the cam pulses reach it as
captures, in order and within 64 microseconds, no capture is lost, and the timing advance is one of `Adv`; anything else may
happen at any time.  From any state `e1` after the first tooth that follows the cam pulse of the first whole cycle, in which the
output has nothing pending: at every spark the crank is at the commanded angle. -/
theorem C76_cam_wheel_partial {d0 : Decoder} {N s R k n0 j1 : ℕ} {v g offset : ℚ} {p q : ℤ} {T P : ℕ → ℤ} {θ : ℤ → ℚ} {c : CrankTol}
    {Adv : ℚ → Prop} {e0 e1 e : Engine} {n1 E1 n E t : ℤ}
    (hu : RunSetup d0 N s R v g p q T) (hw : CamWheel d0 N s R k n0 T P) (ho : d0.offset = .fin offset)
    (turns : CrankTurns θ c (wheelPos N s) n0 g T) (hc : c.Sane) (s0 : 1 / 2 ^ 18 ≤ c.speed)
    (hb : EngBoot e0) (hd : e0.cfg.decoder = decoderInit d0) (ha : CycleAngles e0 offset Adv)
    (h1 : EngTimed Honest (OnEvents (camEvent (pulseAfter N s k) T P) Adv) e0 n1 E1 e1) (hj : Decoded (j1 + 1) e1) (hn : n0 + k < (camSlot (pulseAfter N s k) j1).tooth)
    (h : EngOn Honest (OnEvents (camEvent (pulseAfter N s k) T P) Adv) n1 E1 e1 n E e) {i : Fin maxEvents} {A : ℚ}
    (hi : (e0.cfg.events i).type = .ignition) (hA : (e0.cfg.events i).angle = .fin A) (quiet : ¬ Live (e1.cfg.events i).stop.state)
    {pin : Fin 16} (only : ∀ j, ((e0.cfg.events j).pin.setWidth 8).toNat = pin → j = i) {b : Bool} (hin : InBuffer E e b t)
    (hdr : Drives (e.buf b) (stamp t) pin (e0.cfg.events i).inverted) :
    ∃ adv, Adv adv ∧ Near (θ t) (A - adv + offset) c.error := by
  have hc1 := timed_clock h1
  obtain ⟨hr1, -, -⟩ := clock_reach hb .boot hc1
  have hst := clock_static hc1
  have fol := cam_follows hu hw.type hw.unseen hw.place hw.between hw.start ho turns hc s0 (fun n e h => h.1) hb hd h1 hj hn
  have key : EngClock (Tracks θ c offset Adv) e1 n E e := on_clock hb h1 h fun m E' y hy => by
    obtain ⟨gy, k, -, hat⟩ := fol _ _ _ hy
    exact fun _ => ⟨hat.offset, ⟨_, hat.passed, hat.recent, hat.knows⟩, gy.2⟩
  have ha1 : CycleAngles e1 offset Adv := ⟨fun i hi => by
    rw [(hst i).2.1]
    exact ha.events i (by rw [← (hst i).1]; exact hi), ha.offset, ha.advance⟩
  exact C76_spark_partial hc hb hr1 ha1 key (i := i) (by rw [(hst i).1]; exact hi) (by rw [(hst i).2.1]; exact hA) quiet
    (fun j hj => only j (by rw [← (hst j).2.2.1]; exact hj)) hin.1 hin.2 (by rw [(hst i).2.2.2]; exact hdr)

/-- C79 for the whole firmware on a real wheel with a cam, with a constant command: from any state `e1` after the first tooth that
follows the cam pulse of the first whole cycle, in which the injector has nothing pending, every injection ends at the commanded
angle, and began the commanded time before. -/
theorem C79_cam_wheel_partial {d0 : Decoder} {N s R k n0 j1 : ℕ} {v g offset : ℚ} {p q : ℤ} {T P : ℕ → ℤ} {θ : ℤ → ℚ} {c : CrankTol}
    {fu : BitVec 32} {e0 e1 e : Engine} {n1 E1 n E t : ℤ}
    (hu : RunSetup d0 N s R v g p q T) (hw : CamWheel d0 N s R k n0 T P) (ho : d0.offset = .fin offset)
    (hO : |offset| ≤ 720) (turns : CrankTurns θ c (wheelPos N s) n0 g T) (hc : c.Sane) (s0 : 1 / 2 ^ 18 ≤ c.speed) (small : fu.toNat < 2 ^ 28)
    (hb : EngBoot e0) (hd : e0.cfg.decoder = decoderInit d0)
    (h1 : EngTimed Honest (FuelOnEvents (camEvent (pulseAfter N s k) T P) fu) e0 n1 E1 e1) (hj : Decoded (j1 + 1) e1)
    (hn : n0 + k < (camSlot (pulseAfter N s k) j1).tooth)
    (h : EngOn Honest (FuelOnEvents (camEvent (pulseAfter N s k) T P) fu) n1 E1 e1 n E e) {i : Fin maxEvents} {A : ℚ}
    (hi : (e0.cfg.events i).type = .fuel) (hA : (e0.cfg.events i).angle = .fin A) (hA1 : |A| ≤ 720)
    (quiet : eventIsUnscheduled (e1.cfg.events i) = true ∨ eventHasFired (e1.cfg.events i) = true)
    {pin : Fin 16} (hp : ((e0.cfg.events i).pin.setWidth 8).toNat = pin)
    (only : ∀ j, ((e0.cfg.events j).pin.setWidth 8).toNat = pin → j = i) {b : Bool} (hin : InBuffer E e b t)
    (hdr : Drives (e.buf b) (stamp t) pin (e0.cfg.events i).inverted) :
    Near (θ t) (A + offset) c.error ∧
      DrivenBy (FuelTracks θ c offset (· = fu)) e1 n E e pin (!(e0.cfg.events i).inverted) (t - 4 * fu.toNat) := by
  have hc1 := timed_clock h1
  obtain ⟨hr1, -, -⟩ := clock_reach hb .boot hc1
  have hst := clock_static hc1
  have fol := cam_follows hu hw.type hw.unseen hw.place hw.between hw.start ho turns hc s0 (fun n e h => h.1) hb hd h1 hj hn
  have key : EngClock (FuelTracks θ c offset (· = fu)) e1 n E e := on_clock hb h1 h fun m E' y hy => by
    obtain ⟨gy, k, -, hat⟩ := fol _ _ _ hy
    exact fun hv => ⟨hat.offset, ⟨_, hat.passed, hat.recent, hat.knows⟩, gy.2 hv⟩
  have := C79_constant_partial hc small hb hr1 hO key (i := i) (by rw [(hst i).1]; exact hi) (by rw [(hst i).2.1]; exact hA) hA1 quiet
    (by rw [(hst i).2.2.1]; exact hp) (fun j hj => only j (by rw [← (hst j).2.2.1]; exact hj)) hin (by rw [(hst i).2.2.2]; exact hdr)
  rw [(hst i).2.2.2] at this
  exact this

/-- C86 on a wheel with a cam.  As `C86_fires`, but the triggers are the teeth and the cam pulses, and the conditions hold from trigger `j1`
on, which belongs to a tooth after the cam pulse of the first whole cycle and is the last one decoded at `e1`.  The
advance may change at every tooth, but at a cam pulse it is the one of the tooth before it. -/
theorem C86_cam_fires {d0 : Decoder} {N sh R k n0 j1 : ℕ} {v g A V O δ : ℚ} {adv : ℕ → ℚ} {p q dlo dhi late : ℤ} {T P : ℕ → ℤ} {θ : ℤ → ℚ} {c : CrankTol}
    {eb e1 e : Engine} {n1 E1 n E : ℤ} {i : Fin maxEvents}
    (hu : RunSetup d0 N sh R v g p q T) (hw : CamWheel d0 N sh R k n0 T P) (ho : d0.offset = .fin O) (hO : |O| ≤ 720)
    (turns : CrankTurns θ c (wheelPos N sh) n0 g T) (hT : Turning θ g p q) (hc : c.Sane) (s0 : 1 / 2 ^ 18 ≤ c.speed)
    (room : CycleRoom (c.error + δ) g p q dlo dhi late eb.cfg.ignition.minFireUs) (hV : |V| + δ ≤ 720) (hadv : ∀ j, |adv j - V| ≤ δ) (hδ : 2 * δ + 1 / 125 < g)
    (hb : EngBoot eb) (hd : eb.cfg.decoder = decoderInit d0)
    (hi : (eb.cfg.events i).type = .ignition) (hA : (eb.cfg.events i).angle = .fin A) (hA1 : |A| ≤ 720)
    {Gd : ℤ → Engine → Prop} (hGd : ∀ n e, Gd n e → FiringOn (camEvent (pulseAfter N sh k) T P) (j1 + 1) late (fun a => adv (camSlot (pulseAfter N sh k) a).tooth) dlo dhi n e) (h1 : EngTimed Honest Gd eb n1 E1 e1) (hj : Decoded (j1 + 1) e1)
    (hn : n0 + k < (camSlot (pulseAfter N sh k) j1).tooth)
    (quiet : eventIsUnscheduled (e1.cfg.events i) = true ∨ eventHasFired (e1.cfg.events i) = true)
    (h : EngOn Honest Gd n1 E1 e1 n E e)
    {pin : Fin 16} (hpin : ((eb.cfg.events i).pin.setWidth 8).toNat = pin) {m : ℤ}
    (start : θ (T (camSlot (pulseAfter N sh k) j1).tooth) + 1500 ≤ A - V + O + 720 * m) (over : A - V + O + 720 * m + (c.error + δ) ≤ θ n) :
    ∃ s t, AtAngle θ (A - V + O) (c.error + δ) m t ∧ s < t ∧
      g * dlo - 2 * (c.error + δ) * q ≤ g * (t - s) ∧ g * (t - s) ≤ g * dhi + 2 * (c.error + δ) * q ∧
      DrivenOn Honest Gd n1 E1 e1 n E e pin (!(eb.cfg.events i).inverted) s ∧
      DrivenOn Honest Gd n1 E1 e1 n E e pin (eb.cfg.events i).inverted t :=
  cycle_fires (k0 := j1 + 1) (missing_shape hu turns hc.speed1) (cam_feed hu.turn.wheel.teeth.later hw.between) hO turns hT hc room hV hadv hδ hb hi hA hA1 hGd h1 hj (by omega) (Nat.le_succ _) (le_refl _)
    (cam_follows hu hw.type hw.unseen hw.place hw.between hw.start ho turns hc s0 (fun n e h => (hGd n e h).1) hb hd h1 hj hn) quiet h hpin start over

/-- C86 on a wheel with a cam.  In the same run, with output `i` alone on its pin, the output fires at most once in a cycle. -/
theorem C86_cam_once {d0 : Decoder} {N sh R k n0 j1 : ℕ} {v g A V O δ : ℚ} {adv : ℕ → ℚ} {p q dlo dhi late : ℤ} {T P : ℕ → ℤ} {θ : ℤ → ℚ} {c : CrankTol}
    {eb e1 e2 : Engine} {n1 E1 n2 E2 t2 : ℤ} {i : Fin maxEvents}
    (hu : RunSetup d0 N sh R v g p q T) (hw : CamWheel d0 N sh R k n0 T P) (ho : d0.offset = .fin O) (hO : |O| ≤ 720)
    (turns : CrankTurns θ c (wheelPos N sh) n0 g T) (hT : Turning θ g p q) (hc : c.Sane) (s0 : 1 / 2 ^ 18 ≤ c.speed)
    (room : CycleRoom (c.error + δ) g p q dlo dhi late eb.cfg.ignition.minFireUs) (hV : |V| + δ ≤ 720) (hadv : ∀ j, |adv j - V| ≤ δ) (hδ : 2 * δ + 1 / 125 < g)
    (hb : EngBoot eb) (hd : eb.cfg.decoder = decoderInit d0)
    (hi : (eb.cfg.events i).type = .ignition) (hA : (eb.cfg.events i).angle = .fin A) (hA1 : |A| ≤ 720)
    {Gd : ℤ → Engine → Prop} (hGd : ∀ n e, Gd n e → FiringOn (camEvent (pulseAfter N sh k) T P) (j1 + 1) late (fun a => adv (camSlot (pulseAfter N sh k) a).tooth) dlo dhi n e) (h1 : EngTimed Honest Gd eb n1 E1 e1) (hj : Decoded (j1 + 1) e1)
    (hn : n0 + k < (camSlot (pulseAfter N sh k) j1).tooth)
    (quiet : eventIsUnscheduled (e1.cfg.events i) = true ∨ eventHasFired (e1.cfg.events i) = true)
    {pin : Fin 16} (hpin : ((eb.cfg.events i).pin.setWidth 8).toNat = pin) (only : ∀ j, ((eb.cfg.events j).pin.setWidth 8).toNat = pin → j = i)
    (h2 : EngOn Honest Gd n1 E1 e1 n2 E2 e2)
    {b2 : Bool} (in2 : InBuffer E2 e2 b2 t2) (dr2 : Drives (e2.buf b2) (stamp t2) pin (eb.cfg.events i).inverted) :
    ∃ m, AtAngle θ (A - V + O) (c.error + δ) m t2 ∧
      ∀ n3 E3 e3 b3 t3, EngOn Honest Gd n2 E2 e2 n3 E3 e3 → InBuffer E3 e3 b3 t3 →
        Drives (e3.buf b3) (stamp t3) pin (eb.cfg.events i).inverted → AtAngle θ (A - V + O) (c.error + δ) m t3 → t3 = t2 :=
  cycle_once (k0 := j1 + 1) (missing_shape hu turns hc.speed1) (cam_feed hu.turn.wheel.teeth.later hw.between) hO turns hT hc room hV hadv hδ hb hi hA hA1 hGd h1 hj (by omega) (Nat.le_succ _) (le_refl _)
    (cam_follows hu hw.type hw.unseen hw.place hw.between hw.start ho turns hc s0 (fun n e h => (hGd n e h).1) hb hd h1 hj hn) quiet hpin only h2 in2 dr2

/-- C92 on a wheel with a cam.  As `C92_fires`, but the triggers are the teeth and the cam pulses, and the conditions hold from trigger `j1`
on, which belongs to a tooth after the cam pulse of the first whole cycle and is the last one decoded at `e1`. -/
theorem C92_cam_fires {d0 : Decoder} {N sh R k n0 j1 : ℕ} {v g A O ε : ℚ} {p q dlo dhi late : ℤ} {T P : ℕ → ℤ} {θ : ℤ → ℚ} {c : CrankTol}
    {eb e1 e : Engine} {n1 E1 n E : ℤ} {i : Fin maxEvents}
    (hu : RunSetup d0 N sh R v g p q T) (hw : CamWheel d0 N sh R k n0 T P) (ho : d0.offset = .fin O) (hO : |O| ≤ 720)
    (turns : CrankTurns θ c (wheelPos N sh) n0 g T) (hT : Turning θ g p q) (hc : c.Sane) (s0 : 1 / 2 ^ 18 ≤ c.speed)
    (room : CycleRoom ε g p q dlo dhi late 0) (hε : g * (dhi - dlo) ≤ p * (ε - c.error))
    (hb : EngBoot eb) (hd : eb.cfg.decoder = decoderInit d0)
    (hi : (eb.cfg.events i).type = .fuel) (hA : (eb.cfg.events i).angle = .fin A) (hA1 : |A| ≤ 720)
    {Gd : ℤ → Engine → Prop} (hGd : ∀ n e, Gd n e → InjectingOn (camEvent (pulseAfter N sh k) T P) (j1 + 1) late dlo dhi n e) (h1 : EngTimed Honest Gd eb n1 E1 e1) (hj : Decoded (j1 + 1) e1)
    (hn : n0 + k < (camSlot (pulseAfter N sh k) j1).tooth)
    (quiet : eventIsUnscheduled (e1.cfg.events i) = true ∨ eventHasFired (e1.cfg.events i) = true)
    (h : EngOn Honest Gd n1 E1 e1 n E e)
    {pin : Fin 16} (hpin : ((eb.cfg.events i).pin.setWidth 8).toNat = pin) {m : ℤ}
    (start : θ (T (camSlot (pulseAfter N sh k) j1).tooth) + 1500 ≤ A + O + 720 * m) (over : A + O + 720 * m + ε ≤ θ n) :
    ∃ s t, AtAngle θ (A + O) ε m t ∧ s < t ∧
      dlo ≤ t - s ∧ t - s ≤ dhi ∧
      DrivenOn Honest Gd n1 E1 e1 n E e pin (!(eb.cfg.events i).inverted) s ∧
      DrivenOn Honest Gd n1 E1 e1 n E e pin (eb.cfg.events i).inverted t :=
  pulse_fires (k0 := j1 + 1) (missing_shape hu turns hc.speed1) (cam_feed hu.turn.wheel.teeth.later hw.between) hO turns hT hc room hε hb hi hA hA1 hGd h1 hj (by omega) (Nat.le_succ _) (le_refl _)
    (cam_follows hu hw.type hw.unseen hw.place hw.between hw.start ho turns hc s0 (fun n e h => (hGd n e h).1) hb hd h1 hj hn) quiet h hpin start over

/-- C92 on a wheel with a cam.  In the same run, with injector `i` alone on its pin, it closes at most once in a cycle. -/
theorem C92_cam_once {d0 : Decoder} {N sh R k n0 j1 : ℕ} {v g A O ε : ℚ} {p q dlo dhi late : ℤ} {T P : ℕ → ℤ} {θ : ℤ → ℚ} {c : CrankTol}
    {eb e1 e2 : Engine} {n1 E1 n2 E2 t2 : ℤ} {i : Fin maxEvents}
    (hu : RunSetup d0 N sh R v g p q T) (hw : CamWheel d0 N sh R k n0 T P) (ho : d0.offset = .fin O) (hO : |O| ≤ 720)
    (turns : CrankTurns θ c (wheelPos N sh) n0 g T) (hT : Turning θ g p q) (hc : c.Sane) (s0 : 1 / 2 ^ 18 ≤ c.speed)
    (room : CycleRoom ε g p q dlo dhi late 0) (hε : g * (dhi - dlo) ≤ p * (ε - c.error))
    (hb : EngBoot eb) (hd : eb.cfg.decoder = decoderInit d0)
    (hi : (eb.cfg.events i).type = .fuel) (hA : (eb.cfg.events i).angle = .fin A) (hA1 : |A| ≤ 720)
    {Gd : ℤ → Engine → Prop} (hGd : ∀ n e, Gd n e → InjectingOn (camEvent (pulseAfter N sh k) T P) (j1 + 1) late dlo dhi n e) (h1 : EngTimed Honest Gd eb n1 E1 e1) (hj : Decoded (j1 + 1) e1)
    (hn : n0 + k < (camSlot (pulseAfter N sh k) j1).tooth)
    (quiet : eventIsUnscheduled (e1.cfg.events i) = true ∨ eventHasFired (e1.cfg.events i) = true)
    {pin : Fin 16} (hpin : ((eb.cfg.events i).pin.setWidth 8).toNat = pin) (only : ∀ j, ((eb.cfg.events j).pin.setWidth 8).toNat = pin → j = i)
    (h2 : EngOn Honest Gd n1 E1 e1 n2 E2 e2)
    {b2 : Bool} (in2 : InBuffer E2 e2 b2 t2) (dr2 : Drives (e2.buf b2) (stamp t2) pin (eb.cfg.events i).inverted) :
    ∃ m, AtAngle θ (A + O) ε m t2 ∧
      ∀ n3 E3 e3 b3 t3, EngOn Honest Gd n2 E2 e2 n3 E3 e3 → InBuffer E3 e3 b3 t3 →
        Drives (e3.buf b3) (stamp t3) pin (eb.cfg.events i).inverted → AtAngle θ (A + O) ε m t3 → t3 = t2 :=
  pulse_once (k0 := j1 + 1) (missing_shape hu turns hc.speed1) (cam_feed hu.turn.wheel.teeth.later hw.between) hO turns hT hc room hε hb hi hA hA1 hGd h1 hj (by omega) (Nat.le_succ _) (le_refl _)
    (cam_follows hu hw.type hw.unseen hw.place hw.between hw.start ho turns hc s0 (fun n e h => (hGd n e h).1) hb hd h1 hj hn) quiet hpin only h2 in2 dr2

end Verif
