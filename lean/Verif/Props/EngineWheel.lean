/-
C66, C76 and C79 for the whole firmware on a real wheel.
-/
import Verif.Proofs.EngDecode
import Verif.Props.Turn
import Verif.Props.SparkWheel
import Verif.Props.Injection

namespace Verif

variable [FloatFmt]
open FloatFmt

omit [FloatFmt] in
theorem DecodedTo.count {ev : ℕ → Int × ℤ} {x : ℕ → Decoder × Option Time} {j : ℕ} {e : Engine} (h : DecodedTo ev x j e) : Decoded j e :=
  ⟨fun i t hi => (h.recording i t hi).1, h.idle⟩

omit [FloatFmt] in
theorem Decoded.unique {j k : ℕ} {e : Engine} (h : Decoded j e) (h' : Decoded k e) : j = k := by
  by_cases hr : ∃ i t, e.pc = .record i t
  · obtain ⟨i, t, hr⟩ := hr
    have h1 := h.1 i t hr
    have h2 := h'.1 i t hr
    omega
  · have h1 := h.2 (fun i t hi => hr ⟨i, t, hi⟩)
    have h2 := h'.2 (fun i t hi => hr ⟨i, t, hi⟩)
    omega

omit [FloatFmt] in
theorem Decoded.given {k : ℕ} {e : Engine} (h : Decoded k e) : k ≤ e.given.length ∧ e.given.length ≤ k + 1 := by
  by_cases hr : ∃ i t, e.pc = .record i t
  · obtain ⟨i, t, hr⟩ := hr
    have h1 := h.1 i t hr
    omega
  · have h1 := h.2 (fun i t hi => hr ⟨i, t, hi⟩)
    omega

/-- The wheel turns within a band of speeds, and the expiry callback, which waits at least as long as the slowest pitch in
the band, leaves time to handle the next tooth. -/
structure RunSetup (d0 : Decoder) (N s R : ℕ) (v g : ℚ) (p q : ℤ) (T : ℕ → ℤ) : Prop where
  turn : TurnSetup d0 N s R v g p q T
  room : ∀ n, T (n + 1) - T n + 256 ≤ q * ((wheelPos N s (n + 1) : ℤ) - wheelPos N s n)

/-- The teeth of a wheel and the decoder fed with them. -/
theorem crank_plan {d0 : Decoder} {N s R n0 : ℕ} {v g : ℚ} {p q : ℤ} {T : ℕ → ℤ} (hu : RunSetup d0 N s R v g p q T)
    (ht : d0.type = .missingNosync) (hg : FirstGap N s R n0) :
    ∃ x, DecPlan d0 (fun j => (0, T j)) x ∧ ∀ n, feedTeeth d0 T n = .ok (x n).1 := by
  have hex : ∀ n, ∃ y, teethTurn d0 T n = .ok y ∧ feedTeeth d0 T n = .ok y.1 ∧
      ∀ m, n = m + 1 → TurnInv N s q y.1 y.2 T g p m := by
    intro n
    cases n with
    | zero => exact ⟨_, rfl, rfl, fun m h => by omega⟩
    | succ n =>
        obtain ⟨d, ex, h1, h2, h3⟩ := teeth_turn_key hu.turn ht hg n
        exact ⟨(d, ex), h1, h2, fun m hm => by cases hm; exact h3⟩
  choose x hx1 hx2 hx3 using hex
  refine ⟨x, ⟨?_, fun j => ?_, fun j t h => ?_⟩, hx2⟩
  · exact (Except.ok.inj (hx1 0)).symm
  · have h1 := hx1 (j + 1)
    rw [teethTurn, hx1 j, except_bind_ok] at h1
    unfold turnTrigger at h1
    have hw : expireBy (x j) (stamp (T j)) = x j := by
      cases j with
      | zero =>
          have : x 0 = (decoderInit d0, none) := (Except.ok.inj (hx1 0)).symm
          rw [this]; rfl
      | succ m => exact pending_waits (d := (x (m + 1)).1) (ex := (x (m + 1)).2) (hx3 (m + 1) m rfl).pending (hu.turn.wheel.teeth.later m) le_rfl
    rw [hw, bind_eq_ok] at h1
    obtain ⟨o, ho, h1⟩ := h1
    exact ⟨o, ho, (Except.ok.inj h1).symm⟩
  · obtain ⟨E, h1, h2, h3, h4⟩ := (hx3 (j + 1) j rfl).pending t h
    have := hu.room j
    exact ⟨E, h1, by show T (j + 1) + 256 ≤ E; linarith, h3⟩

/-- C66 for the whole firmware (partial: crank wheel only, and a band of speeds narrower than the tolerance; the wheel
with a cam is in `C66_engine_cam_partial`).  The firmware
has started, the teeth of the wheel reach it as captures, in order and within 64 microseconds, no capture is lost, and the
timer interrupt comes whenever it likes; outputs, sensors, buffers and the client may do anything.  Then from the first gap
with a full history on, the decoder is valid in every state, at the true angle. -/
theorem C66_engine_partial {d0 : Decoder} {N s R n0 : ℕ} {v g : ℚ} {p q : ℤ} {T : ℕ → ℤ} {G : ℤ → Engine → Prop} {e0 e : Engine} {n E : ℤ}
    (hu : RunSetup d0 N s R v g p q T) (ht : d0.type = .missingNosync) (hg : FirstGap N s R n0)
    (hG : ∀ n e, G n e → TeethGiven T n e) (hb : EngBoot e0) (hd : e0.cfg.decoder = decoderInit d0)
    (h : EngTimed Honest G e0 n E e) {j : ℕ} (hj : Decoded (j + 1) e) (hn : n0 ≤ j) :
    e.cfg.decoder.valid = true ∧
      e.cfg.decoder.lastTriggerAngle = .fin (g * (((wheelPos N s j - wheelPos N s n0) % (2 * N) : ℕ) : ℚ)) := by
  obtain ⟨x, hp, hx⟩ := crank_plan hu ht hg
  obtain ⟨-, k, hk⟩ := timed_decoded hp (G := G) (fun n e h => hG n e h) hb hd h
  obtain rfl := hj.unique hk.count
  obtain ⟨a, b, hdec⟩ := hk.decoder
  obtain ⟨-, h3⟩ := C40_tracked_partial hu.turn.wheel ht hg (hx (j + 1))
  obtain ⟨k1, -, k3, -⟩ := h3 hn
  rw [hdec]
  exact ⟨k1, k3⟩

omit [FloatFmt] in
theorem knows_recount {θ : ℤ → ℚ} {c : CrankTol} {T : ℤ} {d : Decoder} (h : KnowsCrank θ c T d) (a b : BitVec 32) :
    KnowsCrank θ c T (d.recount a b) := ⟨h.time, h.angle, h.speed⟩

omit [FloatFmt] in
/-- The teeth are in order. -/
theorem steady_mono {N s R : ℕ} {v : ℚ} {T : ℕ → ℤ} (h : SteadyTeeth N s R v T) {i j : ℕ} (hij : i ≤ j) : T i ≤ T j := by
  induction j, hij using Nat.le_induction with
  | base => exact le_refl _
  | succ m _ ih => have := h.later m; omega

/-- What the decoder of the whole firmware knows after any tooth later than the one that synchronises it. -/
theorem engine_knows {d0 : Decoder} {N s R n0 : ℕ} {v g : ℚ} {p q : ℤ} {T : ℕ → ℤ} {θ : ℤ → ℚ} {c : CrankTol}
    {x : ℕ → Decoder × Option Time} {e : Engine} {n : ℤ} {j : ℕ}
    (hu : RunSetup d0 N s R v g p q T) (ht : d0.type = .missingNosync) (hg : FirstGap N s R n0) (hc : CrankTurns θ c (wheelPos N s) n0 g T)
    (s0 : 1 / 2 ^ 18 ≤ c.speed) (s1 : c.speed ≤ 1 / 10) (hx : ∀ n, feedTeeth d0 T n = .ok (x n).1)
    (hj : DecodedTo (fun j => (0, T j)) x (j + 1) e) (hn : n0 < j) (ge : TeethGiven T n e) :
    e.cfg.decoder.offset = d0.offset ∧ ∃ T, T ≤ n ∧ n - T ≤ 2 ^ 24 ∧ KnowsCrank θ c T e.cfg.decoder := by
  obtain ⟨a, b, hdec⟩ := hj.decoder
  obtain ⟨k, k1, k2, k3⟩ := ge
  have hk : e.given.length = k := by rw [k1]; simp
  have hgl := hj.count.given
  rw [hk] at hgl
  rw [hdec]
  obtain ⟨w, w0, w1, even, last⟩ := hc.speed j hn
  refine ⟨?_, T j, k2 j (by omega), ?_, knows_recount ?_ a b⟩
  · obtain ⟨hcfg, -⟩ := wheel_key hu.turn.wheel ht hg (hx (j + 1))
    exact congrArg DecConfig.offset hcfg
  · have h1 := hu.turn.slow j
    have h2 := hu.turn.slow (j + 1)
    have h3 := steady_mono hu.turn.wheel.teeth (by omega : k ≤ j + 1 + 1)
    omega
  · exact C76_sees hu.turn.wheel ht hg (hx (j + 1)) hn (by have := hu.turn.size; omega) (hc.place j hn) w0 w1 even last s0 s1
      (hc.fast j hn) (hc.slow j hn)

/-- The decoder knows the crank in every state from `e1` on. -/
theorem on_knows {d0 : Decoder} {N s R n0 : ℕ} {v g offset : ℚ} {p q : ℤ} {T : ℕ → ℤ} {θ : ℤ → ℚ} {c : CrankTol}
    {G : ℤ → Engine → Prop} {e0 e1 e : Engine} {n1 E1 n E : ℤ} {k : ℕ}
    (hu : RunSetup d0 N s R v g p q T) (ht : d0.type = .missingNosync) (hg : FirstGap N s R n0) (ho : d0.offset = .fin offset)
    (turns : CrankTurns θ c (wheelPos N s) n0 g T) (s0 : 1 / 2 ^ 18 ≤ c.speed) (s1 : c.speed ≤ 1 / 10)
    (hb : EngBoot e0) (hd : e0.cfg.decoder = decoderInit d0) (hG : ∀ n e, G n e → TeethGiven T n e)
    (h1 : EngTimed Honest G e0 n1 E1 e1) (hk : Decoded k e1) (hn : n0 + 2 ≤ k) (h : EngOn Honest G n1 E1 e1 n E e) :
    G n e ∧ e.cfg.decoder.offset = .fin offset ∧ ∃ T, T ≤ n ∧ n - T ≤ 2 ^ 24 ∧ KnowsCrank θ c T e.cfg.decoder := by
  obtain ⟨x, hp, hx⟩ := crank_plan hu ht hg
  obtain ⟨-, j1, hj1⟩ := timed_decoded hp (G := G) (fun n e h => hG n e h) hb hd h1
  obtain rfl := hk.unique hj1.count
  obtain ⟨j', l1, hj'⟩ := on_decoded hp (G := G) (fun n e h => hG n e h) hj1 h
  obtain ⟨gy, -⟩ := timed_decoded hp (G := G) (fun n e h => hG n e h) hb hd (on_timed h1 h)
  obtain ⟨j, rfl⟩ : ∃ j, j' = j + 1 := ⟨j' - 1, by omega⟩
  obtain ⟨c1, c2⟩ := engine_knows hu ht hg turns s0 s1 hx hj' (by omega) (hG _ _ gy)
  exact ⟨gy, c1.trans ho, c2⟩

/-- C76 for the whole firmware on a real wheel.  The firmware has started; the teeth of the wheel reach it as captures, in
order and within 64 microseconds, no capture is lost, and the timing advance is one of `Adv`; anything else may happen at any
time.  From any state `e1` after the second synchronised tooth in which the output has nothing pending: whenever the output
hardware drives the pin of an ignition output to its inactive level, that is, at every spark, the crank is at the commanded
angle. -/
theorem C76_wheel_partial {d0 : Decoder} {N s R n0 : ℕ} {v g offset : ℚ} {p q : ℤ} {T : ℕ → ℤ} {θ : ℤ → ℚ} {c : CrankTol}
    {Adv : ℚ → Prop} {e0 e1 e : Engine} {n1 E1 n E t : ℤ} {k : ℕ}
    (hu : RunSetup d0 N s R v g p q T) (ht : d0.type = .missingNosync) (hg : FirstGap N s R n0) (ho : d0.offset = .fin offset)
    (turns : CrankTurns θ c (wheelPos N s) n0 g T) (hc : c.Sane) (s0 : 1 / 2 ^ 18 ≤ c.speed)
    (hb : EngBoot e0) (hd : e0.cfg.decoder = decoderInit d0) (ha : CycleAngles e0 offset Adv)
    (h1 : EngTimed Honest (OnWheel T Adv) e0 n1 E1 e1) (hk : Decoded k e1) (hn : n0 + 2 ≤ k)
    (h : EngOn Honest (OnWheel T Adv) n1 E1 e1 n E e) {i : Fin maxEvents} {A : ℚ}
    (hi : (e0.cfg.events i).type = .ignition) (hA : (e0.cfg.events i).angle = .fin A) (quiet : ¬ Live (e1.cfg.events i).stop.state)
    {pin : Fin 16} (only : ∀ j, ((e0.cfg.events j).pin.setWidth 8).toNat = pin → j = i) {b : Bool} (hin : InBuffer E e b t)
    (hdr : Drives (e.buf b) (stamp t) pin (e0.cfg.events i).inverted) :
    ∃ adv, Adv adv ∧ Near (θ t) (A - adv + offset) c.error := by
  have hc1 := timed_clock h1
  obtain ⟨hr1, -, -⟩ := clock_reach hb .boot hc1
  have hst := clock_static hc1
  have key : EngClock (Tracks θ c offset Adv) e1 n E e := on_clock hb h1 h fun m E' y hy => by
    obtain ⟨gy, c1, c2⟩ := on_knows hu ht hg ho turns s0 hc.speed1 hb hd (fun n e h => h.1) h1 hk hn hy
    exact fun _ => ⟨c1, c2, gy.2⟩
  have ha1 : CycleAngles e1 offset Adv := ⟨fun i hi => by
    rw [(hst i).2.1]
    exact ha.events i (by rw [← (hst i).1]; exact hi), ha.offset, ha.advance⟩
  exact C76_spark_partial hc hb hr1 ha1 key (i := i) (by rw [(hst i).1]; exact hi) (by rw [(hst i).2.1]; exact hA) quiet
    (fun j hj => only j (by rw [← (hst j).2.2.1]; exact hj)) hin.1 hin.2 (by rw [(hst i).2.2.2]; exact hdr)

/-- C79 for the whole firmware on a real wheel, with a constant command: from any state `e1` after the second synchronised
tooth in which the injector has nothing pending, every injection ends at the commanded angle, and began the commanded time
before. -/
theorem C79_wheel_partial {d0 : Decoder} {N s R n0 : ℕ} {v g offset : ℚ} {p q : ℤ} {T : ℕ → ℤ} {θ : ℤ → ℚ} {c : CrankTol}
    {fu : BitVec 32} {e0 e1 e : Engine} {n1 E1 n E t : ℤ} {k : ℕ}
    (hu : RunSetup d0 N s R v g p q T) (ht : d0.type = .missingNosync) (hg : FirstGap N s R n0) (ho : d0.offset = .fin offset)
    (hO : |offset| ≤ 720) (turns : CrankTurns θ c (wheelPos N s) n0 g T) (hc : c.Sane) (s0 : 1 / 2 ^ 18 ≤ c.speed) (small : fu.toNat < 2 ^ 28)
    (hb : EngBoot e0) (hd : e0.cfg.decoder = decoderInit d0)
    (h1 : EngTimed Honest (FuelOnWheel T fu) e0 n1 E1 e1) (hk : Decoded k e1) (hn : n0 + 2 ≤ k)
    (h : EngOn Honest (FuelOnWheel T fu) n1 E1 e1 n E e) {i : Fin maxEvents} {A : ℚ}
    (hi : (e0.cfg.events i).type = .fuel) (hA : (e0.cfg.events i).angle = .fin A) (hA1 : |A| ≤ 720)
    (quiet : eventIsUnscheduled (e1.cfg.events i) = true ∨ eventHasFired (e1.cfg.events i) = true)
    {pin : Fin 16} (hp : ((e0.cfg.events i).pin.setWidth 8).toNat = pin)
    (only : ∀ j, ((e0.cfg.events j).pin.setWidth 8).toNat = pin → j = i) {b : Bool} (hin : InBuffer E e b t)
    (hdr : Drives (e.buf b) (stamp t) pin (e0.cfg.events i).inverted) :
    Near (θ t) (A + offset) c.error ∧
      DrivenBy (FuelTracks θ c offset (· = fu)) e1 n E e pin (!(e0.cfg.events i).inverted) (t - 4 * fu.toNat) := by
  have hc1 := timed_clock h1
  obtain ⟨hr1, -, -⟩ := clock_reach hb .boot hc1
  have hst := clock_static hc1
  have key : EngClock (FuelTracks θ c offset (· = fu)) e1 n E e := on_clock hb h1 h fun m E' y hy => by
    obtain ⟨gy, c1, c2⟩ := on_knows hu ht hg ho turns s0 hc.speed1 hb hd (fun n e h => h.1) h1 hk hn hy
    exact fun hv => ⟨c1, c2, gy.2 hv⟩
  have := C79_constant_partial hc small hb hr1 hO key (i := i) (by rw [(hst i).1]; exact hi) (by rw [(hst i).2.1]; exact hA) hA1 quiet
    (by rw [(hst i).2.2.1]; exact hp) (fun j hj => only j (by rw [← (hst j).2.2.1]; exact hj)) hin (by rw [(hst i).2.2.2]; exact hdr)
  rw [(hst i).2.2.2] at this
  exact this

end Verif
