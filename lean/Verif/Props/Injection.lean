/-
C79: an injection has the commanded width and is timed to end at the commanded angle.
-/
import Verif.Spec.Injection
import Verif.Proofs.Inject

namespace Verif

variable [FloatFmt]
open Fl

/-- At some moment of the run, not later than the state `e`, a buffer was to drive pin `p` to `v` at tick `t`. -/
def DrivenBy (G : ℤ → Engine → Prop) (e0 : Engine) (n E : ℤ) (e : Engine) (p : Fin 16) (v : Bool) (t : ℤ) : Prop :=
  ∃ n1 E1 e1 b, EngClock G e0 n1 E1 e1 ∧ EngLater G n1 E1 e1 n E e ∧ InBuffer E1 e1 b t ∧ Drives (e1.buf b) (stamp t) p v

omit [FloatFmt] in
theorem fuelOk_mono {Fu : BitVec 32 → Prop} {S P P' : ℤ → Prop} {E : ℤ} {ev : OEvent} (h : FuelOk Fu S P E ev) (hP : ∀ s, P s → P' s) :
    FuelOk Fu S P' E ev := by
  rcases h with h | h | ⟨s, fu, h⟩
  · exact .inl h
  · exact .inr (.inl h)
  · exact .inr (.inr ⟨s, fu, { h with played := fun hs => hP s (h.played hs) }⟩)

omit [FloatFmt] in
theorem fuelOk_pins {Fu : BitVec 32 → Prop} {S P : ℤ → Prop} {E : ℤ} {ev : OEvent} (h : FuelOk Fu S P E ev) :
    FuelOk Fu S P E (setPins ev) := by
  rcases h with h | h | ⟨s, fu, h⟩
  · exact .inl h
  · exact .inr (.inl h)
  · exact .inr (.inr ⟨s, fu, ⟨h.t0, h.t1, h.width, h.good, h.lo, h.hi, h.started, h.live, h.armed, h.handed, h.past, h.stopArmed,
      h.stopHanded, h.played⟩⟩)

theorem fuelOk_reset {Fu : BitVec 32 → Prop} {S P : ℤ → Prop} {E : ℤ} {ev ev1 : OEvent} {d : Decoder} {stop : Time}
    (h : FuelOk Fu S P E ev) (hr : resetIfFired ev d stop = .ok (some ev1)) :
    FuelOk Fu S P E ev1 ∧ eventHasFired ev1 = false := by
  rcases resetIfFired_cases hr with ⟨h1, h2⟩ | ⟨h1, -⟩ | ⟨ev', h1, -, -, h2⟩
  · cases h1; exact ⟨h, h2⟩
  · cases h1
  · cases h1
    unfold resetFiredEvent at h2
    simp only [bind_eq_ok] at h2
    obtain ⟨_, -, _, -, h2⟩ := h2
    cases h2
    exact ⟨.inl rfl, rfl⟩

omit [FloatFmt] in
theorem width_stamp (fu : BitVec 32) : 4 * fu = stamp (4 * (fu.toNat : ℤ)) := by
  apply BitVec.eq_of_toNat_eq
  have h := stamp_toNat_mod (4 * (fu.toNat : ℤ))
  have h2 : (4 * fu).toNat = 4 * fu.toNat % 2 ^ 32 := by rw [BitVec.toNat_mul]; rfl
  omega

/-- What is known of the start of an injection: it was computed so that the pulse, of a width commanded then, ends at the
commanded angle. -/
def InjectAt (θ : ℤ → ℚ) (c : CrankTol) (offset : ℚ) (Fu : BitVec 32 → Prop) (A : ℚ) (s : ℤ) : Prop :=
  ∃ fu, Fu fu ∧ Near (θ (s + 4 * fu.toNat)) (A + offset) c.error

/-- One step of the firmware. -/
theorem fuelOk_move {θ : ℤ → ℚ} {c : CrankTol} {offset : ℚ} {Fu : BitVec 32 → Prop} {P : ℤ → Prop} {e : Engine} {n E : ℤ} {ev ev' : OEvent}
    {A : ℚ} (hc : c.Sane) (small : ∀ f, Fu f → f.toNat < 2 ^ 28) (g : FuelTracks θ c offset Fu n e) (ci : ClockInv n E e)
    (hty : ev.type = .fuel) (hA : ev.angle = .fin A) (hA1 : |A| ≤ 720) (hO : |offset| ≤ 720)
    (h : FuelOk Fu (InjectAt θ c offset Fu A) P E ev) (m : EvMove e ev ev') : FuelOk Fu (InjectAt θ c offset Fu A) P E ev' := by
  cases m with
  | same => exact h
  | cancel => exact fuelOk_cancel h
  | spark env h1 h2 h3 h4 => rw [hty] at h3; cases h3
  | fuel env h1 h2 h3 h4 =>
      rcases scheduleFuel_cases h4 with h5 | ⟨stop, ev1, h6, h5, h7 | ⟨-, h7⟩⟩
      · rw [h5]; exact h
      · rw [h7]; exact (fuelOk_reset h h5).1
      · rw [h7]
        obtain ⟨ho, ⟨T, hT1, hT2, hs⟩, hfu⟩ := g h2
        obtain ⟨u, hu1, hu2, hu3, hu4⟩ := fuel_stop hc (by rw [h1.d]; exact hs) hA hA1 (by rw [h1.d]; exact ho) hO h6
        obtain ⟨k1, k2⟩ := fuelOk_reset h h5
        have hn1 := ci.after
        have hn2 := ci.before
        have hst := (reset_static h5).1
        show FuelOk _ _ _ _ (scheduleCrit env.earliest (setPins ev1) (stop - 4 * env.fuelingUs) stop)
        rw [h1.earliest, ci.early, h1.fueling, hu1, width_stamp, stamp_sub]
        refine fuelOk_crit (fuelOk_pins k1) k2 (by show ev1.type = _; rw [hst]; exact hty) small hfu
          ⟨_, hfu, ?_⟩ (by omega) (by omega)
        rw [sub_add_cancel]
        exact hu4

omit [FloatFmt] in
/-- The two edges of an output at a swap, in ticks. -/
theorem swap_ticks {E n : ℤ} {e : Engine} (h : DmaReach e.dma) (he : e.dma.earliest = stamp E) (h1 : E - 128 ≤ n) (h2 : n < E)
    (i : Fin maxEvents) (w : Bool) :
    SwapEdge (stamp E) (stamp (E - 256)) ((e.cfg.events i).edge w) (((engSwap e (stamp n)).cfg.events i).edge w) := by
  have I := dma_reach_inv h
  have hw := swap_window h he h1 h2
  have hal : ((e.dma.buf (!e.dma.cur)).first).toNat % 128 = 0 := by
    have := I.aligned
    rw [I.adjacent]
    bv_omega
  have hr := round_in_window _ _ hal hw
  have hev : (engSwap e (stamp n)).cfg.events = (bufferSwap e.dma (stamp n)).evs := by
    unfold engSwap
    generalize bufferSwap e.dma (stamp n) = s
    rfl
  have hg : (e.dma.buf e.dma.cur).first = stamp (E - 256) := by
    rw [← stamp_sub, ← he]
    show _ = (e.dma.buf e.dma.cur).first + 256 - stamp 256
    have : stamp 256 = 256 := rfl
    rw [this]; bv_omega
  have hf : roundToBuffer (stamp n) + 128 = stamp E := by
    rw [hr, I.adjacent, ← he]
    show _ = (e.dma.buf e.dma.cur).first + 256
    bv_omega
  have hs := (bufferSwap_spec e.dma (stamp n)).2.2.2.1 i
  rw [hev, hs, mapEdges_edge, hf, hg]
  exact swapEdge _ _ _

theorem later_clock {G : ℤ → Engine → Prop} {e0 e e' : Engine} {n E n' E' : ℤ} (h : EngClock G e0 n E e) (hl : EngLater G n E e n' E' e') :
    EngClock G e0 n' E' e' := by
  induction hl with
  | refl => exact h
  | step a _ h1 h2 h3 h4 h5 ih => exact .step a ih h1 h2 h3 h4 h5
  | swap _ h1 h2 h3 h4 ih => exact .swap ih h1 h2 h3 h4

/-- A handed-over start is one that a buffer is to drive. -/
theorem start_driven {e0 e : Engine} {E s : ℤ} (hD : DmaReach e.dma) (early : e.dma.earliest = stamp E) {i : Fin maxEvents}
    (hst : (e.cfg.events i).pin = (e0.cfg.events i).pin ∧ (e.cfg.events i).inverted = (e0.cfg.events i).inverted) {p : Fin 16}
    (hp : ((e0.cfg.events i).pin.setWidth 8).toNat = p) (hs : (e.cfg.events i).start.state = .submitted)
    (ht : (e.cfg.events i).start.time = stamp s) (h1 : E - 128 ≤ s) (h2 : s < E) :
    InBuffer E e (!e.cur) s ∧ Drives (e.buf (!e.cur)) (stamp s) p (!(e0.cfg.events i).inverted) := by
  have I := dma_reach_inv hD
  refine ⟨?_, ?_⟩
  · unfold InBuffer
    rw [if_neg (by cases e.cur <;> decide)]
    omega
  · refine (C19_exact hD (!e.cur) (stamp s) p _).mpr ⟨?_, i, false, hs, ht, ?_, ?_⟩
    · exact swap_window hD early h1 h2
    · have := I.pins i false (.inr hs)
      change (setPins (e.cfg.events i)).edge false = (e.cfg.events i).edge false at this
      change ((e.cfg.events i).edge false).pin.toNat = _
      rw [← this, ← hp, ← hst.1]
      rfl
    · have := I.pins i false (.inr hs)
      change (setPins (e.cfg.events i)).edge false = (e.cfg.events i).edge false at this
      change ((e.cfg.events i).edge false).val = _
      rw [← this, ← hst.2]
      rfl

/-- The invariant along a run. -/
theorem fuel_run {θ : ℤ → ℚ} {c : CrankTol} {offset : ℚ} {Fu : BitVec 32 → Prop} {eb e0 e : Engine} {n E : ℤ} (hc : c.Sane)
    (small : ∀ f, Fu f → f.toNat < 2 ^ 28) (hb : EngBoot eb) (h0 : EngReach (fun _ => True) eb e0) (hO : |offset| ≤ 720)
    (h : EngClock (FuelTracks θ c offset Fu) e0 n E e) {i : Fin maxEvents} {A : ℚ} (hi : (e0.cfg.events i).type = .fuel)
    (hA : (e0.cfg.events i).angle = .fin A) (hA1 : |A| ≤ 720)
    (quiet : eventIsUnscheduled (e0.cfg.events i) = true ∨ eventHasFired (e0.cfg.events i) = true) {p : Fin 16}
    (hp : ((e0.cfg.events i).pin.setWidth 8).toNat = p) :
    FuelOk Fu (InjectAt θ c offset Fu A) (DrivenBy (FuelTracks θ c offset Fu) e0 n E e p (!(e0.cfg.events i).inverted)) E
      (e.cfg.events i) := by
  induction h with
  | boot h1 h2 h3 h4 => exact quiet.imp id .inl
  | @step n n' E e e' a hr h1 h2 h3 h4 h5 ih =>
      obtain ⟨rr, ci, g⟩ := clock_reach hb h0 hr
      have hst := clock_static hr i
      have ih' := fuelOk_mono (P' := DrivenBy (FuelTracks θ c offset Fu) e0 n' E e' p (!(e0.cfg.events i).inverted)) ih
        (fun s ⟨n1, E1, e1, b, k1, k2, k3⟩ => ⟨n1, E1, e1, b, k1, .step a k2 h1 h2 h3 h4 h5, k3⟩)
      exact fuelOk_move hc small g ci (hst.1.trans hi) (hst.2.1.trans hA) hA1 hO ih' (step_move h3 h4 i)
  | @swap n n' E e hr h1 h2 h3 h4 ih =>
      obtain ⟨rr, ci, g⟩ := clock_reach hb h0 hr
      have hr' := EngClock.swap hr h1 h2 h3 h4
      obtain ⟨rr', ci', -⟩ := clock_reach hb h0 hr'
      have hst := clock_static hr' i
      have hD := reach_dma hb rr
      have s0 := swap_ticks hD ci.early h2 h3 i false
      have s1 := swap_ticks hD ci.early h2 h3 i true
      have step : ∀ {n1 E1 e1}, EngLater (FuelTracks θ c offset Fu) n1 E1 e1 n E e →
          EngLater (FuelTracks θ c offset Fu) n1 E1 e1 n' (E + 128) (engSwap e (stamp n')) := fun k => .swap k h1 h2 h3 h4
      have hD' := reach_dma hb rr'
      clear h4
      generalize engSwap e (stamp n') = x at *
      refine fuelOk_swap ih small s0 s1 (fun s ⟨n1, E1, e1, b, k1, k2, k3⟩ => ⟨n1, E1, e1, b, k1, step k2, k3⟩)
        (fun s k1 k2 k3 k4 => ?_)
      obtain ⟨d1, d2⟩ := start_driven hD' ci'.early (i := i) ⟨hst.2.2.1, hst.2.2.2⟩ hp k1 k4 (by omega) (by omega)
      exact ⟨n', E + 128, x, !x.cur, hr', .refl, d1, d2⟩

/-- Which edge a driven level is: a start edge of the only output on the pin, when the level is the active one. -/
theorem driven_start {G : ℤ → Engine → Prop} {eb e0 e : Engine} {n E t : ℤ} (hb : EngBoot eb)
    (h0 : EngReach (fun _ => True) eb e0) (h : EngClock G e0 n E e)
    {i : Fin maxEvents} {p : Fin 16} {b : Bool} (only : ∀ j, ((e0.cfg.events j).pin.setWidth 8).toNat = p → j = i)
    (hd : Drives (e.buf b) (stamp t) p (!(e0.cfg.events i).inverted)) :
    (e.cfg.events i).start.state = .submitted ∧ (e.cfg.events i).start.time = stamp t := by
  obtain ⟨rr, ci, -⟩ := clock_reach hb h0 h
  have hD := reach_dma hb rr
  obtain ⟨-, j, w, h1, h2, h3, h4⟩ := (C19_exact hD b (stamp t) p _).mp hd
  have hp := (dma_reach_inv hD).pins j w (.inr h1)
  have hst := clock_static h j
  change ((e.cfg.events j).edge w).state = _ at h1
  change ((e.cfg.events j).edge w).time = _ at h2
  change ((e.cfg.events j).edge w).pin.toNat = _ at h3
  change ((e.cfg.events j).edge w).val = _ at h4
  change (setPins (e.cfg.events j)).edge w = (e.cfg.events j).edge w at hp
  have hpin : ((e.cfg.events j).edge w).pin = (e0.cfg.events j).pin.setWidth 8 := by
    rw [← hp, ← hst.2.2.1]
    cases w <;> rfl
  rw [hpin] at h3
  obtain rfl := only j h3
  cases w with
  | true =>
      exfalso
      rw [← hp, ← hst.2.2.2] at h4
      have h4 : (e.cfg.events j).inverted = !(e.cfg.events j).inverted := h4
      cases hx : (e.cfg.events j).inverted <;> rw [hx] at h4 <;> cases h4
  | false => exact ⟨h1, h2⟩

/-- C79, the start.  From any state `e0` that the firmware reaches and in which the injector has nothing pending: whenever the
output hardware drives the injector's pin to its active level, at the real tick `t`, the pulse is timed so that with a width
`fu` commanded it ends at the commanded angle. -/
theorem C79_start_partial {θ : ℤ → ℚ} {c : CrankTol} {offset : ℚ} {Fu : BitVec 32 → Prop} {eb e0 e : Engine} {n E t : ℤ} (hc : c.Sane)
    (small : ∀ f, Fu f → f.toNat < 2 ^ 28) (hb : EngBoot eb) (h0 : EngReach (fun _ => True) eb e0) (hO : |offset| ≤ 720)
    (h : EngClock (FuelTracks θ c offset Fu) e0 n E e) {i : Fin maxEvents} {A : ℚ} (hi : (e0.cfg.events i).type = .fuel)
    (hA : (e0.cfg.events i).angle = .fin A) (hA1 : |A| ≤ 720)
    (quiet : eventIsUnscheduled (e0.cfg.events i) = true ∨ eventHasFired (e0.cfg.events i) = true) {p : Fin 16}
    (hp : ((e0.cfg.events i).pin.setWidth 8).toNat = p) (only : ∀ j, ((e0.cfg.events j).pin.setWidth 8).toNat = p → j = i)
    {b : Bool} (ht : InBuffer E e b t) (hd : Drives (e.buf b) (stamp t) p (!(e0.cfg.events i).inverted)) :
    ∃ fu, Fu fu ∧ Near (θ (t + 4 * fu.toNat)) (A + offset) c.error := by
  obtain ⟨h1, h2⟩ := driven_start hb h0 h only hd
  rcases fuel_run hc small hb h0 hO h hi hA hA1 quiet hp with h3 | h3 | ⟨s, fu, h3⟩
  · simp only [eventIsUnscheduled, Bool.and_eq_true, decide_eq_true_eq] at h3
    rw [h1] at h3; cases h3.1
  · simp only [eventHasFired, Bool.and_eq_true, decide_eq_true_eq] at h3
    rw [h1] at h3; cases h3.1
  · have hw := h3.handed h1
    have : t = s := by
      refine stamp_inj ?_ (h2.symm.trans h3.t0)
      unfold InBuffer at ht
      rw [abs_lt]
      split_ifs at ht <;> omega
    rw [this]
    exact h3.good

/-- C79, the end.  Whenever the output hardware drives the injector's pin to its inactive level, at the real tick `t`, the
pulse that ends there has a commanded width `fu`, to the tick: the pin was driven active at the tick `t - 4 * fu`; and that
start was timed for the commanded angle, with a width `fu'` commanded at that time.  While the command does not change the
pulse ends at the commanded angle. -/
theorem C79_end_partial {θ : ℤ → ℚ} {c : CrankTol} {offset : ℚ} {Fu : BitVec 32 → Prop} {eb e0 e : Engine} {n E t : ℤ} (hc : c.Sane)
    (small : ∀ f, Fu f → f.toNat < 2 ^ 28) (hb : EngBoot eb) (h0 : EngReach (fun _ => True) eb e0) (hO : |offset| ≤ 720)
    (h : EngClock (FuelTracks θ c offset Fu) e0 n E e) {i : Fin maxEvents} {A : ℚ} (hi : (e0.cfg.events i).type = .fuel)
    (hA : (e0.cfg.events i).angle = .fin A) (hA1 : |A| ≤ 720)
    (quiet : eventIsUnscheduled (e0.cfg.events i) = true ∨ eventHasFired (e0.cfg.events i) = true) {p : Fin 16}
    (hp : ((e0.cfg.events i).pin.setWidth 8).toNat = p) (only : ∀ j, ((e0.cfg.events j).pin.setWidth 8).toNat = p → j = i)
    {b : Bool} (ht : InBuffer E e b t) (hd : Drives (e.buf b) (stamp t) p (e0.cfg.events i).inverted) :
    ∃ fu, Fu fu ∧ DrivenBy (FuelTracks θ c offset Fu) e0 n E e p (!(e0.cfg.events i).inverted) (t - 4 * fu.toNat) ∧
      ∃ fu', Fu fu' ∧ Near (θ (t - 4 * fu.toNat + 4 * fu'.toNat)) (A + offset) c.error := by
  obtain ⟨h1, h2⟩ := driven_stop hb h0 h only hd
  rcases fuel_run hc small hb h0 hO h hi hA hA1 quiet hp with h3 | h3 | ⟨s, fu, h3⟩
  · simp only [eventIsUnscheduled, Bool.and_eq_true, decide_eq_true_eq] at h3
    rw [h1] at h3; cases h3.2
  · simp only [eventHasFired, Bool.and_eq_true, decide_eq_true_eq] at h3
    rw [h1] at h3; cases h3.2
  · have hw := h3.stopHanded h1
    have hl := h3.lo
    have : t = s + 4 * fu.toNat := by
      refine stamp_inj ?_ (h2.symm.trans h3.t1)
      unfold InBuffer at ht
      rw [abs_lt]
      split_ifs at ht <;> omega
    have he : t - 4 * fu.toNat = s := by omega
    refine ⟨fu, h3.width, ?_, ?_⟩
    · rw [he]
      refine h3.played ?_
      rcases hst : (e.cfg.events i).start.state with _ | _ | _ | _
      · exact absurd hst h3.started
      · have := (h3.armed hst).2
        rw [h1] at this; cases this
      · exact .inl rfl
      · exact .inr rfl
    · rw [he]
      exact h3.good

/-- C79 with a constant command: every injection ends at the commanded angle. -/
theorem C79_constant_partial {θ : ℤ → ℚ} {c : CrankTol} {offset : ℚ} {fu : BitVec 32} {eb e0 e : Engine} {n E t : ℤ} (hc : c.Sane)
    (small : fu.toNat < 2 ^ 28) (hb : EngBoot eb) (h0 : EngReach (fun _ => True) eb e0) (hO : |offset| ≤ 720)
    (h : EngClock (FuelTracks θ c offset (· = fu)) e0 n E e) {i : Fin maxEvents} {A : ℚ} (hi : (e0.cfg.events i).type = .fuel)
    (hA : (e0.cfg.events i).angle = .fin A) (hA1 : |A| ≤ 720)
    (quiet : eventIsUnscheduled (e0.cfg.events i) = true ∨ eventHasFired (e0.cfg.events i) = true) {p : Fin 16}
    (hp : ((e0.cfg.events i).pin.setWidth 8).toNat = p) (only : ∀ j, ((e0.cfg.events j).pin.setWidth 8).toNat = p → j = i)
    {b : Bool} (ht : InBuffer E e b t) (hd : Drives (e.buf b) (stamp t) p (e0.cfg.events i).inverted) :
    Near (θ t) (A + offset) c.error ∧
      DrivenBy (FuelTracks θ c offset (· = fu)) e0 n E e p (!(e0.cfg.events i).inverted) (t - 4 * fu.toNat) := by
  obtain ⟨f, rfl, h1, f', rfl, h2⟩ := C79_end_partial hc (fun f hf => by rw [hf]; exact small) hb h0 hO h hi hA hA1 quiet hp only ht hd
  rw [sub_add_cancel] at h2
  exact ⟨h2, h1⟩

end Verif
