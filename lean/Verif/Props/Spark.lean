/-
C76: the spark comes at the commanded crank angle.
-/
import Verif.Proofs.Clock

namespace Verif

variable [FloatFmt]
open Fl

omit [FloatFmt] in
/-- What arming does to the end of an output other than an injector. -/
theorem crit_stop {t ns np : Time} {ev : OEvent} (hf : ev.type ≠ .fuel) (hl : Live (scheduleCrit t ev ns np).stop.state) :
    (Live ev.stop.state ∧ (scheduleCrit t ev ns np).stop.time = ev.stop.time) ∨
    ((scheduleCrit t ev ns np).stop.state = .scheduled ∧ (scheduleCrit t ev ns np).stop.time = np) := by
  have hadj : ∀ b, adjustStop ev b ns np = np := by
    intro b
    unfold adjustStop
    simp [hf]
  have hen : ∀ x : Time, Live (entryEnable t ev.stop x).1.state →
      (Live ev.stop.state ∧ (entryEnable t ev.stop x).1.time = ev.stop.time) ∨
      ((entryEnable t ev.stop x).1.state = .scheduled ∧ (entryEnable t ev.stop x).1.time = x) := by
    intro x h
    unfold entryEnable at h ⊢
    split_ifs at h ⊢
    · exact .inl ⟨h, rfl⟩
    · exact .inl ⟨h, rfl⟩
    · exact .inr ⟨rfl, rfl⟩
  unfold scheduleCrit at hl ⊢
  split_ifs at hl ⊢
  · exact hen _ hl
  · exact .inl ⟨hl, rfl⟩
  · rw [hadj] at hl ⊢
    exact hen _ hl

theorem reset_live {ev ev1 : OEvent} {d : Decoder} {stop : Time} (h : resetIfFired ev d stop = .ok (some ev1))
    (hl : Live ev1.stop.state) : Live ev.stop.state ∧ ev1.stop.time = ev.stop.time := by
  rcases resetIfFired_cases h with ⟨h, -⟩ | ⟨h, -⟩ | ⟨ev', h, -, -, h1⟩
  · cases h; exact ⟨hl, rfl⟩
  · cases h
  · cases h
    unfold resetFiredEvent at h1
    simp only [bind_eq_ok] at h1
    obtain ⟨_, -, _, -, h1⟩ := h1
    cases h1
    rcases hl with hl | hl <;> cases hl

/-- What a step does to the end of a spark: it leaves it, or sets it to the time computed for it. -/
theorem spark_move {e : Engine} {ev ev' : OEvent} (h : EvMove e ev ev') (ht : ev.type = .ignition) (hl : Live ev'.stop.state) :
    (Live ev.stop.state ∧ ev'.stop.time = ev.stop.time) ∨
    (ev'.stop.state = .scheduled ∧ e.cfg.decoder.valid = true ∧ ∃ env, EnvOf e env ∧ ignitionStop env ev = .ok ev'.stop.time) := by
  cases h with
  | same => exact .inl ⟨hl, rfl⟩
  | cancel =>
      left
      unfold descheduleCrit entryDisable at hl ⊢
      split_ifs at hl ⊢
      all_goals first
        | exact ⟨hl, rfl⟩
        | (rcases hl with hl | hl <;> cases hl)
  | spark env h1 h2 h3 h4 =>
      rcases scheduleIgnition_cases h4 with rfl | ⟨stop, dwell, ev1, h6, -, h5, rfl | ⟨-, -, rfl⟩⟩
      · exact .inl ⟨hl, rfl⟩
      · exact .inl (reset_live h5 hl)
      · have hty : (setPins ev1).type ≠ .fuel := by
          show ev1.type ≠ _
          rw [(reset_static h5).1, ht]
          exact fun h => nomatch h
        rcases crit_stop hty hl with ⟨h7, h8⟩ | ⟨h7, h8⟩
        · left
          obtain ⟨h9, h10⟩ := reset_live h5 h7
          exact ⟨h9, h8.trans h10⟩
        · right
          refine ⟨h7, h2, env, h1, ?_⟩
          rw [h6]
          exact congrArg _ h8.symm
  | fuel env h1 h2 h3 h4 => rw [ht] at h3; cases h3

/-- The settings: angles and offset within one cycle. -/
structure CycleAngles (e : Engine) (offset : ℚ) (Adv : ℚ → Prop) : Prop where
  events : ∀ i, (e.cfg.events i).type ≠ .disabled → ∃ A, (e.cfg.events i).angle = .fin A ∧ |A| ≤ 720
  offset : |offset| ≤ 720
  advance : ∀ a, Adv a → |a| ≤ 720

/-- The crank is where the output with angle `A` is to fire at tick `t`. -/
def SparkAt (θ : ℤ → ℚ) (c : CrankTol) (offset : ℚ) (Adv : ℚ → Prop) (A : ℚ) (t : ℤ) : Prop :=
  ∃ adv, Adv adv ∧ Near (θ t) (A - adv + offset) c.error

omit [FloatFmt] in
theorem swap_events (e : Engine) (now : Time) (i : Fin maxEvents) : ∃ f g, (engSwap e now).cfg.events i =
    mapEdges (fun en => populated f (retired g en)) (e.cfg.events i) := by
  have h1 : (engSwap e now).cfg.events = (bufferSwap e.dma now).evs := by
    unfold engSwap
    generalize bufferSwap e.dma now = s
    rfl
  refine ⟨roundToBuffer now + 128, (e.buf e.cur).first, ?_⟩
  rw [h1]
  exact (bufferSwap_spec e.dma now).2.2.2.1 i

omit [FloatFmt] in
theorem swap_static (e : Engine) (now : Time) (i : Fin maxEvents) :
    ((engSwap e now).cfg.events i).type = (e.cfg.events i).type ∧ ((engSwap e now).cfg.events i).angle = (e.cfg.events i).angle ∧
    ((engSwap e now).cfg.events i).pin = (e.cfg.events i).pin ∧ ((engSwap e now).cfg.events i).inverted = (e.cfg.events i).inverted := by
  obtain ⟨f, g, h⟩ := swap_events e now i
  rw [h]
  generalize e.cfg.events i = ev
  exact ⟨rfl, rfl, rfl, rfl⟩

omit [FloatFmt] in
/-- A swap leaves the times, and makes nothing live that was not. -/
theorem swap_live (e : Engine) (now : Time) (i : Fin maxEvents) (w : Bool) :
    (((engSwap e now).cfg.events i).edge w).time = ((e.cfg.events i).edge w).time ∧
    (Live (((engSwap e now).cfg.events i).edge w).state → Live ((e.cfg.events i).edge w).state) := by
  obtain ⟨f, g, h⟩ := swap_events e now i
  rw [h, mapEdges_edge]
  generalize (e.cfg.events i).edge w = en
  have hse := swapEdge f g en
  refine ⟨hse.time, ?_⟩
  rintro (hl | hl)
  · exact .inl (hse.scheduled.mp hl).1
  · rcases hse.submitted.mp hl with ⟨h, -⟩ | ⟨h, -⟩
    · exact .inl h
    · exact .inr h

/-- Configured values along a run. -/
theorem clock_static {G : ℤ → Engine → Prop} {e0 e : Engine} {n E : ℤ} (h : EngClock G e0 n E e) (i : Fin maxEvents) :
    (e.cfg.events i).type = (e0.cfg.events i).type ∧ (e.cfg.events i).angle = (e0.cfg.events i).angle ∧
    (e.cfg.events i).pin = (e0.cfg.events i).pin ∧ (e.cfg.events i).inverted = (e0.cfg.events i).inverted := by
  induction h with
  | boot _ _ _ _ => exact ⟨rfl, rfl, rfl, rfl⟩
  | step a _ _ _ h3 h4 _ ih =>
      obtain ⟨a1, a2, a3, a4⟩ := (step_move h3 h4 i).static
      exact ⟨a1.trans ih.1, a2.trans ih.2.1, a3.trans ih.2.2.1, a4.trans ih.2.2.2⟩
  | swap _ _ _ _ _ ih =>
      obtain ⟨a1, a2, a3, a4⟩ := swap_static _ _ i
      exact ⟨a1.trans ih.1, a2.trans ih.2.1, a3.trans ih.2.2.1, a4.trans ih.2.2.2⟩

omit [FloatFmt] in
/-- An edge that is live is within the buffers or not far after them. -/
theorem live_window {s : Dma maxEvents} {E : ℤ} (h : DmaReach s) (he : s.earliest = stamp E) (i : Fin maxEvents) (w : Bool)
    (hl : Live ((s.evs i).edge w).state) : ((((s.evs i).edge w).time - stamp (E - 256)).toNat : ℤ) < 2 ^ 31 + 256 := by
  have I := dma_reach_inv h
  have hf : stamp (E - 256) = (s.buf s.cur).first := by
    rw [← stamp_sub, ← he]
    show (s.buf s.cur).first + 256 - stamp 256 = _
    have : stamp 256 = 256 := rfl
    rw [this]; bv_omega
  rw [hf]
  rcases hl with hl | hl
  · have := I.scheduled i w hl
    unfold Dma.earliest at this
    bv_omega
  · have := I.submitted i w hl
    omega

omit [FloatFmt] in
theorem eng_window {e : Engine} {E : ℤ} (h : DmaReach e.dma) (he : e.dma.earliest = stamp E) (i : Fin maxEvents) (w : Bool)
    (hl : Live ((e.cfg.events i).edge w).state) : ((((e.cfg.events i).edge w).time - stamp (E - 256)).toNat : ℤ) < 2 ^ 31 + 256 :=
  live_window h he i w hl

/-- C76 for the times held by the outputs.  From any state `e0` that the firmware reaches and in which the output has nothing
pending: whenever the decoder, valid, knows the crank, the time at which a spark ends, from the moment it is set until it has
been played, is that of a real tick at which the crank is at the commanded angle. -/
theorem C76_armed {θ : ℤ → ℚ} {c : CrankTol} {offset : ℚ} {Adv : ℚ → Prop} {eb e0 e : Engine} {n E : ℤ} (hc : c.Sane)
    (hb : EngBoot eb) (h0 : EngReach (fun _ => True) eb e0) (ha : CycleAngles e0 offset Adv) (h : EngClock (Tracks θ c offset Adv) e0 n E e) (i : Fin maxEvents) {A : ℚ}
    (hi : (e0.cfg.events i).type = .ignition) (hA : (e0.cfg.events i).angle = .fin A)
    (quiet : ¬ Live (e0.cfg.events i).stop.state) (hl : Live (e.cfg.events i).stop.state) :
    Tick (E - 256) (2 ^ 31 + 256) (SparkAt θ c offset Adv A) (e.cfg.events i).stop.time := by
  have hA1 : |A| ≤ 720 := by
    obtain ⟨B, h1, h2⟩ := ha.events i (by rw [hi]; exact fun h => nomatch h)
    rw [hA] at h1
    cases h1
    exact h2
  induction h with
  | boot h1 h2 h3 h4 => exact absurd hl quiet
  | @step n n' E e e' a hr h1 h2 h3 h4 h5 ih =>
      obtain ⟨rr, ci, g⟩ := clock_reach hb h0 hr
      have hst := clock_static hr i
      obtain ⟨rr', ci', -⟩ := clock_reach hb h0 (EngClock.step a hr h1 h2 h3 h4 h5)
      rcases spark_move (step_move h3 h4 i) (by rw [hst.1]; exact hi) hl with ⟨h6, h7⟩ | ⟨h6, h7, env, h8, h9⟩
      · rw [h7]; exact ih h6
      · obtain ⟨ho, ⟨T, hT1, hT2, hs⟩, adv, hv, hadv⟩ := g h7
        obtain ⟨u, hu1, hu2, hu3, hu4⟩ := spark_stop hc (by rw [h8.d]; exact hs) (by rw [hst.2.1]; exact hA) hA1
          (by rw [h8.advance]; exact hv) (ha.advance adv hadv) (by rw [h8.d]; exact ho) ha.offset h9
        have hsch := (dma_reach_inv (reach_dma hb rr')).scheduled i true h6
        rw [ci'.early] at hsch
        have hn1 := ci.after
        have hn2 := ci.before
        exact Tick.of_armed hu1 (by omega) (by omega) ⟨adv, hadv, hu4⟩ hsch
  | @swap n n' E e hr h1 h2 h3 h4 ih =>
      obtain ⟨rr, ci, g⟩ := clock_reach hb h0 hr
      obtain ⟨rr', ci', -⟩ := clock_reach hb h0 (EngClock.swap hr h1 h2 h3 h4)
      obtain ⟨htime, hlive⟩ := swap_live e (stamp n') i true
      clear h4
      generalize engSwap e (stamp n') = x at *
      have hwin := eng_window (reach_dma hb rr') ci'.early i true hl
      have hwin : (((x.cfg.events i).stop.time - stamp (E + 128 - 256)).toNat : ℤ) < 2 ^ 31 + 256 := hwin
      have htime : (x.cfg.events i).stop.time = (e.cfg.events i).stop.time := htime
      rw [htime] at hwin ⊢
      have := (ih (hlive hl)).shift (by norm_num) (by
        rw [show E - 256 + 128 = E + 128 - 256 by ring]
        exact hwin)
      rw [show E - 256 + 128 = E + 128 - 256 by ring] at this
      exact this

/-- Which edge a driven level is: an end edge of the only output on the pin, when the level is the inactive one. -/
theorem driven_stop {G : ℤ → Engine → Prop} {eb e0 e : Engine} {n E t : ℤ} (hb : EngBoot eb)
    (h0 : EngReach (fun _ => True) eb e0) (h : EngClock G e0 n E e)
    {i : Fin maxEvents} {p : Fin 16} {b : Bool} (only : ∀ j, ((e0.cfg.events j).pin.setWidth 8).toNat = p → j = i)
    (hd : Drives (e.buf b) (stamp t) p (e0.cfg.events i).inverted) :
    (e.cfg.events i).stop.state = .submitted ∧ (e.cfg.events i).stop.time = stamp t := by
  obtain ⟨rr, ci, -⟩ := clock_reach hb h0 h
  have hD := reach_dma hb rr
  obtain ⟨-, j, w, h1, h2, h3, h4⟩ := (C19_exact hD b (stamp t) p _).mp hd
  have hp := (dma_reach_inv hD).pins j w (.inr h1)
  have hst := clock_static h j
  change ((e.cfg.events j).edge w).state = _ at h1
  change ((e.cfg.events j).edge w).time = _ at h2
  change ((e.cfg.events j).edge w).pin.toNat = _ at h3
  change ((e.cfg.events j).edge w).val = _ at h4
  change (setPins (e.cfg.events j)).edge w = (e.cfg.events j).edge w at hp
  have hpin : ((e.cfg.events j).edge w).pin = (e0.cfg.events j).pin.setWidth 8 := by
    rw [← hp, ← hst.2.2.1]
    cases w <;> rfl
  rw [hpin] at h3
  obtain rfl := only j h3
  cases w with
  | false =>
      exfalso
      rw [← hp, ← hst.2.2.2] at h4
      have h4 : (!(e.cfg.events j).inverted) = (e.cfg.events j).inverted := h4
      cases hx : (e.cfg.events j).inverted <;> rw [hx] at h4 <;> cases h4
  | true => exact ⟨h1, h2⟩

/-- C76.  From any state `e0` that the firmware reaches and in which the output has nothing pending: whenever the output
hardware drives the pin of an ignition output to its inactive level, that is, at every spark, the crank is at the commanded
angle.  The tick `t` is the real time at which the buffer, the one playing (`b = e.cur`) or the next, plays the level. -/
theorem C76_spark_partial {θ : ℤ → ℚ} {c : CrankTol} {offset : ℚ} {Adv : ℚ → Prop} {eb e0 e : Engine} {n E t : ℤ} (hc : c.Sane)
    (hb : EngBoot eb) (h0 : EngReach (fun _ => True) eb e0) (ha : CycleAngles e0 offset Adv) (h : EngClock (Tracks θ c offset Adv) e0 n E e) {i : Fin maxEvents} {A : ℚ}
    (hi : (e0.cfg.events i).type = .ignition) (hA : (e0.cfg.events i).angle = .fin A)
    (quiet : ¬ Live (e0.cfg.events i).stop.state) {p : Fin 16}
    (only : ∀ j, ((e0.cfg.events j).pin.setWidth 8).toNat = p → j = i) {b : Bool}
    (ht : (if b = e.cur then E - 256 else E - 128) ≤ t) (ht' : t < (if b = e.cur then E - 256 else E - 128) + 128)
    (hd : Drives (e.buf b) (stamp t) p (e0.cfg.events i).inverted) :
    ∃ adv, Adv adv ∧ Near (θ t) (A - adv + offset) c.error := by
  obtain ⟨h1, h2⟩ := driven_stop hb h0 h only hd
  obtain ⟨t', h3, h4, h5, h6⟩ := C76_armed hc hb h0 ha h i hi hA quiet (.inr h1)
  have : t = t' := by
    refine stamp_inj ?_ (h2.symm.trans h3)
    rw [abs_lt]
    split_ifs at ht ht' <;> omega
  rw [this]
  exact h6

end Verif
