/-
The firmware from its start to the trigger at which the decoder becomes valid.
-/
import Verif.Proofs.Command
import Verif.Spec.PowerOn

namespace Verif

variable [FloatFmt]

/-- No output has ever been scheduled. -/
def Asleep (e : Engine) : Prop := ∀ i w, ((e.cfg.events i).edge w).state = .unscheduled

omit [FloatFmt] in
theorem Asleep.same {e e' : Engine} (h : Asleep e) (hd : e'.dma = e.dma) : Asleep e' := by
  have : e'.cfg.events = e.cfg.events := congrArg Dma.evs hd
  intro i w
  rw [this]
  exact h i w

omit [FloatFmt] in
theorem Asleep.swap {e : Engine} (h : Asleep e) (now : Time) : Asleep (engSwap e now) := by
  intro i w
  have h0 : ∀ (y : Engine) (d : Dma maxEvents), y.dma = d → y.cfg.events = d.evs := by
    rintro y d rfl
    rfl
  have h1 := h0 _ _ (engSwap_dma e now)
  rw [h1, (bufferSwap_spec e.dma now).2.2.2.1 i]
  have h2 : ((e.dma.evs i).edge w).state = .unscheduled := h i w
  have h3 : ∀ f g (en : Entry), en.state = .unscheduled → (populated f (retired g en)).state = .unscheduled := by
    intro f g en he
    unfold retired
    rw [if_neg (by rw [he]; exact fun h => nomatch h.1)]
    unfold populated
    rw [if_neg (by rw [he]; exact fun h => nomatch h.1)]
    exact he
  cases w
  · exact h3 _ _ _ h2
  · exact h3 _ _ _ h2

/-- A step from a state before the decoder is valid decodes at most one trigger. -/
theorem step_one {e e' : Engine} {a : EngAct} {j j' : ℕ} (h : engStep e a = .ok e') (hj : Decoded j e) (hj' : Decoded j' e') :
    j' = j ∨ j' = j + 1 := by
  rcases step_values h with hi | ⟨-, -, s3, -⟩
  · exact .inl ((hi.count _ hj').unique hj)
  · exact .inr (hj'.unique (s3 _ hj))

/-- Until the decoder is valid nothing is scheduled; a run either ends before, or has a state, the first with `K` triggers
decoded, in which nothing has been scheduled. -/
theorem asleep_split {d0 : Decoder} {ev : ℕ → Int × ℤ} {x : ℕ → Decoder × Option Time} {K : ℕ} (hp : DecPlan d0 ev x) (hK : 0 < K)
    (hv : ∀ j < K, (x j).1.valid = false) {G : ℤ → Engine → Prop}
    (hG : ∀ n e, G n e → EventsGiven ev n e) {eb e : Engine} {n E : ℤ} (hb : EngBoot eb) (hd : eb.cfg.decoder = decoderInit d0)
    (h : EngTimed Honest G eb n E e) :
    (∃ j < K, DecodedTo ev x j e ∧ Asleep e) ∨
      ∃ n1 E1 e1, EngTimed Honest G eb n1 E1 e1 ∧ DecodedTo ev x K e1 ∧ Asleep e1 ∧ EngOn Honest G n1 E1 e1 n E e := by
  induction h with
  | boot h1 h2 h3 h4 =>
      obtain ⟨-, j, hj⟩ := timed_decoded hp hG hb hd (.boot h1 h2 h3 h4 : EngTimed Honest G eb _ _ eb)
      have hz : j = 0 := by
        have := hj.count.given
        rw [hb.given] at this
        simpa using this
      exact .inl ⟨j, by omega, hj, fun i w => by rw [hb.events i w]⟩
  | @step n n' E e e' a h1 h2 h3 h4 h5 h6 h7 ih =>
      rcases ih with ⟨j, l, hj, as⟩ | ⟨n1, E1, e1, t1, d1, a1, o1⟩
      · obtain ⟨j', -, hj'⟩ := step_decoded hp hj h4 h5 h6 (hG _ _ h7)
        obtain ⟨rr, -, -⟩ := clock_reach hb .boot (timed_clock h1)
        obtain ⟨a0, b0, hdec⟩ := hj.decoder
        have same := lost_same (reach_quiet hb rr) (by rw [hdec]; exact hv j l) h4 h6
        rcases step_one h6 hj.count hj'.count with rfl | rfl
        · exact .inl ⟨_, l, hj', as.same same⟩
        · rcases Nat.lt_or_ge (j + 1) K with l' | l'
          · exact .inl ⟨_, l', hj', as.same same⟩
          · obtain rfl : K = j + 1 := by omega
            exact .inr ⟨_, _, _, .step a h1 h2 h3 h4 h5 h6 h7, hj', as.same same, .refl⟩
      · exact .inr ⟨n1, E1, e1, t1, d1, a1, .step a o1 h2 h3 h4 h5 h6 h7⟩
  | swap h1 h2 h3 h4 h5 ih =>
      rcases ih with ⟨j, l, hj, as⟩ | ⟨n1, E1, e1, t1, d1, a1, o1⟩
      · exact .inl ⟨j, l, swap_decoded hj _, as.swap _⟩
      · exact .inr ⟨n1, E1, e1, t1, d1, a1, .swap o1 h2 h3 h4 h5⟩

omit [FloatFmt] in
theorem Asleep.quiet {e : Engine} (h : Asleep e) (i : Fin maxEvents) :
    eventIsUnscheduled (e.cfg.events i) = true ∨ eventHasFired (e.cfg.events i) = true := by
  have h1 : (e.cfg.events i).start.state = .unscheduled := h i false
  have h2 : (e.cfg.events i).stop.state = .unscheduled := h i true
  left
  unfold eventIsUnscheduled
  rw [h1, h2]
  rfl

/-- What an output has never been told to do it does not do. -/
theorem Asleep.silent {eb e : Engine} {n E t : ℤ} {G : ℤ → Engine → Prop} (hb : EngBoot eb) (h : EngTimed Honest G eb n E e) (as : Asleep e)
    {i : Fin maxEvents} {pin : Fin 16} {b : Bool} (only : ∀ j, ((eb.cfg.events j).pin.setWidth 8).toNat = pin → j = i) (v : Bool) :
    ¬ Drives (e.buf b) (stamp t) pin v := by
  intro hd
  by_cases hv : v = (eb.cfg.events i).inverted
  · subst hv
    have := (driven_stop hb .boot (timed_clock h) only hd).1
    have h2 : (e.cfg.events i).stop.state = .unscheduled := as i true
    rw [h2] at this
    cases this
  · have hv : v = !(eb.cfg.events i).inverted := by
      cases v <;> cases hx : (eb.cfg.events i).inverted <;> simp_all
    subst hv
    have := (driven_start hb .boot (timed_clock h) only hd).1
    have h2 : (e.cfg.events i).start.state = .unscheduled := as i false
    rw [h2] at this
    cases this

/-- The decoder of an even wheel without a cam is valid, and knows the speed, from the last of the required teeth on. -/
theorem free_speed_on {d0 : Decoder} {N R W low : ℕ} {v g : ℚ} {p q : ℤ} {T : ℕ → ℤ} (he : FreeWheel d0 N R W low v g p q T) :
    SpeedPlan d0 (fun j => (0, T j)) R g p q := by
  obtain ⟨x, hp, hx⟩ := free_plan he
  refine ⟨x, hp, fun j hj => ?_⟩
  obtain ⟨a, b⟩ := hx j (by omega)
  exact ⟨a.valid, b⟩

/-- A run of the firmware on an even wheel without a cam: before the last of the required teeth, or on from it. -/
theorem free_start {d0 : Decoder} {N R W low : ℕ} {v g : ℚ} {p q : ℤ} {T : ℕ → ℤ} {G : ℤ → Engine → Prop} {eb e : Engine} {n E : ℤ}
    (he : FreeWheel d0 N R W low v g p q T) (hG : ∀ n e, G n e → TeethGiven T n e) (hb : EngBoot eb) (hd : eb.cfg.decoder = decoderInit d0)
    (h : EngTimed Honest G eb n E e) :
    (Asleep e ∧ n < T R + 256) ∨
      ∃ n1 E1 e1, EngTimed Honest G eb n1 E1 e1 ∧ Decoded (R - 1 + 1) e1 ∧ Asleep e1 ∧ EngOn Honest G n1 E1 e1 n E e := by
  have hR2 := he.pace.wheel.cfg.R2
  obtain ⟨x, hp, hv, -⟩ := free_plan_all he
  rcases asleep_split hp (by omega) hv hG hb hd h with ⟨j, l, hj, as⟩ | ⟨n1, E1, e1, t1, d1, a1, o1⟩
  · refine .inl ⟨as, ?_⟩
    obtain ⟨gy, -⟩ := timed_decoded hp (G := G) hG hb hd h
    obtain ⟨kk, kk1, kk2, kk3⟩ := hG _ _ gy
    have hlen : e.given.length = kk := by rw [kk1]; simp
    have hgl := hj.count.given
    rw [hlen] at hgl
    have c5 : T kk ≤ T R := monotone_nat_of_le_succ (fun n => (he.pace.wheel.teeth.later n).le) (by omega)
    omega
  · refine .inr ⟨n1, E1, e1, t1, ?_, a1, o1⟩
    rw [show R - 1 + 1 = R by omega]
    exact d1.count

/-- Before the last of the required teeth the crank has not turned far. -/
theorem free_early {d0 : Decoder} {N R W low : ℕ} {v g : ℚ} {p q : ℤ} {T : ℕ → ℤ} {θ : ℤ → ℚ} {n : ℤ}
    (he : FreeWheel d0 N R W low v g p q T) (hT : Turning θ g p q) (hb : 256 * g ≤ 80 * p) (hn : n < T R + 256) : θ n < θ (T (R - 1)) + 1500 := by
  have hR2 := he.pace.wheel.cfg.R2
  have band := (he.pace.band (R - 1)).2
  rw [show R - 1 + 1 = R by omega] at band
  have hnar := he.pace.narrow
  have hg := he.pace.wheel.cfg.g360
  have hpit := he.pace.pitch
  have hp0 : (0 : ℚ) < p := by nlinarith
  have hq : (q : ℚ) ≤ 23 / 16 * p := by
    have : ((16 * q : ℤ) : ℚ) ≤ ((23 * p : ℤ) : ℚ) := by exact_mod_cast hnar
    push_cast at this
    linarith
  have hd : (n : ℚ) - T (R - 1) ≤ q + 256 := by
    have : n - T (R - 1) ≤ q + 256 := by omega
    exact_mod_cast this
  rcases le_total n (T (R - 1)) with h | h
  · have h1 := (hT _ _ h).2
    have h2 : (0 : ℚ) ≤ g * (((T (R - 1) : ℤ) : ℚ) - n) := by
      have : ((n : ℤ) : ℚ) ≤ T (R - 1) := by exact_mod_cast h
      exact mul_nonneg (by linarith) (by linarith)
    by_contra hc
    have hq0 : (0 : ℚ) < q := by
      have : p ≤ q := le_trans (he.pace.band 0).1 (he.pace.band 0).2
      have : (p : ℚ) ≤ q := by exact_mod_cast this
      linarith
    have : (q : ℚ) * (θ (T (R - 1)) - θ n) < 0 := mul_neg_of_pos_of_neg hq0 (by linarith)
    linarith
  · have h1 := (hT _ _ h).1
    have h2 : g * ((n : ℚ) - T (R - 1)) ≤ g * (23 / 16 * p + 256) := mul_le_mul_of_nonneg_left (by linarith) (by linarith)
    have h3 : g * p ≤ 360 * p := mul_le_mul_of_nonneg_right hg hp0.le
    have h4 : (p : ℚ) * (θ n - θ (T (R - 1))) < p * 1500 := by nlinarith
    have := lt_of_mul_lt_mul_left h4 hp0.le
    linarith

/-- What is driven on the way from `e1` is driven on the way from the boot. -/
theorem driven_in {A : ℤ → EngAct → Prop} {G : ℤ → Engine → Prop} {e0 e1 e : Engine} {n1 E1 n E t : ℤ} {p : Fin 16} {v : Bool}
    (h : EngTimed A G e0 n1 E1 e1) (hd : DrivenOn A G n1 E1 e1 n E e p v t) : DrivenIn A G e0 n E e p v t := by
  obtain ⟨n', E', e', b, h1, h2, h3⟩ := hd
  exact ⟨n', E', e', b, on_timed h h1, h2, h3⟩

omit [FloatFmt] in
theorem error_pos {θ : ℤ → ℚ} {tol : CrankTol} {pos : ℕ → ℕ} {n0 m0 : ℕ} {g : ℚ} {T : ℕ → ℤ} (turns : CrankTurnsFrom θ tol pos n0 m0 g T)
    (hc : tol.Sane) : 0 ≤ tol.error := by
  obtain ⟨w, h1, h2, -⟩ := turns.speed m0 le_rfl
  have := hc.speed0
  have := hc.angle0
  have := hc.even0
  unfold CrankTol.error
  linarith

omit [FloatFmt] in
theorem room_error {ε g e : ℚ} {p q dlo dhi late : ℤ} {f : BitVec 32} (room : CycleRoom ε g p q dlo dhi late f) (hg : 9 ≤ g)
    (h : g * (dhi - dlo) ≤ p * (ε - e)) (he : 0 ≤ e) : 0 ≤ ε := by
  have h1 : (0 : ℚ) ≤ g * (dhi - dlo) := by
    have : ((dlo : ℤ) : ℚ) ≤ dhi := by exact_mod_cast room.charges
    exact mul_nonneg (by linarith) (by linarith)
  have h2 : (0 : ℚ) < p := by
    have := room.buffer
    linarith
  have := nonneg_of_mul_nonneg_right (le_trans h1 h) h2
  linarith

end Verif
