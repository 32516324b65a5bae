/-
The invariant of one injector that is to open once in every cycle, and its teeth.
-/
import Verif.Proofs.BeatHyp
import Verif.Spec.Pulses

namespace Verif

/-- An injection from tick `s` to tick `P`, of `dlo` to `dhi` ticks.  Its start was computed from an end in cycle `m`. -/
def FuelAim (Wb : ℤ → ℤ → Prop) (dlo dhi m s P : ℤ) : Prop :=
  (∃ P', Wb m P' ∧ dlo ≤ P' - s ∧ P' - s ≤ dhi) ∧ dlo ≤ P - s ∧ P - s ≤ dhi

/-- The ends `W` of a pulse that is made longer or shorter are near the ends `Wb` that are computed. -/
def Reach (Wb W : ℤ → ℤ → Prop) (dlo dhi : ℤ) : Prop := ∀ {m P P'}, Wb m P' → P - P' ≤ dhi - dlo → P' - P ≤ dhi - dlo → W m P

variable {Wb W : ℤ → ℤ → Prop} {jit gap top dlo dhi : ℤ} {D0 D1 : ℤ → Prop}

theorem fuel_aimOk (hd : 0 < dlo) (ds : dhi < 2 ^ 28) : AimOk W (FuelAim Wb dlo dhi) := by
  rintro m s P h0 ⟨-, h2, h3⟩
  omega

/-- Arming an injector again for the cycle it is armed for. -/
theorem fuel_again {E m P d s P0 : ℤ} {ev : OEvent} (hB : Beats W jit gap top) (hr : Reach Wb W dlo dhi) (hj : jit < dlo) (ht : ev.type = .fuel)
    (h : Pend W (FuelAim Wb dlo dhi) D0 D1 E m ev s P0) (hW : Wb m P) (lo : E - 2 ^ 29 ≤ P) (hi : P ≤ E + 2 ^ 29) (d0 : dlo ≤ d) (d1 : d ≤ dhi)
    (ds : dhi < 2 ^ 28) : ∃ s' P', Pend W (FuelAim Wb dlo dhi) D0 D1 E m (scheduleCrit (stamp E) ev (stamp (P - d)) (stamp P)) s' P' ∧
    (s < E → s' = s) := by
  have j0 := hB.jit0
  have j1 := hB.jit1
  have hW' : W m P := hr hW (by omega) (by omega)
  obtain ⟨⟨P', a1, a2, a3⟩, a4, a5⟩ := h.aim
  have hW1 : W m (s + d) := hr a1 (by omega) (by omega)
  have s1 := hB.same hW' hW1
  have s2 := hB.same hW1 hW'
  have hlo := h.lo
  have hhi := h.hi
  unfold scheduleCrit
  rw [if_neg (by
    intro hu
    simp only [eventIsUnscheduled, Bool.and_eq_true, decide_eq_true_eq] at hu
    exact h.started hu.1)]
  have hadj : adjustStop ev false (stamp (P - d)) (stamp P) = stamp (s + d) := by
    unfold adjustStop
    rw [if_pos (by simp [ht]), h.t0, stamp_sub, stamp_add]
    congr 1
    omega
  have hadj' : adjustStop ev true (stamp (P - d)) (stamp P) = stamp P := by
    unfold adjustStop
    rw [if_neg (by simp)]
  have stay : entryEnable (stamp E) ev.start (stamp (P - d)) = (ev.start, false) →
      ∃ s' P', Pend W (FuelAim Wb dlo dhi) D0 D1 E m { ev with
        start := (entryEnable (stamp E) ev.start (stamp (P - d))).1,
        stop := (entryEnable (stamp E) ev.stop (adjustStop ev
          (entryEnable (stamp E) ev.start (stamp (P - d))).2 (stamp (P - d)) (stamp P))).1 } s' P' ∧ (s < E → s' = s) := by
    intro he
    rw [he]
    simp only [hadj]
    rcases h.live with hl | hl
    · by_cases hE : E ≤ s + d
      · rw [enable_ok hE (by omega) (.inr hl)]
        exact ⟨s, s + d, ⟨h.t0, rfl, hW1, ⟨⟨P', a1, a2, a3⟩, by omega, by omega⟩, by omega, by omega, h.started, .inl rfl,
          fun ha => ⟨(h.armed ha).1, rfl⟩, h.handed, h.past, fun _ => hE, (fun h => nomatch h), h.played0, (fun h => nomatch h)⟩, fun _ => rfl⟩
      · rw [enable_late (by omega) (by omega)]
        exact ⟨s, P0, h, fun _ => rfl⟩
    · rw [enable_over (.inl hl)]
      exact ⟨s, P0, h, fun _ => rfl⟩
  rcases hst : ev.start.state with _ | _ | _ | _
  · exact absurd hst h.started
  · obtain ⟨hs1, hs2⟩ := h.armed hst
    by_cases hE : E ≤ P - d
    · rw [enable_ok hE (by omega) (.inr hst)]
      simp only [hadj']
      rw [enable_ok (by omega) (by omega) (.inr hs2)]
      exact ⟨P - d, P, ⟨rfl, rfl, hW', ⟨⟨P, hW, by omega, by omega⟩, by omega, by omega⟩, by omega, by omega, (fun h => nomatch h), .inl rfl,
        fun _ => ⟨hE, rfl⟩, (fun h => nomatch h), (fun h => nomatch h), fun _ => by omega, (fun h => nomatch h),
        (fun h => by rcases h with h | h <;> cases h), (fun h => nomatch h)⟩, fun _ => by omega⟩
    · exact stay (enable_late (by omega) (by omega))
  · exact stay (enable_over (.inl hst))
  · exact stay (enable_over (.inr hst))

variable [FloatFmt]

theorem fuel_ticks {env : SchedEnv} {ev : OEvent} {r : OEvent × Option Time} {P d : ℤ} (h : scheduleFuel env ev = .ok r)
    (hs : fuelStop env ev = .ok (stamp P)) (hd : 4 * env.fuelingUs = stamp d) : Ticks env P d ev r.1 := by
  rcases scheduleFuel_cases h with rfl | ⟨st, ev1, h1, h2, h3⟩
  · exact .inl rfl
  · right
    rw [hs] at h1
    cases h1
    rw [hd, stamp_sub] at h3
    refine ⟨ev1, h2, ?_⟩
    rcases h3 with rfl | ⟨h3, rfl⟩
    · exact .inl rfl
    · exact .inr ⟨h3, rfl⟩

/-- Scheduling an injector whose last pulse is long past, when there is still time: it is armed. -/
theorem fuel_fire {env : SchedEnv} {ev : OEvent} {r : OEvent × Option Time} {E k P d X : ℤ} (h : scheduleFuel env ev = .ok r)
    (hs : fuelStop env ev = .ok (stamp P)) (hd : 4 * env.fuelingUs = stamp d)
    (pl : PulsePlan W gap dlo dhi E k env P d) (hb : Wb k P) (dp : 0 ≤ dlo) (ds : dhi < 2 ^ 28) (hq : Unpended ev X) (hE : E ≤ P - d)
    (hX : gap ≤ P - X) (hX' : P - X < 2 ^ 32) : Pend W (FuelAim Wb dlo dhi) D0 D1 E k r.1 (P - d) P := by
  have p0 := pl.d0
  have p1 := pl.d1
  have hreset : ∃ ev1, resetIfFired ev env.d (stamp P) = .ok (some ev1) ∧ eventIsUnscheduled ev1 = true ∧ ev1.stop.time = stamp X := by
    have hr : ∃ r, resetIfFired ev env.d (stamp P) = .ok r := by
      unfold scheduleFuel at h
      rw [if_neg (by rintro (h | h); exacts [pl.running.1 h, by rw [pl.running.2] at h; cases h])] at h
      simp only [bind_eq_ok] at h
      obtain ⟨st, h1, r, h3, h4⟩ := h
      rw [hs] at h1
      cases h1
      exact ⟨r, h3⟩
    obtain ⟨r, hr⟩ := hr
    obtain ⟨ev1, rfl, h1⟩ := plan_reset hr pl hq hX hX'
    exact ⟨ev1, hr, h1⟩
  obtain ⟨ev1, hr, hu, ht⟩ := hreset
  rw [scheduleFuel_eq pl.running.1 pl.running.2 hs hr, hd, stamp_sub] at h
  have h : fuelArm env ev1 (stamp (P - d)) (stamp P) = .ok r := h
  unfold fuelArm at h
  rw [rest_not_far hu, except_bind_ok, if_neg (by simp)] at h
  rw [← Except.ok.inj h]
  dsimp only
  unfold scheduleSafely
  rw [pl.earliest]
  rcases arm_fresh (Q := FuelAim Wb dlo dhi) (ev := setPins ev1) (D0 := D0) (D1 := D1) hu ht pl.good ⟨⟨P, hb, by omega, by omega⟩, by omega, by omega⟩
    pl.lo pl.hi p0 p1 dp ds with ⟨h2, -⟩ | ⟨-, h2⟩
  · omega
  · exact h2

theorem fuel_moves {env : SchedEnv} {ev : OEvent} {r : OEvent × Option Time} {E k P d : ℤ} (h : scheduleFuel env ev = .ok r)
    (hs : fuelStop env ev = .ok (stamp P)) (hd : 4 * env.fuelingUs = stamp d)
    (pl : PulsePlan W gap dlo dhi E k env P d) (hb : Wb k P) (hB : Beats W jit gap top) (hr : Reach Wb W dlo dhi) (hj : jit < dlo)
    (ds : dhi < 2 ^ 28) (ht : ev.type = .fuel) : Moves W (FuelAim Wb dlo dhi) gap dlo dhi E k P d ev r.1 := by
  have j0 := hB.jit0
  have p0 := pl.d0
  have p1 := pl.d1
  have ticks := fuel_ticks h hs hd
  refine ⟨pl.good, p0, p1, fun hq => plan_quiet ticks pl ⟨⟨P, hb, by omega, by omega⟩, by omega, by omega⟩ (by omega) ds hq,
    fun hq => plan_same ticks pl (fun ev1 h1 h2 => fuel_again hB hr hj (h1.trans ht) h2 hb pl.lo pl.hi p0 p1 ds) hq,
    fun hk hq => ?_, fun hq hl => plan_handed ticks pl hq hl,
    fun hq hE hX hX' => fuel_fire h hs hd pl hb (by omega) ds hq hE hX hX'⟩
  subst hk
  exact plan_next ticks pl hB hq

open FloatFmt Fl

omit [FloatFmt] in
/-- Ends near an angle, and those of pulses made longer or shorter. -/
theorem angle_reach {θ : ℤ → ℚ} {g G ε ε' : ℚ} {p q dlo dhi : ℤ} (hT : Turning θ g p q) (hg : 0 < g) (hp : 0 < p) (hq : 0 < q)
    (hε : g * (dhi - dlo) ≤ p * (ε' - ε)) : Reach (AtAngle θ G ε) (AtAngle θ G ε') dlo dhi := by
  intro m P P' h h1 h2
  unfold AtAngle at h ⊢
  have hp' : (0 : ℚ) < p := by exact_mod_cast hp
  have hq' : (0 : ℚ) < q := by exact_mod_cast hq
  have h3 := abs_le.mp h
  have key : ∀ t t' : ℤ, t ≤ t' → t' - t ≤ dhi - dlo → θ t' - θ t ≤ ε' - ε ∧ 0 ≤ θ t' - θ t := by
    intro t t' ht h4
    obtain ⟨h5, h9⟩ := hT t t' ht
    have h6 : ((t' - t : ℤ) : ℚ) ≤ ((dhi - dlo : ℤ) : ℚ) := by exact_mod_cast h4
    have ht' : (t : ℚ) ≤ t' := by exact_mod_cast ht
    push_cast at h6
    have h7 : g * ((t' : ℚ) - t) ≤ g * (dhi - dlo) := mul_le_mul_of_nonneg_left h6 hg.le
    have h8 : (p : ℚ) * (θ t' - θ t) ≤ p * (ε' - ε) := by linarith
    have h10 : 0 ≤ g * ((t' : ℚ) - t) := mul_nonneg hg.le (by linarith)
    exact ⟨le_of_mul_le_mul_left h8 hp', by by_contra hn; nlinarith⟩
  rw [abs_le]
  rcases le_total P P' with h4 | h4
  · obtain ⟨a, b⟩ := key P P' h4 h2
    constructor <;> linarith [h3.1, h3.2]
  · obtain ⟨a, b⟩ := key P' P h4 h1
    constructor <;> linarith [h3.1, h3.2]

/-- Every state of a run in which the firmware knows the crank schedules its injections for the right cycle. -/
theorem inject_hyp {pos : ℕ → ℕ} {M n0 m0 k0 k1 : ℕ} {ev : ℕ → Int × ℤ} {τ : ℕ → ℕ} {g A O ε : ℚ} {p q dlo dhi late jit top : ℤ} {T : ℕ → ℤ} {θ : ℤ → ℚ} {c : CrankTol} {K : ℕ → ℤ}
    {eb e1 e : Engine} {n1 E1 n E : ℤ} {i : Fin maxEvents} {mf : BitVec 32}
    (hw : WheelShape pos M g p q) (turns : CrankTurnsFrom θ c pos n0 m0 g T) (hc : c.Sane)
    (hr : CycleRoom ε g p q dlo dhi late mf)
    (hK : CycleOf pos M n0 g (A + O) 0 (fun _ a => fin A - fin a + fin O) K)
    (hB : Beats (AtAngle θ (A + O) ε) jit (sparkGap ε g p) top) (hj : jit < dlo)
    (hR : Reach (AtAngle θ (A + O) c.error) (AtAngle θ (A + O) ε) dlo dhi)
    (hb : EngBoot eb) (hi : (eb.cfg.events i).type = .fuel) (hA : (eb.cfg.events i).angle = .fin A)
    {Gd : ℤ → Engine → Prop} (hGd : ∀ n e, Gd n e → InjectingOn ev k0 late dlo dhi n e) (h1 : EngTimed Honest Gd eb n1 E1 e1) (hk0 : k0 ≤ k1 + 1) (hm0 : n0 ≤ m0)
    (fol : Follows θ c pos M n0 m0 g O q T τ k1 Gd n1 E1 e1)
    (h : EngOn Honest Gd n1 E1 e1 n E e) :
    RunHyp (AtAngle θ (A + O) ε) (FuelAim (AtAngle θ (A + O) c.error) dlo dhi) (sparkGap ε g p) dlo dhi late (fun j => (ev j).2)
      (fun j => K (τ j)) i n E e := by
  obtain ⟨-, -, hg1, hp5, hpq, hp', hq', hq16⟩ := id hw
  have hg0 : 0 < g := by linarith
  obtain ⟨gd, j, l1, hat⟩ := fol n E e h
  have gy := hGd _ _ gd
  obtain ⟨g1, g3, g4, g5⟩ := gy.2 (j + 1) hat.count (by omega)
  obtain ⟨-, ci, -⟩ := clock_reach hb .boot (timed_clock (on_timed h1 h))
  have hstat := clock_static (timed_clock (on_timed h1 h)) i
  have hTj := hat.passed
  have hTn := hat.recent
  have hdhi := hr.small hg1 hp' (by omega)
  refine ⟨g5, g1, hat.valid, fun k hk => ?_⟩
  obtain rfl : k = j := by have := hk.unique hat.count; omega
  refine ⟨events_passed gy.1 hat.count, fun ev' hm => ?_⟩
  obtain ⟨env, he, -, ⟨hty, -⟩ | ⟨hty, cb, hm⟩⟩ := hm
  · rw [hstat.1, hi] at hty; cases hty
  have hrun := hat.running hg0
  have hstop : ∃ st, fuelStop env (e.cfg.events i) = .ok st := by
    unfold scheduleFuel at hm
    rw [if_neg (by rw [he.d]; rintro (h | h); exacts [hrun.1 h, by rw [hrun.2] at h; cases h])] at hm
    simp only [bind_eq_ok] at hm
    obtain ⟨st, h1, -⟩ := hm
    exact ⟨st, h1⟩
  obtain ⟨st, hstop⟩ := hstop
  have hs := hstop
  unfold fuelStop at hstop
  simp only [bind_eq_ok] at hstop
  obtain ⟨ang, c1, t, c2, c3⟩ := hstop
  cases c3
  rw [hstat.2.1, hA, he.d, hat.angle, hat.offset] at c1
  rw [he.d] at c2
  obtain ⟨u, u1, u2, u3, u4⟩ := hat.lands hc turns hK hm0 c1 c2
  rw [add_zero] at u4
  rw [he.d, u1] at hs
  have hE1 := ci.after
  have hE2 := ci.before
  refine ⟨T (τ k) + u, 4 * (e.vals.fuelingUs.toNat : ℤ), fuel_moves hm hs (by rw [he.fueling]; exact width_stamp _)
    ⟨?_, hR u4 (by omega) (by omega), by omega, by omega, g3, g4, ?_, ?_, ?_⟩ u4 hB hR hj (by omega) hty⟩
  · rw [he.earliest]; exact ci.early
  · rw [he.d]; exact hrun
  · intro lim hl
    rw [he.d] at hl
    exact hat.limit hg0 (by omega) (by omega) hq16 hr (by norm_num) (by norm_num) hl
  · intro lim hl
    rw [he.d] at hl
    exact (hat.limit hg0 (by omega) (by omega) hq16 hr (by norm_num) (by norm_num) hl).le

end Verif
