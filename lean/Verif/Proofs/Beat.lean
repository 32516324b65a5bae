/-
The invariant of one output that is to fire once in every cycle, in real ticks.
-/
import Verif.Proofs.Inject

namespace Verif

/-- The ticks `W m` at which an output may fire in cycle `m`: they are at most `jit` apart, and those of the next cycle come
at least `gap` and at most `top` later. -/
structure Beats (W : ℤ → ℤ → Prop) (jit gap top : ℤ) : Prop where
  same : ∀ {m t t'}, W m t → W m t' → t' - t ≤ jit
  next : ∀ {m t t'}, W m t → W (m + 1) t' → gap ≤ t' - t
  within : ∀ {m t t'}, W m t → W (m + 1) t' → t' - t ≤ top
  gap0 : 0 < gap
  jit0 : 0 ≤ jit
  jit1 : jit < 2 ^ 28
  order : gap ≤ top
  top1 : top < 2 ^ 28

/-- The start of a charge, at tick `s`, was computed from an end in cycle `m` and a dwell from `dlo` to `dhi` ticks. -/
def SparkAim (W : ℤ → ℤ → Prop) (dlo dhi m s _P : ℤ) : Prop := ∃ P', W m P' ∧ dlo ≤ P' - s ∧ P' - s ≤ dhi

/-- The pulses that `Q` allows begin before they end, and not too long. -/
def AimOk (W : ℤ → ℤ → Prop) (Q : ℤ → ℤ → ℤ → Prop) : Prop := ∀ {m s P}, W m P → Q m s P → s < P ∧ P - 2 ^ 29 ≤ s

/-- The output `ev` is active in cycle `m` from tick `s` to tick `P`; `Q` says what is known of the two.  `E` is the tick at which the two
buffers are over; `D0` and `D1` say what is known of a start and of an end that have been handed over to the hardware. -/
structure Pend (W : ℤ → ℤ → Prop) (Q : ℤ → ℤ → ℤ → Prop) (D0 D1 : ℤ → Prop) (E m : ℤ) (ev : OEvent) (s P : ℤ) : Prop where
  t0 : ev.start.time = stamp s
  t1 : ev.stop.time = stamp P
  good : W m P
  aim : Q m s P
  lo : E - 256 ≤ P
  hi : P < E + 2 ^ 30
  started : ev.start.state ≠ .unscheduled
  live : Live ev.stop.state
  armed : ev.start.state = .scheduled → E ≤ s ∧ ev.stop.state = .scheduled
  handed : ev.start.state = .submitted → E - 256 ≤ s ∧ s < E
  past : ev.start.state = .fired → s < E
  stopArmed : ev.stop.state = .scheduled → E ≤ P
  stopHanded : ev.stop.state = .submitted → P < E
  played0 : ev.start.state = .submitted ∨ ev.start.state = .fired → D0 s
  played1 : ev.stop.state = .submitted → D1 P

/-- Nothing is pending; the last end was at the stamp of `X`. -/
structure Unpended (ev : OEvent) (X : ℤ) : Prop where
  state : eventIsUnscheduled ev = true ∨ eventHasFired ev = true
  time : ev.stop.time = stamp X

/-- The coil was charged and the spark was handed over to the hardware, in cycle `m`. -/
def Sparked (W : ℤ → ℤ → Prop) (Q : ℤ → ℤ → ℤ → Prop) (D0 D1 : ℤ → Prop) (m : ℤ) (X : ℤ) : Prop :=
  W m X ∧ D1 X ∧ ∃ s, D0 s ∧ Q m s X

/-- The output has fired in cycle `m`, at tick `X`. -/
structure Over (W : ℤ → ℤ → Prop) (Q : ℤ → ℤ → ℤ → Prop) (D0 D1 : ℤ → Prop) (E m : ℤ) (ev : OEvent) (X : ℤ) : Prop where
  quiet : Unpended ev X
  before : X < E
  spark : Sparked W Q D0 D1 m X

/-- What scheduling computes: the end, the length of the pulse, and how far the limits of 90 and 180 degrees are. -/
structure PulsePlan [FloatFmt] (W : ℤ → ℤ → Prop) (gap dlo dhi : ℤ) (E k : ℤ) (env : SchedEnv) (P d : ℤ) : Prop where
  earliest : env.earliest = stamp E
  good : W k P
  lo : E - 2 ^ 29 ≤ P
  hi : P ≤ E + 2 ^ 29
  d0 : dlo ≤ d
  d1 : d ≤ dhi
  running : env.d.rpm ≠ 0 ∧ env.d.valid = true
  far : ∀ lim, timeFromRpmDiff env.d.rpm (Fl.fin 180) = .ok lim → (lim.toNat : ℤ) < gap
  soon : ∀ lim, timeFromRpmDiff env.d.rpm (Fl.fin 90) = .ok lim → (lim.toNat : ℤ) ≤ gap

/-- The same for a spark, which also has a minimum time to the last one. -/
structure Plan [FloatFmt] (W : ℤ → ℤ → Prop) (gap dlo dhi : ℤ) (E k : ℤ) (env : SchedEnv) (P d : ℤ) : Prop
    extends PulsePlan W gap dlo dhi E k env P d where
  little : ∀ lim, timeFromUs env.minFireUs = .ok lim → (lim.toNat : ℤ) + dhi ≤ gap

variable {W : ℤ → ℤ → Prop} {Q : ℤ → ℤ → ℤ → Prop} {jit gap top dlo dhi : ℤ} {D0 D1 : ℤ → Prop}

theorem Pend.mono {D0' D1' : ℤ → Prop} {E m s P : ℤ} {ev : OEvent} (h : Pend W Q D0 D1 E m ev s P)
    (h0 : ∀ t, D0 t → D0' t) (h1 : ∀ t, D1 t → D1' t) : Pend W Q D0' D1' E m ev s P :=
  { h with played0 := fun k => h0 _ (h.played0 k), played1 := fun k => h1 _ (h.played1 k) }

theorem Sparked.mono {D0' D1' : ℤ → Prop} {m X : ℤ} (h : Sparked W Q D0 D1 m X)
    (h0 : ∀ t, D0 t → D0' t) (h1 : ∀ t, D1 t → D1' t) : Sparked W Q D0' D1' m X := by
  obtain ⟨a, b, s, c, d⟩ := h
  exact ⟨a, h1 _ b, s, h0 _ c, d⟩

theorem Over.mono {D0' D1' : ℤ → Prop} {E m X : ℤ} {ev : OEvent} (h : Over W Q D0 D1 E m ev X)
    (h0 : ∀ t, D0 t → D0' t) (h1 : ∀ t, D1 t → D1' t) : Over W Q D0' D1' E m ev X :=
  ⟨h.quiet, h.before, h.spark.mono h0 h1⟩

/-- The coil is charged before every tick at which the output may fire. -/
theorem spark_aimOk (hB : Beats W jit gap top) (hd : jit < dlo) (ds : dhi < 2 ^ 28) : AimOk W (SparkAim W dlo dhi) := by
  rintro m s P h0 ⟨P', h1, h2, h3⟩
  have := hB.same h0 h1
  have := hB.same h1 h0
  have := hB.jit1
  omega

theorem pend_pins {E m s P : ℤ} {ev : OEvent} (h : Pend W Q D0 D1 E m ev s P) : Pend W Q D0 D1 E m (setPins ev) s P :=
  ⟨h.t0, h.t1, h.good, h.aim, h.lo, h.hi, h.started, h.live, h.armed, h.handed, h.past, h.stopArmed, h.stopHanded, h.played0, h.played1⟩

theorem quiet_pins {X : ℤ} {ev : OEvent} (h : Unpended ev X) : Unpended (setPins ev) X := ⟨h.state, h.time⟩

theorem adjust_ignition {ev : OEvent} (ht : ev.type = .ignition) (b : Bool) (x y : Time) : adjustStop ev b x y = y := by
  unfold adjustStop
  simp [ht]

/-- Arming an output at rest. -/
theorem arm_fresh {E k P d X : ℤ} {ev : OEvent} (hq : eventIsUnscheduled ev = true) (hX : ev.stop.time = stamp X) (hW : W k P) (hQ : Q k (P - d) P)
    (lo : E - 2 ^ 29 ≤ P) (hi : P ≤ E + 2 ^ 29) (d0 : dlo ≤ d) (d1 : d ≤ dhi) (dp : 0 ≤ dlo) (ds : dhi < 2 ^ 28) :
    (P - d < E ∧ scheduleCrit (stamp E) ev (stamp (P - d)) (stamp P) = ev ∧ Unpended ev X) ∨
      (E ≤ P - d ∧ Pend W Q D0 D1 E k (scheduleCrit (stamp E) ev (stamp (P - d)) (stamp P)) (P - d) P) := by
  have hu := hq
  simp only [eventIsUnscheduled, Bool.and_eq_true, decide_eq_true_eq] at hu
  unfold scheduleCrit
  rw [if_pos hq]
  by_cases hE : E ≤ P - d
  · right
    rw [enable_ok hE (by omega) (.inl hu.1), enable_ok (by omega) (by omega) (.inl hu.2), if_pos rfl]
    exact ⟨hE, rfl, rfl, hW, hQ, by omega, by omega, (fun h => nomatch h), .inl rfl, fun _ => ⟨hE, rfl⟩,
      (fun h => nomatch h), (fun h => nomatch h), fun _ => by omega, (fun h => nomatch h),
      (fun h => by rcases h with h | h <;> cases h), (fun h => nomatch h)⟩
  · left
    rw [enable_late (by omega) (by omega)]
    exact ⟨by omega, if_neg (by simp), ⟨.inl hq, hX⟩⟩

/-- Arming an output again for the cycle it is armed for. -/
theorem arm_again {E m P d s P0 : ℤ} {ev : OEvent} (hB : Beats W jit gap top) (hj : jit < dlo) (ht : ev.type = .ignition)
    (h : Pend W (SparkAim W dlo dhi) D0 D1 E m ev s P0) (hW : W m P) (lo : E - 2 ^ 29 ≤ P) (hi : P ≤ E + 2 ^ 29) (d0 : dlo ≤ d) (d1 : d ≤ dhi)
    (ds : dhi < 2 ^ 28) : ∃ s' P', Pend W (SparkAim W dlo dhi) D0 D1 E m (scheduleCrit (stamp E) ev (stamp (P - d)) (stamp P)) s' P' ∧
    (s < E → s' = s) := by
  have j0 := hB.jit0
  unfold scheduleCrit
  rw [if_neg (by
    intro hu
    simp only [eventIsUnscheduled, Bool.and_eq_true, decide_eq_true_eq] at hu
    exact h.started hu.1)]
  rw [adjust_ignition ht]
  have stay : entryEnable (stamp E) ev.start (stamp (P - d)) = (ev.start, false) →
      ∃ s' P', Pend W (SparkAim W dlo dhi) D0 D1 E m { ev with
        start := (entryEnable (stamp E) ev.start (stamp (P - d))).1,
        stop := (entryEnable (stamp E) ev.stop (stamp P)).1 } s' P' ∧ (s < E → s' = s) := by
    intro he
    rw [he]
    rcases h.live with hl | hl
    · by_cases hE : E ≤ P
      · rw [enable_ok hE (by omega) (.inr hl)]
        exact ⟨s, P, ⟨h.t0, rfl, hW, h.aim, by omega, by omega, h.started, .inl rfl, fun ha => ⟨(h.armed ha).1, rfl⟩,
          h.handed, h.past, fun _ => hE, (fun h => nomatch h), h.played0, (fun h => nomatch h)⟩, fun _ => rfl⟩
      · rw [enable_late (by omega) (by omega)]
        exact ⟨s, P0, h, fun _ => rfl⟩
    · rw [enable_over (.inl hl)]
      exact ⟨s, P0, h, fun _ => rfl⟩
  rcases hst : ev.start.state with _ | _ | _ | _
  · exact absurd hst h.started
  · obtain ⟨hs1, hs2⟩ := h.armed hst
    by_cases hE : E ≤ P - d
    · rw [enable_ok hE (by omega) (.inr hst), enable_ok (by omega) (by omega) (.inr hs2)]
      exact ⟨P - d, P, ⟨rfl, rfl, hW, ⟨P, hW, by omega, by omega⟩, by omega, by omega, (fun h => nomatch h), .inl rfl, fun _ => ⟨hE, rfl⟩,
        (fun h => nomatch h), (fun h => nomatch h), fun _ => by omega, (fun h => nomatch h),
        (fun h => by rcases h with h | h <;> cases h), (fun h => nomatch h)⟩, fun _ => by omega⟩
    · exact stay (enable_late (by omega) (by omega))
  · exact stay (enable_over (.inl hst))
  · exact stay (enable_over (.inr hst))

/-- An end that has been handed over stays, and so does its start. -/
theorem arm_handed {E m s P0 : ℤ} {ev : OEvent} {x y : Time}
    (h : Pend W Q D0 D1 E m ev s P0) (hl : ev.stop.state = .submitted) :
    scheduleCrit (stamp E) ev x y = ev := by
  unfold scheduleCrit
  rw [if_neg (by
    intro hu
    simp only [eventIsUnscheduled, Bool.and_eq_true, decide_eq_true_eq] at hu
    exact h.started hu.1)]
  rw [enable_over (en := ev.stop) (.inl hl)]
  have : ev.start.state = .submitted ∨ ev.start.state = .fired := by
    rcases hst : ev.start.state with _ | _ | _ | _
    · exact absurd hst h.started
    · have := (h.armed hst).2
      rw [hl] at this; cases this
    · exact .inl rfl
    · exact .inr rfl
  rw [enable_over this]

/-- A buffer swap leaves an output with nothing pending as it is. -/
theorem quiet_swap {E X : ℤ} {ev ev' : OEvent} (h : Unpended ev X)
    (h0 : SwapEdge (stamp E) (stamp (E - 256)) ev.start ev'.start) (h1 : SwapEdge (stamp E) (stamp (E - 256)) ev.stop ev'.stop) :
    Unpended ev' X := by
  refine ⟨?_, h1.time.trans h.time⟩
  rcases h.state with h | h
  · left
    simp only [eventIsUnscheduled, Bool.and_eq_true, decide_eq_true_eq] at h ⊢
    exact ⟨h0.unscheduled.mpr h.1, h1.unscheduled.mpr h.2⟩
  · right
    simp only [eventHasFired, Bool.and_eq_true, decide_eq_true_eq] at h ⊢
    exact ⟨h0.fired.mpr (.inl h.1), h1.fired.mpr (.inl h.2)⟩

/-- A buffer swap hands the edges over in their turn, and when the end has been played the output is over. -/
theorem pend_swap {E m s P : ℤ} {ev ev' : OEvent} {D0' D1' : ℤ → Prop} (h : Pend W Q D0 D1 E m ev s P)
    (hs : P - 2 ^ 29 ≤ s) (hs' : s < P)
    (h0 : SwapEdge (stamp E) (stamp (E - 256)) ev.start ev'.start) (h1 : SwapEdge (stamp E) (stamp (E - 256)) ev.stop ev'.stop)
    (k0 : ∀ t, D0 t → D0' t) (k1 : ∀ t, D1 t → D1' t)
    (n0 : ev'.start.state = .submitted → E ≤ s → s < E + 128 → ev'.start.time = stamp s → D0' s)
    (n1 : ev'.stop.state = .submitted → E ≤ P → P < E + 128 → ev'.stop.time = stamp P → D1' P) :
    Pend W Q D0' D1' (E + 128) m ev' s P ∨ (P < E ∧ Over W Q D0' D1' (E + 128) m ev' P) := by
  have hlo := h.lo
  have hhi := h.hi
  have e0 : ∀ a, ((ev.start.time - stamp a).toNat : ℤ) = (s - a) % 2 ^ 32 := fun a => by
    rw [h.t0, stamp_sub, stamp_toNat_mod]
  have e1 : ∀ a, ((ev.stop.time - stamp a).toNat : ℤ) = (P - a) % 2 ^ 32 := fun a => by
    rw [h.t1, stamp_sub, stamp_toNat_mod]
  have a0 := e0 E
  have b0 := e0 (E - 256)
  have a1 := e1 E
  have b1 := e1 (E - 256)
  by_cases hfired : ev'.stop.state = .fired
  · right
    rcases h1.fired.mp hfired with h2 | ⟨h2, h3⟩
    · exfalso
      rcases h.live with h4 | h4 <;> rw [h4] at h2 <;> cases h2
    · have hP := h.stopHanded h2
      have hgone : ev.start.state = .submitted ∨ ev.start.state = .fired := by
        rcases hst : ev.start.state with _ | _ | _ | _
        · exact absurd hst h.started
        · have := (h.armed hst).2
          rw [h2] at this; cases this
        · exact .inl rfl
        · exact .inr rfl
      refine ⟨hP, ⟨.inr ?_, h1.time.trans h.t1⟩, by omega, h.good, k1 _ (h.played1 h2), s, k0 _ (h.played0 hgone), h.aim⟩
      simp only [eventHasFired, Bool.and_eq_true, decide_eq_true_eq]
      refine ⟨?_, hfired⟩
      rcases hgone with h4 | h4
      · obtain ⟨h5, h6⟩ := h.handed h4
        exact h0.fired.mpr (.inr ⟨h4, by omega⟩)
      · exact h0.fired.mpr (.inl h4)
  · left
    refine ⟨h0.time.trans h.t0, h1.time.trans h.t1, h.good, h.aim, ?_, by omega, fun hu => h.started (h0.unscheduled.mp hu),
      ?_, fun ha => ?_, fun ha => ?_, fun ha => ?_, fun ha => ?_, fun ha => ?_, fun ha => ?_, fun ha => ?_⟩
    · by_contra hc
      refine hfired (h1.fired.mpr (.inr ?_))
      rcases h.live with h4 | h4
      · have := h.stopArmed h4
        omega
      · exact ⟨h4, by omega⟩
    · rcases hst : ev'.stop.state with _ | _ | _ | _
      · have := h1.unscheduled.mp hst
        rcases h.live with h4 | h4 <;> rw [h4] at this <;> cases this
      · exact .inl rfl
      · exact .inr rfl
      · exact absurd hst hfired
    · obtain ⟨h2, h3⟩ := h0.scheduled.mp ha
      obtain ⟨h4, h5⟩ := h.armed h2
      refine ⟨by omega, h1.scheduled.mpr ⟨h5, by omega⟩⟩
    · rcases h0.submitted.mp ha with ⟨h2, h3⟩ | ⟨h2, h3⟩
      · have := (h.armed h2).1
        omega
      · have := h.handed h2
        omega
    · rcases h0.fired.mp ha with h2 | ⟨h2, -⟩
      · have := h.past h2; omega
      · have := h.handed h2; omega
    · obtain ⟨h2, h3⟩ := h1.scheduled.mp ha
      have := h.stopArmed h2
      omega
    · rcases h1.submitted.mp ha with ⟨h2, h3⟩ | ⟨h2, h3⟩
      · have := h.stopArmed h2
        omega
      · have := h.stopHanded h2
        omega
    · by_cases hsub : ev.start.state = .submitted ∨ ev.start.state = .fired
      · exact k0 s (h.played0 hsub)
      · rcases ha with ha | ha
        · rcases h0.submitted.mp ha with ⟨h2, h3⟩ | ⟨h2, h3⟩
          · have := (h.armed h2).1
            exact n0 ha this (by omega) (h0.time.trans h.t0)
          · exact absurd (.inl h2) hsub
        · rcases h0.fired.mp ha with h2 | ⟨h2, -⟩
          · exact absurd (.inr h2) hsub
          · exact absurd (.inl h2) hsub
    · rcases h1.submitted.mp ha with ⟨h2, h3⟩ | ⟨h2, h3⟩
      · have := h.stopArmed h2
        exact n1 ha this (by omega) (h1.time.trans h.t1)
      · exact k1 P (h.played1 h2)

/-- What scheduling for tick `P`, and from tick `P - d` on, in cycle `k` does to an output. -/
structure Moves (W : ℤ → ℤ → Prop) (Q : ℤ → ℤ → ℤ → Prop) (gap dlo dhi E k P d : ℤ) (ev ev' : OEvent) : Prop where
  good : W k P
  d0 : dlo ≤ d
  d1 : d ≤ dhi
  quiet : ∀ {D0 D1 : ℤ → Prop} {X}, Unpended ev X → Unpended ev' X ∨ (E ≤ P - d ∧ Pend W Q D0 D1 E k ev' (P - d) P)
  same : ∀ {D0 D1 : ℤ → Prop} {s P0}, Pend W Q D0 D1 E k ev s P0 → ∃ s' P', Pend W Q D0 D1 E k ev' s' P' ∧ (s < E → s' = s)
  next : ∀ {D0 D1 : ℤ → Prop} {m s P0}, k = m + 1 → Pend W Q D0 D1 E m ev s P0 → Pend W Q D0 D1 E m ev' s P0
  handed : ∀ {D0 D1 : ℤ → Prop} {m s P0}, Pend W Q D0 D1 E m ev s P0 → ev.stop.state = .submitted → ev'.stop.state = .submitted
  fire : ∀ {D0 D1 : ℤ → Prop} {X}, Unpended ev X → E ≤ P - d → gap ≤ P - X → P - X < 2 ^ 32 → Pend W Q D0 D1 E k ev' (P - d) P

/-- Scheduling an output that has fired in this cycle. -/
theorem Moves.over {E k P d X : ℤ} {ev ev' : OEvent} (h : Moves W Q gap dlo dhi E k P d ev ev') (hB : Beats W jit gap top) (hj : jit < dlo)
    (ho : Over W Q D0 D1 E k ev X) : Over W Q D0 D1 E k ev' X := by
  rcases h.quiet (D0 := D0) (D1 := D1) ho.quiet with h1 | ⟨h1, -⟩
  · exact ⟨h1, ho.before, ho.spark⟩
  · exfalso
    have := hB.same ho.spark.1 h.good
    have := ho.before
    have := h.d0
    omega

/-- Scheduling an output of which nothing is known but that nothing is pending: unless it is armed, its last end appears to
have been shortly before. -/
theorem Moves.stale {E k P d X : ℤ} {ev ev' : OEvent} (h : Moves W Q gap dlo dhi E k P d ev ev') (hB : Beats W jit gap top)
    (hq : Unpended ev X) (hE : E ≤ P - d) :
    Pend W Q D0 D1 E k ev' (P - d) P ∨ ∃ X', Unpended ev' X' ∧ X' ≤ P ∧ P - 2 ^ 29 ≤ X' := by
  have hX : Unpended ev (P - (P - X) % 2 ^ 32) := by
    refine ⟨hq.state, hq.time.trans ?_⟩
    apply BitVec.eq_of_toNat_eq
    have h1 := stamp_toNat_mod X
    have h2 := stamp_toNat_mod (P - (P - X) % 2 ^ 32)
    omega
  by_cases hr : (P - X) % 2 ^ 32 ≤ 2 ^ 29
  · rcases h.quiet (D0 := D0) (D1 := D1) hX with h1 | ⟨-, h1⟩
    · exact .inr ⟨_, h1, by omega, by omega⟩
    · exact .inl h1
  · have := hB.order
    have := hB.top1
    exact .inl (h.fire hX hE (by omega) (by omega))

variable [FloatFmt]

/-- What scheduling does, with its times in ticks. -/
def Ticks (env : SchedEnv) (P d : ℤ) (ev ev' : OEvent) : Prop :=
  ev' = ev ∨ ∃ ev1, resetIfFired ev env.d (stamp P) = .ok (some ev1) ∧ (ev' = ev1 ∨
    (tooFar ev1 env.d (stamp P) = .ok false ∧ ev' = scheduleSafely env.earliest ev1 (stamp (P - d)) (stamp P)))

theorem ignition_ticks {env : SchedEnv} {ev ev' : OEvent} {P d : ℤ} {stop dwell : Time} (h : scheduleIgnition env ev = .ok ev')
    (hs : ignitionStop env ev = .ok stop) (hd : timeFromUs env.dwellUs = .ok dwell) (hP : stop = stamp P) (hd' : dwell = stamp d) :
    Ticks env P d ev ev' := by
  rcases scheduleIgnition_cases h with h | ⟨st, dw, ev1, h1, h2, h3, h4⟩
  · exact .inl h
  · right
    rw [hs] at h1
    rw [hd] at h2
    cases h1
    cases h2
    rw [hP] at h3 h4
    rw [hd', stamp_sub] at h4
    exact ⟨ev1, h3, h4.imp id fun h => ⟨h.1, h.2.2⟩⟩

/-- Resetting: an output with nothing pending is reset or left, one with something pending is left. -/
theorem reset_quiet {ev ev1 : OEvent} {d : Decoder} {stop : Time} {X : ℤ} (h : resetIfFired ev d stop = .ok (some ev1)) (hq : Unpended ev X) :
    eventIsUnscheduled ev1 = true ∧ ev1.stop.time = stamp X ∧ ev1.type = ev.type := by
  rcases resetIfFired_cases h with ⟨h1, h2⟩ | ⟨h1, -⟩ | ⟨ev2, h1, -, -, h2⟩
  · cases h1
    rcases hq.state with h3 | h3
    · exact ⟨h3, hq.time, rfl⟩
    · rw [h2] at h3; cases h3
  · cases h1
  · cases h1
    obtain ⟨-, -, rfl⟩ := reset_ok h2
    exact ⟨rfl, hq.time, rfl⟩

theorem reset_pend {ev ev1 : OEvent} {d : Decoder} {stop : Time} {E m s P : ℤ} (h : resetIfFired ev d stop = .ok (some ev1))
    (hp : Pend W Q D0 D1 E m ev s P) : ev1 = ev := by
  rcases resetIfFired_cases h with ⟨h1, h2⟩ | ⟨h1, -⟩ | ⟨ev2, h1, h3, -⟩
  · cases h1; rfl
  · cases h1
  · simp only [eventHasFired, Bool.and_eq_true, decide_eq_true_eq] at h3
    rcases hp.live with h4 | h4 <;> rw [h3.2] at h4 <;> cases h4

/-- Scheduling an output with nothing pending. -/
theorem plan_quiet {env : SchedEnv} {ev ev' : OEvent} {E k P d X : ℤ} (h : Ticks env P d ev ev')
    (pl : PulsePlan W gap dlo dhi E k env P d) (hQ : Q k (P - d) P) (dp : 0 ≤ dlo) (ds : dhi < 2 ^ 28) (hq : Unpended ev X) :
    Unpended ev' X ∨ (E ≤ P - d ∧ Pend W Q D0 D1 E k ev' (P - d) P) := by
  rcases h with rfl | ⟨ev1, h1, rfl | ⟨-, rfl⟩⟩
  · exact .inl hq
  · obtain ⟨a, b, -⟩ := reset_quiet h1 hq
    exact .inl ⟨.inl a, b⟩
  · obtain ⟨a, b, -⟩ := reset_quiet h1 hq
    unfold scheduleSafely
    rw [pl.earliest]
    rcases arm_fresh (Q := Q) (ev := setPins ev1) (D0 := D0) (D1 := D1) a b pl.good hQ pl.lo pl.hi pl.d0 pl.d1 dp ds with ⟨-, h2, h3⟩ | h2
    · left; rw [h2]; exact h3
    · exact .inr h2

/-- Scheduling an output that is pending, for the same cycle. -/
theorem plan_same {env : SchedEnv} {ev ev' : OEvent} {E k P d s P0 : ℤ} (h : Ticks env P d ev ev')
    (pl : PulsePlan W gap dlo dhi E k env P d)
    (again : ∀ ev1, ev1.type = ev.type → Pend W Q D0 D1 E k ev1 s P0 →
      ∃ s' P', Pend W Q D0 D1 E k (scheduleCrit (stamp E) ev1 (stamp (P - d)) (stamp P)) s' P' ∧ (s < E → s' = s))
    (hp : Pend W Q D0 D1 E k ev s P0) : ∃ s' P', Pend W Q D0 D1 E k ev' s' P' ∧ (s < E → s' = s) := by
  rcases h with rfl | ⟨ev1, h1, h2⟩
  · exact ⟨s, P0, hp, fun _ => rfl⟩
  · obtain rfl := reset_pend h1 hp
    rcases h2 with rfl | ⟨-, rfl⟩
    · exact ⟨s, P0, hp, fun _ => rfl⟩
    · unfold scheduleSafely
      rw [pl.earliest]
      exact again _ rfl (pend_pins hp)

/-- Scheduling an output that is pending, for the next cycle: it is left. -/
theorem plan_next {env : SchedEnv} {ev ev' : OEvent} {E m P d s P0 : ℤ} (h : Ticks env P d ev ev')
    (pl : PulsePlan W gap dlo dhi E (m + 1) env P d) (hB : Beats W jit gap top)
    (hp : Pend W Q D0 D1 E m ev s P0) : Pend W Q D0 D1 E m ev' s P0 := by
  rcases h with rfl | ⟨ev1, h1, h2⟩
  · exact hp
  · obtain rfl := reset_pend h1 hp
    rcases h2 with rfl | ⟨hf, rfl⟩
    · exact hp
    · rcases hp.live with hl | hl
      · exfalso
        have g1 := hB.next hp.good pl.good
        have g2 := hB.within hp.good pl.good
        have g3 := hB.top1
        have h0 := hB.gap0
        unfold tooFar at hf
        have hlt : timeBefore (stamp P0) (stamp P) = true → False := by
          intro hlt
          rw [hp.t1, if_pos ⟨hl, hlt⟩] at hf
          rw [bind_eq_ok] at hf
          obtain ⟨lim, hlim, hf⟩ := hf
          have h3 := pl.far lim hlim
          have h4 : decide (lim.toNat < (timeDiff (stamp P) (stamp P0)).toNat) = false := Except.ok.inj hf
          rw [decide_eq_false_iff_not] at h4
          apply h4
          have : ((timeDiff (stamp P) (stamp P0)).toNat : ℤ) = P - P0 := by
            unfold timeDiff
            rw [stamp_sub]
            exact stamp_toNat (by omega) (by omega)
          omega
        apply hlt
        rw [before_stamp (by omega) (by omega), decide_eq_true_eq]
        by_contra hc
        omega
      · have := arm_handed (ev := setPins ev1) (x := stamp (P - d)) (y := stamp P) (pend_pins hp) hl
        unfold scheduleSafely
        rw [pl.earliest, this]
        exact pend_pins hp

/-- An output whose last end is long past is reset. -/
theorem plan_reset {env : SchedEnv} {ev : OEvent} {E k P d X : ℤ} {r : Option OEvent} (hr : resetIfFired ev env.d (stamp P) = .ok r)
    (pl : PulsePlan W gap dlo dhi E k env P d) (hq : Unpended ev X) (hX : gap ≤ P - X) (hX' : P - X < 2 ^ 32) :
    ∃ ev1, r = some ev1 ∧ eventIsUnscheduled ev1 = true ∧ ev1.stop.time = stamp X := by
  rcases resetIfFired_cases hr with ⟨rfl, h1⟩ | ⟨-, h1, h2⟩ | ⟨ev1, rfl, h1⟩
  · obtain ⟨a, b, -⟩ := reset_quiet hr hq
    exact ⟨_, rfl, a, b⟩
  · exfalso
    unfold tooSoon at h2
    rw [bind_eq_ok] at h2
    obtain ⟨lim, h3, h2⟩ := h2
    have h4 := pl.soon lim h3
    have h2 := Except.ok.inj h2
    rw [decide_eq_true_eq, hq.time] at h2
    unfold timeDiff at h2
    rw [stamp_sub] at h2
    have := stamp_toNat_mod (P - X)
    omega
  · obtain ⟨a, b, -⟩ := reset_quiet hr hq
    exact ⟨_, rfl, a, b⟩

/-- An output at rest is not too far off. -/
theorem rest_not_far {ev : OEvent} {d : Decoder} {t : Time} (hu : eventIsUnscheduled ev = true) : tooFar ev d t = .ok false := by
  unfold tooFar
  rw [if_neg]
  · rfl
  · simp only [eventIsUnscheduled, Bool.and_eq_true, decide_eq_true_eq] at hu
    rintro ⟨h1, -⟩
    rw [hu.2] at h1; cases h1

/-- Scheduling an output whose last end is long past, when there is still time: it is armed. -/
theorem plan_fire {env : SchedEnv} {ev ev' : OEvent} {E k P d X : ℤ} {stop dwell : Time} (h : scheduleIgnition env ev = .ok ev')
    (hs : ignitionStop env ev = .ok stop) (hd : timeFromUs env.dwellUs = .ok dwell) (hP : stop = stamp P) (hd' : dwell = stamp d)
    (pl : Plan W gap dlo dhi E k env P d) (dp : 0 ≤ dlo) (ds : dhi < 2 ^ 28) (hq : Unpended ev X) (hE : E ≤ P - d)
    (hX : gap ≤ P - X) (hX' : P - X < 2 ^ 32) : Pend W (SparkAim W dlo dhi) D0 D1 E k ev' (P - d) P := by
  have p0 := pl.d0
  have p1 := pl.d1
  subst hP
  subst hd'
  have hreset : ∃ ev1, resetIfFired ev env.d (stamp P) = .ok (some ev1) ∧ eventIsUnscheduled ev1 = true ∧ ev1.stop.time = stamp X := by
    have hr : ∃ r, resetIfFired ev env.d (stamp P) = .ok r := by
      unfold scheduleIgnition at h
      rw [if_neg (by rintro (h | h); exacts [pl.running.1 h, by rw [pl.running.2] at h; cases h])] at h
      simp only [bind_eq_ok] at h
      obtain ⟨st, h1, dw, h2, r, h3, h4⟩ := h
      rw [hs] at h1
      cases h1
      exact ⟨r, h3⟩
    obtain ⟨r, hr⟩ := hr
    obtain ⟨ev1, rfl, h1⟩ := plan_reset hr pl.toPulsePlan hq hX hX'
    exact ⟨ev1, hr, h1⟩
  obtain ⟨ev1, hr, hu, ht⟩ := hreset
  rw [scheduleIgnition_eq pl.running.1 pl.running.2 hs hd hr] at h
  rw [stamp_sub] at h
  have h : ignitionArm env ev1 (stamp (P - d)) (stamp P) = .ok ev' := h
  unfold ignitionArm at h
  have hnf : tooFar ev1 env.d (stamp P) = .ok false := rest_not_far hu
  rw [hnf, except_bind_ok, if_neg (by simp), bind_eq_ok] at h
  obtain ⟨b, h1, h⟩ := h
  have hb : b = false := by
    unfold tooLittle at h1
    rw [bind_eq_ok] at h1
    obtain ⟨lim, h3, h2⟩ := h1
    have h4 := pl.little lim h3
    rw [← Except.ok.inj h2, decide_eq_false_iff_not, ht]
    unfold timeDiff
    rw [stamp_sub]
    have := stamp_toNat_mod (P - d - X)
    omega
  subst hb
  rw [if_neg (by simp)] at h
  rw [← Except.ok.inj h]
  unfold scheduleSafely
  rw [pl.earliest]
  rcases arm_fresh (Q := SparkAim W dlo dhi) (ev := setPins ev1) (D0 := D0) (D1 := D1) hu ht pl.good ⟨P, pl.good, by omega, by omega⟩ pl.lo pl.hi p0 p1 dp ds with ⟨h2, -⟩ | ⟨-, h2⟩
  · omega
  · exact h2

/-- Scheduling leaves an end that has been handed over. -/
theorem plan_handed {env : SchedEnv} {ev ev' : OEvent} {E k P d m s P0 : ℤ} (h : Ticks env P d ev ev')
    (pl : PulsePlan W gap dlo dhi E k env P d)
    (hp : Pend W Q D0 D1 E m ev s P0) (hl : ev.stop.state = .submitted) : ev'.stop.state = .submitted := by
  rcases h with rfl | ⟨ev1, h1, h2⟩
  · exact hl
  · obtain rfl := reset_pend h1 hp
    rcases h2 with rfl | ⟨-, rfl⟩
    · exact hl
    · unfold scheduleSafely
      rw [pl.earliest, arm_handed (ev := setPins ev1) (pend_pins hp) hl]
      exact hl

theorem ignition_moves {env : SchedEnv} {ev ev' : OEvent} {E k P d : ℤ} {stop dwell : Time} (h : scheduleIgnition env ev = .ok ev')
    (hs : ignitionStop env ev = .ok stop) (hd : timeFromUs env.dwellUs = .ok dwell) (hP : stop = stamp P) (hd' : dwell = stamp d)
    (pl : Plan W gap dlo dhi E k env P d) (hB : Beats W jit gap top) (hj : jit < dlo) (ds : dhi < 2 ^ 28) (ht : ev.type = .ignition) :
    Moves W (SparkAim W dlo dhi) gap dlo dhi E k P d ev ev' := by
  have j0 := hB.jit0
  have p0 := pl.d0
  have p1 := pl.d1
  have ticks := ignition_ticks h hs hd hP hd'
  refine ⟨pl.good, p0, p1, fun hq => plan_quiet ticks pl.toPulsePlan ⟨P, pl.good, by omega, by omega⟩ (by omega) ds hq,
    fun hq => plan_same ticks pl.toPulsePlan (fun ev1 h1 h2 => arm_again hB hj (h1.trans ht) h2 pl.good pl.lo pl.hi p0 p1 ds) hq,
    fun hk hq => ?_, fun hq hl => plan_handed ticks pl.toPulsePlan hq hl,
    fun hq hE hX hX' => plan_fire h hs hd hP hd' pl (by omega) ds hq hE hX hX'⟩
  subst hk
  exact plan_next ticks pl.toPulsePlan hB hq

end Verif
