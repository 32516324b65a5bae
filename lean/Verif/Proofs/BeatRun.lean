/-
One output along a run: it fires once in every cycle.
-/
import Verif.Proofs.BeatStep

namespace Verif

/-- The teeth and the cycles.  `K j` is the cycle for which tooth `j` schedules.  Tooth `J m` is one that comes when all of
cycle `m - 1` is over, with enough time left before the coil is to be charged for cycle `m`. -/
structure BeatPlan (W : ℤ → ℤ → Prop) (jit gap top dlo dhi late : ℤ) (T : ℕ → ℤ) (K : ℕ → ℤ) (J : ℤ → ℕ) (m0 : ℤ) : Prop where
  beats : Beats W jit gap top
  dwell0 : jit < dlo
  dwell1 : dlo ≤ dhi
  dwell2 : dhi < 2 ^ 28
  mono : ∀ {j j'}, j ≤ j' → K j ≤ K j'
  safe : ∀ m, m0 ≤ m → K (J m) = m
  clear : ∀ m, m0 ≤ m → ∀ t, W (m - 1) t → t ≤ T (J m) - 256
  room : ∀ m, m0 ≤ m → ∀ t, W m t → T (J m) + late + 256 + dhi ≤ t

variable {W : ℤ → ℤ → Prop} {Q : ℤ → ℤ → ℤ → Prop} {jit gap top dlo dhi late : ℤ} {T : ℕ → ℤ} {K : ℕ → ℤ} {J : ℤ → ℕ} {m0 : ℤ}

theorem BeatPlan.later (hp : BeatPlan W jit gap top dlo dhi late T K J m0) {m m' : ℤ} (h0 : m0 ≤ m) (h : m < m') : J m < J m' := by
  by_contra hc
  have h1 := hp.mono (not_lt.mp hc)
  rw [hp.safe m h0, hp.safe m' (by omega)] at h1
  omega

/-- Nothing is pending after cycle `m`.  From cycle `m0` on the last end appears to have been not after this cycle's; later
than that the output has fired in this cycle. -/
structure Rest (W : ℤ → ℤ → Prop) (Q : ℤ → ℤ → ℤ → Prop) (D0 D1 : ℤ → Prop) (m0 E m : ℤ) (ev : OEvent) (X : ℤ) : Prop where
  quiet : Unpended ev X
  idle : m0 ≤ m → ∃ t, W m t ∧ X ≤ t ∧ t - 2 ^ 29 ≤ X
  over : m0 < m → X < E ∧ Sparked W Q D0 D1 m X

/-- The output between the turns of teeth `J m` and `J (m + 1)`, `k` being the cycle that is scheduled for. -/
def BeatInv (W : ℤ → ℤ → Prop) (Q : ℤ → ℤ → ℤ → Prop) (D0 D1 : ℤ → Prop) (m0 E m k : ℤ) (ev : OEvent) : Prop :=
  (∃ s P, Pend W Q D0 D1 E m ev s P) ∨ (∃ X, Rest W Q D0 D1 m0 E m ev X) ∨
    ((∃ s P, Pend W Q D0 D1 E (m + 1) ev s P) ∧ k = m + 1 ∧ (m0 < m → ∃ X, Sparked W Q D0 D1 m X))

variable {D0 D1 D0' D1' : ℤ → Prop}

theorem Rest.mono {E m X : ℤ} {ev : OEvent} (h : Rest W Q D0 D1 m0 E m ev X)
    (h0 : ∀ t, D0 t → D0' t) (h1 : ∀ t, D1 t → D1' t) : Rest W Q D0' D1' m0 E m ev X :=
  ⟨h.quiet, h.idle, fun hm => ⟨(h.over hm).1, (h.over hm).2.mono h0 h1⟩⟩

theorem BeatInv.mono {E m k : ℤ} {ev : OEvent} (h : BeatInv W Q D0 D1 m0 E m k ev)
    (h0 : ∀ t, D0 t → D0' t) (h1 : ∀ t, D1 t → D1' t) : BeatInv W Q D0' D1' m0 E m k ev := by
  rcases h with ⟨s, P, h⟩ | ⟨X, h⟩ | ⟨⟨s, P, h⟩, hk, hf⟩
  · exact .inl ⟨s, P, h.mono h0 h1⟩
  · exact .inr (.inl ⟨X, h.mono h0 h1⟩)
  · refine .inr (.inr ⟨⟨s, P, h.mono h0 h1⟩, hk, fun hm => ?_⟩)
    obtain ⟨X, hX⟩ := hf hm
    exact ⟨X, hX.mono h0 h1⟩

theorem rest_of_over {E m X : ℤ} {ev : OEvent} (h : Over W Q D0 D1 E m ev X) : Rest W Q D0 D1 m0 E m ev X :=
  ⟨h.quiet, fun _ => ⟨X, h.spark.1, le_refl X, by omega⟩, fun _ => ⟨h.before, h.spark⟩⟩

/-- A buffer swap. -/
theorem beatInv_swap {E m k : ℤ} {ev ev' : OEvent} (hp : BeatPlan W jit gap top dlo dhi late T K J m0) (hq : AimOk W Q)
    (hm0 : m0 - 1 ≤ m) (hE : E ≤ T (J (m + 1)) + late + 256) (h : BeatInv W Q D0 D1 m0 E m k ev)
    (h0 : SwapEdge (stamp E) (stamp (E - 256)) ev.start ev'.start) (h1 : SwapEdge (stamp E) (stamp (E - 256)) ev.stop ev'.stop)
    (k0 : ∀ t, D0 t → D0' t) (k1 : ∀ t, D1 t → D1' t)
    (n0 : ∀ s, ev'.start.state = .submitted → E ≤ s → s < E + 128 → ev'.start.time = stamp s → D0' s)
    (n1 : ∀ P, ev'.stop.state = .submitted → E ≤ P → P < E + 128 → ev'.stop.time = stamp P → D1' P) :
    BeatInv W Q D0' D1' m0 (E + 128) m k ev' := by
  have hB := hp.beats
  have hd := hp.dwell2
  have hj := hB.jit1
  have go : ∀ {m s P : ℤ}, Pend W Q D0 D1 E m ev s P →
      Pend W Q D0' D1' (E + 128) m ev' s P ∨ (P < E ∧ Over W Q D0' D1' (E + 128) m ev' P) := by
    intro m s P h
    obtain ⟨a1, a2⟩ := hq h.good h.aim
    exact pend_swap h a2 a1 h0 h1 k0 k1 (n0 s) (n1 P)
  rcases h with ⟨s, P, h⟩ | ⟨X, h⟩ | ⟨⟨s, P, h⟩, hk, hf⟩
  · rcases go h with h | ⟨-, h⟩
    · exact .inl ⟨s, P, h⟩
    · exact .inr (.inl ⟨P, rest_of_over h⟩)
  · refine .inr (.inl ⟨X, quiet_swap h.quiet h0 h1, h.idle, fun hm => ?_⟩)
    obtain ⟨a, b⟩ := h.over hm
    exact ⟨by omega, b.mono k0 k1⟩
  · have hf' : m0 < m → ∃ X, Sparked W Q D0' D1' m X := fun hm => by
      obtain ⟨X, hX⟩ := hf hm
      exact ⟨X, hX.mono k0 k1⟩
    have hroom := hp.room (m + 1) (by omega) P h.good
    have := hp.dwell0
    have := hp.dwell1
    have := hB.jit0
    rcases go h with h | ⟨hP, h⟩
    · exact .inr (.inr ⟨⟨s, P, h⟩, hk, hf'⟩)
    · omega

variable [FloatFmt]

/-- Whatever schedules output `ev` in state `e` at tick `n` schedules it for cycle `k`. -/
structure Aimed (W : ℤ → ℤ → Prop) (gap dlo dhi E k : ℤ) (e : Engine) (ev : OEvent) : Prop where
  running : e.cfg.decoder.rpm ≠ 0 ∧ e.cfg.decoder.valid = true
  plan : ∀ env stop dwell, EnvOf e env → env.minFireUs = e.cfg.ignition.minFireUs → ignitionStop env ev = .ok stop →
    timeFromUs env.dwellUs = .ok dwell → ∃ P d, stop = stamp P ∧ dwell = stamp d ∧ Plan W gap dlo dhi E k env P d

theorem spark_plan {E k : ℤ} {e : Engine} {ev ev' : OEvent} (ha : Aimed W gap dlo dhi E k e ev) (hi : ev.type = .ignition) (hm : OutMove e ev ev') :
    ∃ env stop dwell P d, scheduleIgnition env ev = .ok ev' ∧ ignitionStop env ev = .ok stop ∧ timeFromUs env.dwellUs = .ok dwell ∧
      stop = stamp P ∧ dwell = stamp d ∧ Plan W gap dlo dhi E k env P d := by
  obtain ⟨env, h1, h2, ⟨-, h3⟩ | ⟨h3, -⟩⟩ := hm
  swap
  · rw [hi] at h3; cases h3
  have h4 := h3
  unfold scheduleIgnition at h4
  rw [if_neg (by
    rw [h1.d]
    rintro (h | h)
    · exact ha.running.1 h
    · rw [ha.running.2] at h; cases h)] at h4
  simp only [bind_eq_ok] at h4
  obtain ⟨stop, a1, dwell, a2, -⟩ := h4
  obtain ⟨P, d, b1, b2, b3⟩ := ha.plan env stop dwell h1 h2 a1 a2
  exact ⟨env, stop, dwell, P, d, h3, a1, a2, b1, b2, b3⟩

theorem aimed_moves {E k : ℤ} {e : Engine} {ev : OEvent} (hB : Beats W jit gap top) (hj : jit < dlo) (ds : dhi < 2 ^ 28)
    (hi : ev.type = .ignition) (ha : Aimed W gap dlo dhi E k e ev) :
    ∀ ev', OutMove e ev ev' → ∃ P d, Moves W (SparkAim W dlo dhi) gap dlo dhi E k P d ev ev' := by
  intro ev' hm
  obtain ⟨env, stop, dwell, P, d, h1, h2, h3, h4, h5, pl⟩ := spark_plan ha hi hm
  exact ⟨P, d, ignition_moves h1 h2 h3 h4 h5 pl hB hj ds hi⟩

omit [FloatFmt] in
/-- Scheduling between the turns of teeth `J m` and `J (m + 1)`. -/
theorem beatInv_move {E m k P d : ℤ} {ev ev' : OEvent} (hp : BeatPlan W jit gap top dlo dhi late T K J m0)
    (h : BeatInv W Q D0 D1 m0 E m k ev) (hk : k = m ∨ k = m + 1)
    (mv : Moves W Q gap dlo dhi E k P d ev ev') : BeatInv W Q D0 D1 m0 E m k ev' := by
  have hB := hp.beats
  rcases h with ⟨s, P0, h⟩ | ⟨X, h⟩ | ⟨⟨s, P0, h⟩, hk', hf⟩
  · left
    rcases hk with rfl | rfl
    · obtain ⟨s', P', h6, -⟩ := mv.same h
      exact ⟨s', P', h6⟩
    · exact ⟨s, P0, mv.next rfl h⟩
  · by_cases hc : k = m ∧ m0 < m
    · obtain ⟨rfl, hm⟩ := hc
      obtain ⟨a, b⟩ := h.over hm
      exact .inr (.inl ⟨X, rest_of_over (mv.over hB hp.dwell0 ⟨h.quiet, a, b⟩)⟩)
    · rcases mv.quiet (D0 := D0) (D1 := D1) h.quiet with h6 | ⟨-, h6⟩
      · exact .inr (.inl ⟨X, h6, h.idle, h.over⟩)
      · rcases hk with rfl | rfl
        · exact .inl ⟨_, _, h6⟩
        · exact .inr (.inr ⟨⟨_, _, h6⟩, rfl, fun hm => ⟨X, (h.over hm).2⟩⟩)
  · subst hk'
    obtain ⟨s', P', h6, -⟩ := mv.same h
    exact .inr (.inr ⟨⟨s', P', h6⟩, rfl, hf⟩)

omit [FloatFmt] in
/-- The turn of tooth `J (m + 1)`. -/
theorem beatInv_turn {E m P d : ℤ} {ev ev' : OEvent} (hp : BeatPlan W jit gap top dlo dhi late T K J m0) (hm0 : m0 - 1 ≤ m)
    (h : BeatInv W Q D0 D1 m0 E m (m + 1) ev) (h1 : T (J (m + 1)) < E) (h2 : E ≤ T (J (m + 1)) + late + 256)
    (mv : Moves W Q gap dlo dhi E (m + 1) P d ev ev') :
    (∀ k, BeatInv W Q D0 D1 m0 E (m + 1) k ev') ∧ (m0 < m → ∃ X, Sparked W Q D0 D1 m X) := by
  have hB := hp.beats
  have hroom := hp.room (m + 1) (by omega) P mv.good
  have hd1 := mv.d1
  rcases h with ⟨s, P0, h⟩ | ⟨X, h⟩ | ⟨⟨s, P0, h⟩, hk', hf⟩
  · exfalso
    have h3 := hp.clear (m + 1) (by omega) P0 (by rw [add_sub_cancel_right]; exact h.good)
    have := h.lo
    omega
  · refine ⟨fun k => ?_, fun hm => ⟨X, (h.over hm).2⟩⟩
    by_cases hc : m0 ≤ m
    · obtain ⟨t, a1, a2, a3⟩ := h.idle hc
      have b1 := hB.next a1 mv.good
      have b2 := hB.within a1 mv.good
      have b3 := hB.top1
      exact .inl ⟨_, _, mv.fire h.quiet (by omega) (by omega) (by omega)⟩
    · rcases mv.stale (D0 := D0) (D1 := D1) hB h.quiet (by omega) with h6 | ⟨X', h6, h7, h8⟩
      · exact .inl ⟨_, _, h6⟩
      · exact .inr (.inl ⟨X', h6, fun _ => ⟨P, mv.good, h7, h8⟩, fun hm => by omega⟩)
  · obtain ⟨s', P', h6, -⟩ := mv.same h
    exact ⟨fun k => .inl ⟨s', P', h6⟩, hf⟩

/-- The state of output `i` between the turns of teeth `J m` and `J (m + 1)`, tooth `k` being the last one decoded. -/
structure RunInv (W : ℤ → ℤ → Prop) (Q : ℤ → ℤ → ℤ → Prop) (K : ℕ → ℤ) (J : ℤ → ℕ) (m0 : ℤ) (i : Fin maxEvents) (D0 D1 : ℤ → Prop) (E : ℤ) (e : Engine)
    (k : ℕ) (m : ℤ) : Prop where
  decoded : Decoded (k + 1) e
  start : m0 - 1 ≤ m
  reached : m0 ≤ m → J m < k ∨ (J m = k ∧ TurnOver i e)
  notyet : k < J (m + 1) ∨ (k = J (m + 1) ∧ ¬ TurnOver i e)
  low : m ≤ K k
  past : ∀ m', m0 < m' → m' < m → ∃ X, Sparked W Q D0 D1 m' X
  inv : BeatInv W Q D0 D1 m0 E m (K k) (e.cfg.events i)

/-- What is assumed of every state of the run. -/
structure RunHyp (W : ℤ → ℤ → Prop) (Q : ℤ → ℤ → ℤ → Prop) (gap dlo dhi late : ℤ) (T : ℕ → ℤ) (K : ℕ → ℤ) (i : Fin maxEvents) (n E : ℤ) (e : Engine) : Prop where
  cut : NoCut e
  handled : HandledBy T late n e
  valid : e.cfg.decoder.valid = true
  aimed : ∀ k, Decoded (k + 1) e → T k ≤ n ∧
    ∀ ev', OutMove e (e.cfg.events i) ev' → ∃ P d, Moves W Q gap dlo dhi E (K k) P d (e.cfg.events i) ev'

theorem RunInv.high (hp : BeatPlan W jit gap top dlo dhi late T K J m0) {i : Fin maxEvents} {E : ℤ} {e : Engine} {k : ℕ} {m : ℤ}
    (h : RunInv W Q K J m0 i D0 D1 E e k m) : K k ≤ m + 1 := by
  have h1 := h.start
  rw [← hp.safe (m + 1) (by omega)]
  refine hp.mono ?_
  rcases h.notyet with h | ⟨h, -⟩ <;> omega

theorem RunInv.early (hp : BeatPlan W jit gap top dlo dhi late T K J m0) {i : Fin maxEvents} {n E : ℤ} {e : Engine} {k : ℕ} {m : ℤ}
    (h : RunInv W Q K J m0 i D0 D1 E e k m) (hh : HandledBy T late n e) : n < T (J (m + 1)) + late := by
  by_contra hc
  rcases h.notyet with h1 | ⟨h1, h2⟩
  · have hg := h.decoded.given
    rcases hh _ (not_lt.mp hc) with h3 | ⟨h3, h4⟩
    · omega
    · have hnr : ∀ a b, e.pc ≠ .record a b := by
        rcases h4 with h4 | h4 <;> rw [h4] <;> exact fun _ _ h => nomatch h
      have := h.decoded.2 hnr
      omega
  · have hpc : ∃ i', e.pc = .loop i' := by
      by_contra hn
      exact h2 fun i' hi => absurd ⟨i', hi⟩ hn
    obtain ⟨i', hpc⟩ := hpc
    have hnr : ∀ a b, e.pc ≠ .record a b := by rw [hpc]; exact fun _ _ h => nomatch h
    have hl := h.decoded.2 hnr
    rcases hh _ (not_lt.mp hc) with h3 | ⟨h3, h4⟩
    · omega
    · rw [hpc] at h4
      rcases h4 with h4 | h4 <;> cases h4

theorem RunInv.mono {i : Fin maxEvents} {E : ℤ} {e : Engine} {k : ℕ} {m : ℤ}
    (h : RunInv W Q K J m0 i D0 D1 E e k m) (h0 : ∀ t, D0 t → D0' t) (h1 : ∀ t, D1 t → D1' t) :
    RunInv W Q K J m0 i D0' D1' E e k m :=
  { h with
    past := fun m' a b => by
      obtain ⟨X, hX⟩ := h.past m' a b
      exact ⟨X, hX.mono h0 h1⟩
    inv := h.inv.mono h0 h1 }

/-- One step of the run. -/
theorem runInv_step (hp : BeatPlan W jit gap top dlo dhi late T K J m0) {i : Fin maxEvents} {n E : ℤ} {e e' : Engine} {a : EngAct} {k : ℕ} {m : ℤ}
    (h : RunInv W Q K J m0 i D0 D1 E e k m) (hh : RunHyp W Q gap dlo dhi late T K i n E e) (hc : ClockInv n E e)
    (hns : ∀ now, a ≠ .swap now) (hs : engStep e a = .ok e') (hv' : e'.cfg.decoder.valid = true)
    (ht : (e.cfg.events i).type ≠ .disabled) : ∃ k' m', RunInv W Q K J m0 i D0 D1 E e' k' m' := by
  have hK := h.high hp
  have hlow := h.low
  have hst := h.start
  have hearly := h.early hp hh.handled
  have hc1 := hc.after
  have hc2 := hc.before
  obtain ⟨hT, hA⟩ := hh.aimed k h.decoded
  rcases step_beat hns hs hh.valid hv' hh.cut ht h.decoded with b | ⟨b1, b2, b3, b4⟩
  · by_cases hny : k < J (m + 1) ∨ (k = J (m + 1) ∧ ¬ TurnOver i e')
    · refine ⟨k, m, b.decoded, hst, fun h0 => ?_, hny, hlow, h.past, ?_⟩
      · rcases h.reached h0 with h1 | ⟨h1, h2⟩
        · exact .inl h1
        · exact .inr ⟨h1, b.over h2⟩
      · rcases b.move with b1 | b1
        · rw [b1]; exact h.inv
        · obtain ⟨P, d, mv⟩ := hA _ b1
          exact beatInv_move hp h.inv (by omega) mv
    · push_neg at hny
      obtain ⟨hn1, hn2⟩ := hny
      have hkJ : k = J (m + 1) ∧ ¬ TurnOver i e := by
        rcases h.notyet with h1 | h1
        · omega
        · exact h1
      have hto := hn2 hkJ.1
      have hsp : OutMove e (e.cfg.events i) (e'.cfg.events i) := by
        rcases b.turn hto with h1 | h1
        · exact absurd h1 hkJ.2
        · exact h1
      have hKk : K k = m + 1 := by rw [hkJ.1]; exact hp.safe _ (by omega)
      have hinv := h.inv
      rw [hKk] at hinv hA
      have hTE : T (J (m + 1)) < E := by rw [← hkJ.1]; omega
      obtain ⟨P, d, mv⟩ := hA _ hsp
      obtain ⟨c1, c2⟩ := beatInv_turn hp hst hinv hTE (by omega) mv
      refine ⟨k, m + 1, b.decoded, by omega, fun _ => .inr ⟨hkJ.1.symm, hto⟩, .inl ?_, by omega, ?_, c1 _⟩
      · rw [hkJ.1]
        exact hp.later (by omega) (by omega)
      · intro m' h1 h2
        by_cases h3 : m' < m
        · exact h.past m' h1 h3
        · obtain rfl : m' = m := by omega
          exact c2 h1
  · have hlt : k < J (m + 1) := by
      rcases h.notyet with h1 | ⟨-, h1⟩
      · exact h1
      · exact absurd b3 h1
    have hmono : K k ≤ K (k + 1) := hp.mono (Nat.le_succ k)
    have htop : K (k + 1) ≤ m + 1 := by
      rw [← hp.safe (m + 1) (by omega)]
      exact hp.mono (by omega)
    refine ⟨k + 1, m, b1, hst, fun h0 => ?_, ?_, by omega, h.past, ?_⟩
    · rcases h.reached h0 with h1 | ⟨h1, -⟩ <;> exact .inl (by omega)
    · rcases Nat.lt_or_ge (k + 1) (J (m + 1)) with h1 | h1
      · exact .inl h1
      · exact .inr ⟨by omega, b4⟩
    · rw [b2]
      rcases h.inv with h1 | h1 | ⟨h1, h2, h3⟩
      · exact .inl h1
      · exact .inr (.inl h1)
      · exact .inr (.inr ⟨h1, by omega, h3⟩)

/-- A handed-over edge is one that a buffer is to drive. -/
theorem edge_driven {e0 e : Engine} {E s : ℤ} (hD : DmaReach e.dma) (early : e.dma.earliest = stamp E) {i : Fin maxEvents}
    (hst : (e.cfg.events i).pin = (e0.cfg.events i).pin ∧ (e.cfg.events i).inverted = (e0.cfg.events i).inverted) {p : Fin 16}
    (hp : ((e0.cfg.events i).pin.setWidth 8).toNat = p) (hs : (e.cfg.events i).stop.state = .submitted)
    (ht : (e.cfg.events i).stop.time = stamp s) (h1 : E - 128 ≤ s) (h2 : s < E) :
    InBuffer E e (!e.cur) s ∧ Drives (e.buf (!e.cur)) (stamp s) p (e0.cfg.events i).inverted := by
  have I := dma_reach_inv hD
  refine ⟨?_, ?_⟩
  · unfold InBuffer
    rw [if_neg (by cases e.cur <;> decide)]
    omega
  · refine (C19_exact hD (!e.cur) (stamp s) p _).mpr ⟨?_, i, true, hs, ht, ?_, ?_⟩
    · exact swap_window hD early h1 h2
    · have := I.pins i true (.inr hs)
      change (setPins (e.cfg.events i)).edge true = (e.cfg.events i).edge true at this
      change ((e.cfg.events i).edge true).pin.toNat = _
      rw [← this, ← hp, ← hst.1]
      rfl
    · have := I.pins i true (.inr hs)
      change (setPins (e.cfg.events i)).edge true = (e.cfg.events i).edge true at this
      change ((e.cfg.events i).edge true).val = _
      rw [← this, ← hst.2]
      rfl

omit [FloatFmt] in
theorem swap_keeps {e : Engine} (now : Time) : (engSwap e now).pc = e.pc ∧ (engSwap e now).given = e.given ∧
    (engSwap e now).cfg.decoder = e.cfg.decoder := by
  unfold engSwap
  generalize bufferSwap e.dma now = s
  exact ⟨rfl, rfl, rfl⟩

/-- The invariant along a run. -/
theorem beat_run (hp : BeatPlan W jit gap top dlo dhi late T K J m0) (hq : AimOk W Q) {A : ℤ → EngAct → Prop} {G : ℤ → Engine → Prop} {eb e1 e : Engine}
    {n1 E1 n E : ℤ} {i : Fin maxEvents} {k1 : ℕ} (hb : EngBoot eb) (h1 : EngTimed A G eb n1 E1 e1)
    (hall : ∀ n E e, EngOn A G n1 E1 e1 n E e → RunHyp W Q gap dlo dhi late T K i n E e)
    (hk : Decoded (k1 + 1) e1) (hJ : k1 < J m0) (hK : m0 - 1 ≤ K k1) (hty : (eb.cfg.events i).type ≠ .disabled)
    (quiet : eventIsUnscheduled (e1.cfg.events i) = true ∨ eventHasFired (e1.cfg.events i) = true)
    {p : Fin 16} (hpin : ((eb.cfg.events i).pin.setWidth 8).toNat = p) (h : EngOn A G n1 E1 e1 n E e) :
    ∃ k m, RunInv W Q K J m0 i (DrivenOn A G n1 E1 e1 n E e p (!(eb.cfg.events i).inverted))
      (DrivenOn A G n1 E1 e1 n E e p (eb.cfg.events i).inverted) E e k m := by
  induction h with
  | refl =>
      refine ⟨k1, m0 - 1, hk, le_refl _, fun h => by omega, .inl ?_, hK, fun m' a b => by omega, .inr (.inl ⟨((e1.cfg.events i).stop.time).toNat, ⟨quiet, ?_⟩,
        fun h => by omega, fun h => by omega⟩)⟩
      · rw [sub_add_cancel]; exact hJ
      · apply BitVec.eq_of_toNat_eq
        have := stamp_toNat_mod ((e1.cfg.events i).stop.time.toNat)
        have := (e1.cfg.events i).stop.time.isLt
        omega
  | @step n n' E e e' a hr a1 a2 a3 a4 a5 a6 ih =>
      obtain ⟨k, m, ih⟩ := ih
      obtain ⟨-, ci, -⟩ := clock_reach hb .boot (timed_clock (on_timed h1 hr))
      have hst := clock_static (timed_clock (on_timed h1 hr)) i
      have ext : ∀ v t, DrivenOn A G n1 E1 e1 n E e p v t → DrivenOn A G n1 E1 e1 n' E e' p v t :=
        fun v t ⟨x1, x2, x3, b, y1, y2, y3⟩ => ⟨x1, x2, x3, b, y1, .step a y2 a1 a2 a3 a4 a5 a6, y3⟩
      have ih' := ih.mono (ext _) (ext _)
      exact runInv_step hp ih' (hall _ _ _ hr) ci a3 a5 (hall _ _ _ (.step a hr a1 a2 a3 a4 a5 a6)).valid (by rw [hst.1]; exact hty)
  | @swap n n' E e hr a1 a2 a3 a4 ih =>
      obtain ⟨k, m, ih⟩ := ih
      have hr' := EngOn.swap hr a1 a2 a3 a4
      obtain ⟨rr, ci, -⟩ := clock_reach hb .boot (timed_clock (on_timed h1 hr))
      obtain ⟨rr', ci', -⟩ := clock_reach hb .boot (timed_clock (on_timed h1 hr'))
      have hst := clock_static (timed_clock (on_timed h1 hr')) i
      have hD := reach_dma hb rr
      have s0 := swap_ticks hD ci.early a2 a3 i false
      have s1 := swap_ticks hD ci.early a2 a3 i true
      have hD' := reach_dma hb rr'
      have ext : ∀ v t, DrivenOn A G n1 E1 e1 n E e p v t → DrivenOn A G n1 E1 e1 n' (E + 128) (engSwap e (stamp n')) p v t :=
        fun v t ⟨x1, x2, x3, b, y1, y2, y3⟩ => ⟨x1, x2, x3, b, y1, .swap y2 a1 a2 a3 a4, y3⟩
      obtain ⟨w1, w2, w3⟩ := swap_keeps (e := e) (stamp n')
      have hearly := ih.early hp (hall _ _ _ hr).handled
      have hafter := ci.after
      clear a4
      generalize engSwap e (stamp n') = x at *
      refine ⟨k, m, decoded_same ih.decoded w2 w1, ih.start, fun h0 => ?_, ?_, ih.low, fun m' b1 b2 => ?_, ?_⟩
      · rcases ih.reached h0 with h2 | ⟨h2, h3⟩
        · exact .inl h2
        · exact .inr ⟨h2, (turn_pc w1).mpr h3⟩
      · rcases ih.notyet with h2 | ⟨h2, h3⟩
        · exact .inl h2
        · exact .inr ⟨h2, fun h4 => h3 ((turn_pc w1).mp h4)⟩
      · obtain ⟨X, hX⟩ := ih.past m' b1 b2
        exact ⟨X, hX.mono (ext _) (ext _)⟩
      · refine beatInv_swap hp hq ih.start (by omega) ih.inv s0 s1 (ext _) (ext _) (fun s k1 k2 k3 k4 => ?_) (fun P k1 k2 k3 k4 => ?_)
        · obtain ⟨d1, d2⟩ := start_driven hD' ci'.early (i := i) ⟨hst.2.2.1, hst.2.2.2⟩ hpin k1 k4 (by omega) (by omega)
          exact ⟨n', E + 128, x, !x.cur, hr', .refl, d1, d2⟩
        · obtain ⟨d1, d2⟩ := edge_driven hD' ci'.early (i := i) ⟨hst.2.2.1, hst.2.2.2⟩ hpin k1 k4 (by omega) (by omega)
          exact ⟨n', E + 128, x, !x.cur, hr', .refl, d1, d2⟩

/-- When tooth `J m` has been handled and all of cycle `m` is over, the output has fired in cycle `m`. -/
theorem beat_fired (hp : BeatPlan W jit gap top dlo dhi late T K J m0) (hT : ∀ {i j}, i ≤ j → T i ≤ T j) {i : Fin maxEvents} {n E : ℤ} {e : Engine}
    {k : ℕ} {M m : ℤ} (h : RunInv W Q K J m0 i D0 D1 E e k M) (hh : HandledBy T late n e) (hn : n < E) (hm : m0 < m)
    (h1 : T (J m) + late ≤ n) (h2 : ∀ t, W m t → t ≤ n) : ∃ X, Sparked W Q D0 D1 m X := by
  rcases lt_trichotomy m M with hc | rfl | hc
  · exact h.past m hm hc
  · rcases h.inv with ⟨s, P, h3⟩ | ⟨X, h3⟩ | ⟨-, -, h3⟩
    · have hP := h2 P h3.good
      have hs : (e.cfg.events i).stop.state = .submitted := by
        rcases h3.live with h4 | h4
        · have := h3.stopArmed h4
          omega
        · exact h4
      refine ⟨P, h3.good, h3.played1 hs, s, h3.played0 ?_, h3.aim⟩
      cases h4 : (e.cfg.events i).start.state with
      | unscheduled => exact absurd h4 h3.started
      | scheduled => have := (h3.armed h4).2; rw [hs] at this; cases this
      | submitted => exact .inl rfl
      | fired => exact .inr rfl
    · exact ⟨X, (h3.over hm).2⟩
    · exact h3 hm
  · exfalso
    have h3 := h.early hp hh
    have h4 := h.start
    have h5 : J (M + 1) ≤ J m := by
      rcases eq_or_lt_of_le (show M + 1 ≤ m by omega) with h6 | h6
      · rw [h6]
      · exact (hp.later (by omega) h6).le
    have := hT h5
    omega

end Verif
