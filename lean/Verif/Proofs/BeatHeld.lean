/-
One output along a run: a pulse that has begun ends.
-/
import Verif.Proofs.BeatOnce
import Verif.Proofs.BeatHyp

namespace Verif

variable {W : ℤ → ℤ → Prop} {Q : ℤ → ℤ → ℤ → Prop} {jit gap top dlo dhi late : ℤ} {T : ℕ → ℤ} {K : ℕ → ℤ} {J : ℤ → ℕ} {m0 : ℤ} {D0 D1 D0' D1' : ℤ → Prop}

/-- Cycle `m` is over: the output has something pending in a later cycle, or has fired in this or a later one. -/
def AfterCycle (W : ℤ → ℤ → Prop) (Q : ℤ → ℤ → ℤ → Prop) (E m k : ℤ) (ev : OEvent) : Prop :=
  ∃ κ, m ≤ κ ∧ κ ≤ k ∧ ((m < κ ∧ ∃ s P, Pend W Q (fun _ => True) (fun _ => True) E κ ev s P) ∨
    ∃ X, Over W Q (fun _ => True) (fun _ => True) E κ ev X)

/-- The pulse that began at tick `s` in cycle `m` is under way, or it has ended. -/
def HeldInv (W : ℤ → ℤ → Prop) (Q : ℤ → ℤ → ℤ → Prop) (D1 : ℤ → Prop) (E m s k : ℤ) (ev : OEvent) : Prop :=
  (m ≤ k ∧ s < E ∧ ∃ P, Pend W Q (fun _ => True) D1 E m ev s P) ∨
    (AfterCycle W Q E m k ev ∧ ∃ P, W m P ∧ D1 P ∧ Q m s P)

theorem HeldInv.le {E m s k k' : ℤ} {ev : OEvent} (h : HeldInv W Q D1 E m s k ev) (hk : k ≤ k') : HeldInv W Q D1 E m s k' ev := by
  rcases h with ⟨h1, h2, h3⟩ | ⟨⟨κ, h1, h2, h3⟩, h4⟩
  · exact .inl ⟨by omega, h2, h3⟩
  · exact .inr ⟨⟨κ, h1, by omega, h3⟩, h4⟩

theorem HeldInv.mono {E m s k : ℤ} {ev : OEvent} (h : HeldInv W Q D1 E m s k ev) (h1 : ∀ t, D1 t → D1' t) :
    HeldInv W Q D1' E m s k ev := by
  rcases h with ⟨a1, a2, P, a3⟩ | ⟨a1, P, a2, a3, a4⟩
  · exact .inl ⟨a1, a2, P, a3.mono (fun _ h => h) h1⟩
  · exact .inr ⟨a1, P, a2, h1 _ a3, a4⟩

/-- Scheduling. -/
theorem held_move {E m s k P d : ℤ} {ev ev' : OEvent} (hp : BeatPlan W jit gap top dlo dhi late T K J m0)
    (h : HeldInv W Q D1 E m s k ev) (past : ∀ κ, κ + 2 ≤ k → ∀ t, W κ t → t < E - 256)
    (mv : Moves W Q gap dlo dhi E k P d ev ev') : HeldInv W Q D1 E m s k ev' := by
  have hB := hp.beats
  rcases h with ⟨h1, h2, P0, h3⟩ | ⟨⟨κ, k1, k2, h3⟩, h4⟩
  · left
    refine ⟨h1, h2, ?_⟩
    rcases (by omega : k = m ∨ k = m + 1 ∨ m + 2 ≤ k) with rfl | rfl | hc
    · obtain ⟨s', P', h4, h5⟩ := mv.same h3
      rw [h5 h2] at h4
      exact ⟨P', h4⟩
    · exact ⟨P0, mv.next rfl h3⟩
    · have := past m hc P0 h3.good
      have := h3.lo
      omega
  · refine .inr ⟨?_, h4⟩
    rcases h3 with ⟨hκ, s0, P0, h3⟩ | ⟨X, h3⟩
    · rcases (by omega : k = κ ∨ k = κ + 1 ∨ κ + 2 ≤ k) with rfl | rfl | hc
      · obtain ⟨s', P', h4, -⟩ := mv.same h3
        exact ⟨k, k1, k2, .inl ⟨hκ, s', P', h4⟩⟩
      · exact ⟨κ, k1, k2, .inl ⟨hκ, s0, P0, mv.next rfl h3⟩⟩
      · have := past κ hc P0 h3.good
        have := h3.lo
        omega
    · rcases (by omega : k = κ ∨ κ < k) with rfl | hc
      · exact ⟨k, k1, k2, .inr ⟨X, mv.over hB hp.dwell0 h3⟩⟩
      · rcases mv.quiet (D0 := fun _ => True) (D1 := fun _ => True) h3.quiet with h8 | ⟨-, h8⟩
        · exact ⟨κ, k1, k2, .inr ⟨X, h8, h3.before, h3.spark⟩⟩
        · exact ⟨k, by omega, le_refl k, .inl ⟨by omega, _, _, h8⟩⟩

/-- A buffer swap. -/
theorem held_swap {E m s k : ℤ} {ev ev' : OEvent} (hq : AimOk W Q) (h : HeldInv W Q D1 E m s k ev)
    (h0 : SwapEdge (stamp E) (stamp (E - 256)) ev.start ev'.start) (h1 : SwapEdge (stamp E) (stamp (E - 256)) ev.stop ev'.stop)
    (k1 : ∀ t, D1 t → D1' t)
    (n1 : ∀ P, ev'.stop.state = .submitted → E ≤ P → P < E + 128 → ev'.stop.time = stamp P → D1' P) :
    HeldInv W Q D1' (E + 128) m s k ev' := by
  rcases h with ⟨a1, a2, P, a3⟩ | ⟨⟨κ, c1, c2, h3⟩, P, a2, a3, a4⟩
  · obtain ⟨b1, b2⟩ := hq a3.good a3.aim
    rcases pend_swap (D0' := fun _ => True) (D1' := D1') a3 b2 b1 h0 h1 (fun _ h => h) k1 (fun _ _ _ _ => trivial) (n1 P) with h8 | ⟨-, h8⟩
    · exact .inl ⟨a1, by omega, P, h8⟩
    · exact .inr ⟨⟨m, le_refl m, a1, .inr ⟨P, h8.mono (fun _ h => h) (fun _ _ => trivial)⟩⟩, P, a3.good, h8.spark.2.1, a3.aim⟩
  · refine .inr ⟨?_, P, a2, k1 _ a3, a4⟩
    rcases h3 with ⟨hκ, s0, P0, h3⟩ | ⟨X, h3⟩
    · obtain ⟨b1, b2⟩ := hq h3.good h3.aim
      rcases pend_swap (D0' := fun _ => True) (D1' := fun _ => True) h3 b2 b1 h0 h1 (fun _ h => h) (fun _ h => h) (fun _ _ _ _ => trivial)
        (fun _ _ _ _ => trivial) with h8 | ⟨-, h8⟩
      · exact ⟨κ, c1, c2, .inl ⟨hκ, s0, P0, h8⟩⟩
      · exact ⟨κ, c1, c2, .inr ⟨P0, h8⟩⟩
    · have := h3.before
      exact ⟨κ, c1, c2, .inr ⟨X, quiet_swap h3.quiet h0 h1, by omega, h3.spark⟩⟩

/-- A start that has been handed over is the one pending. -/
theorem pend_begun {E m s P t : ℤ} {ev : OEvent} (h : Pend W Q D0 D1 E m ev s P) (hs : ev.start.state = .submitted)
    (ht : ev.start.time = stamp t) (h1 : E - 256 ≤ t) (h2 : t < E) : s = t := by
  obtain ⟨h3, h4⟩ := h.handed hs
  have h5 := h.t0
  rw [ht] at h5
  have h6 := stamp_toNat_mod t
  have h7 := stamp_toNat_mod s
  rw [h5] at h6
  omega

theorem unpended_begun {X : ℤ} {ev : OEvent} (h : Unpended ev X) (hs : ev.start.state = .submitted) : False := by
  rcases h.state with h8 | h8
  · simp only [eventIsUnscheduled, Bool.and_eq_true, decide_eq_true_eq] at h8
    rw [hs] at h8; cases h8.1
  · simp only [eventHasFired, Bool.and_eq_true, decide_eq_true_eq] at h8
    rw [hs] at h8; cases h8.1

/-- A start that has been handed over is the pulse's own or belongs to a later cycle. -/
theorem held_begun {E m s k t : ℤ} {ev : OEvent} (h : HeldInv W Q D1 E m s k ev)
    (hs : ev.start.state = .submitted) (ht : ev.start.time = stamp t) (h1 : E - 256 ≤ t) (h2 : t < E) :
    t = s ∨ ∃ κ > m, ∃ P, W κ P ∧ Q κ t P := by
  rcases h with ⟨-, -, P, a3⟩ | ⟨⟨κ, c1, c2, ⟨hκ, s0, P0, h3⟩ | ⟨X, h3⟩⟩, -⟩
  · exact .inl (pend_begun a3 hs ht h1 h2).symm
  · obtain rfl := pend_begun h3 hs ht h1 h2
    exact .inr ⟨κ, hκ, P0, h3.good, h3.aim⟩
  · exact absurd hs (fun hs => unpended_begun h3.quiet hs)

/-- When all the time of the pulse is over, its end has been handed over. -/
theorem held_ended {n E m s k : ℤ} {ev : OEvent} (h : HeldInv W Q D1 E m s k ev) (hn : n < E) (hP : ∀ P, W m P → Q m s P → P ≤ n) :
    ∃ P, W m P ∧ D1 P ∧ Q m s P := by
  rcases h with ⟨-, -, P, a3⟩ | ⟨-, h⟩
  · refine ⟨P, a3.good, a3.played1 ?_, a3.aim⟩
    have h1 := hP P a3.good a3.aim
    rcases a3.live with h2 | h2
    · have := a3.stopArmed h2
      omega
    · exact h2
  · exact h

variable [FloatFmt]

omit [FloatFmt] in
/-- The invariant holds when a start has just been handed over. -/
theorem held_start {E M k s : ℤ} {ev : OEvent} (h : BeatInv W Q D0 D1 m0 E M k ev) (hM : M ≤ k) (ext : ∀ t, ev.stop.state = .submitted →
      ev.stop.time = stamp t → E - 256 ≤ t → t < E → D1' t)
    (hs : ev.start.state = .submitted) (ht : ev.start.time = stamp s) (h1 : E - 256 ≤ s) (h2 : s < E) :
    ∃ m, (∃ P, W m P ∧ Q m s P) ∧ HeldInv W Q D1' E m s k ev := by
  have go : ∀ {m s' P}, Pend W Q D0 D1 E m ev s' P → m ≤ k → ∃ m, (∃ P, W m P ∧ Q m s P) ∧ HeldInv W Q D1' E m s k ev := by
    intro m s' P h hm
    obtain rfl := pend_begun h hs ht h1 h2
    exact ⟨m, ⟨P, h.good, h.aim⟩, .inl ⟨hm, h2, P, { h with played0 := fun _ => trivial, played1 := fun hp => ext P hp h.t1 h.lo (h.stopHanded hp) }⟩⟩
  rcases h with ⟨s', P, h⟩ | ⟨Y, h⟩ | ⟨⟨s', P, h⟩, hk, -⟩
  · exact go h hM
  · exact absurd hs (fun hs => unpended_begun h.quiet hs)
  · exact go h (by omega)

/-- The invariant along a run. -/
theorem held_run (hp : BeatPlan W jit gap top dlo dhi late T K J m0) (hq : AimOk W Q) {A : ℤ → EngAct → Prop} {G : ℤ → Engine → Prop} {eb e2 e : Engine}
    {n2 E2 n E m s : ℤ} {i : Fin maxEvents} {k2 : ℕ} (hb : EngBoot eb) (h1 : EngTimed A G eb n2 E2 e2)
    (hall : ∀ n E e, EngOn A G n2 E2 e2 n E e → RunHyp W Q gap dlo dhi late T K i n E e)
    (past : ∀ k ≥ k2, ∀ κ, κ + 2 ≤ K k → ∀ t, W κ t → t ≤ T k - 256)
    (hty : (eb.cfg.events i).type ≠ .disabled) (hk : Decoded (k2 + 1) e2)
    {p : Fin 16} (hpin : ((eb.cfg.events i).pin.setWidth 8).toNat = p)
    (h0 : HeldInv W Q (DrivenOn A G n2 E2 e2 n2 E2 e2 p (eb.cfg.events i).inverted) E2 m s (K k2) (e2.cfg.events i))
    (h : EngOn A G n2 E2 e2 n E e) :
    ∃ k ≥ k2, Decoded (k + 1) e ∧ HeldInv W Q (DrivenOn A G n2 E2 e2 n E e p (eb.cfg.events i).inverted) E m s (K k) (e.cfg.events i) := by
  induction h with
  | refl => exact ⟨k2, le_refl _, hk, h0⟩
  | @step n n' E e e' a hr a1 a2 a3 a4 a5 a6 ih =>
      obtain ⟨k, g1, g2, g3⟩ := ih
      obtain ⟨-, ci, -⟩ := clock_reach hb .boot (timed_clock (on_timed h1 hr))
      have hst := clock_static (timed_clock (on_timed h1 hr)) i
      have hh := hall _ _ _ hr
      obtain ⟨hT, hA⟩ := hh.aimed k g2
      have hbef := ci.before
      have ext : ∀ v t, DrivenOn A G n2 E2 e2 n E e p v t → DrivenOn A G n2 E2 e2 n' E e' p v t :=
        fun v t ⟨x1, x2, x3, b, y1, y2, y3⟩ => ⟨x1, x2, x3, b, y1, .step a y2 a1 a2 a3 a4 a5 a6, y3⟩
      have g3 := g3.mono (ext _)
      rcases step_beat a3 a5 hh.valid (hall _ _ _ (.step a hr a1 a2 a3 a4 a5 a6)).valid hh.cut (by rw [hst.1]; exact hty) g2 with b | ⟨b1, b2, -, -⟩
      · refine ⟨k, g1, b.decoded, ?_⟩
        rcases b.move with b1 | b1
        · rw [b1]; exact g3
        · obtain ⟨P, d, mv⟩ := hA _ b1
          exact held_move hp g3 (fun κ hκ t ht => by have := past k g1 κ hκ t ht; omega) mv
      · refine ⟨k + 1, by omega, b1, ?_⟩
        rw [b2]
        exact g3.le (hp.mono (Nat.le_succ k))
  | @swap n n' E e hr a1 a2 a3 a4 ih =>
      obtain ⟨k, g1, g2, g3⟩ := ih
      have hr' := EngOn.swap hr a1 a2 a3 a4
      obtain ⟨rr, ci, -⟩ := clock_reach hb .boot (timed_clock (on_timed h1 hr))
      obtain ⟨rr', ci', -⟩ := clock_reach hb .boot (timed_clock (on_timed h1 hr'))
      have hst := clock_static (timed_clock (on_timed h1 hr')) i
      have hD := reach_dma hb rr
      have s0 := swap_ticks hD ci.early a2 a3 i false
      have s1 := swap_ticks hD ci.early a2 a3 i true
      have hD' := reach_dma hb rr'
      have ext : ∀ v t, DrivenOn A G n2 E2 e2 n E e p v t → DrivenOn A G n2 E2 e2 n' (E + 128) (engSwap e (stamp n')) p v t :=
        fun v t ⟨x1, x2, x3, b, y1, y2, y3⟩ => ⟨x1, x2, x3, b, y1, .swap y2 a1 a2 a3 a4, y3⟩
      obtain ⟨w1, w2, w3⟩ := swap_keeps (e := e) (stamp n')
      clear a4
      generalize engSwap e (stamp n') = x at *
      refine ⟨k, g1, decoded_same g2 w2 w1, held_swap hq g3 s0 s1 (ext _) (fun P k1 k2 k3 k4 => ?_)⟩
      obtain ⟨d1, d2⟩ := edge_driven hD' ci'.early (i := i) ⟨hst.2.2.1, hst.2.2.2⟩ hpin k1 k4 (by omega) (by omega)
      exact ⟨n', E + 128, x, !x.cur, hr', .refl, d1, d2⟩

omit [FloatFmt] in
/-- The window of the buffer being played. -/
theorem play_window {E n : ℤ} {s : Dma maxEvents} (he : s.earliest = stamp E) (h1 : E - 256 ≤ n) (h2 : n < E - 128) :
    (stamp n - (s.buf s.cur).first).toNat < 128 := by
  have hf : (s.buf s.cur).first = stamp (E - 256) := by
    rw [← stamp_sub, ← he]
    show _ = (s.buf s.cur).first + 256 - stamp 256
    have : stamp 256 = 256 := rfl
    rw [this]
    bv_omega
  rw [hf, stamp_sub]
  have := stamp_toNat_mod (n - (E - 256))
  omega

/-- A handed-over end is one that one of the buffers is to drive. -/
theorem stop_driven {e0 e : Engine} {E s : ℤ} (hD : DmaReach e.dma) (early : e.dma.earliest = stamp E) {i : Fin maxEvents}
    (hst : (e.cfg.events i).pin = (e0.cfg.events i).pin ∧ (e.cfg.events i).inverted = (e0.cfg.events i).inverted) {p : Fin 16}
    (hp : ((e0.cfg.events i).pin.setWidth 8).toNat = p) (hs : (e.cfg.events i).stop.state = .submitted)
    (ht : (e.cfg.events i).stop.time = stamp s) (h1 : E - 256 ≤ s) (h2 : s < E) :
    ∃ b, InBuffer E e b s ∧ Drives (e.buf b) (stamp s) p (e0.cfg.events i).inverted := by
  by_cases hs1 : E - 128 ≤ s
  · exact ⟨_, edge_driven hD early hst hp hs ht hs1 h2⟩
  · have I := dma_reach_inv hD
    refine ⟨e.cur, ?_, (C19_exact hD e.cur (stamp s) p _).mpr ⟨?_, i, true, hs, ht, ?_, ?_⟩⟩
    · unfold InBuffer
      rw [if_pos rfl]
      omega
    · exact play_window early h1 (by omega)
    · have := I.pins i true (.inr hs)
      change (setPins (e.cfg.events i)).edge true = (e.cfg.events i).edge true at this
      change ((e.cfg.events i).edge true).pin.toNat = _
      rw [← this, ← hp, ← hst.1]
      rfl
    · have := I.pins i true (.inr hs)
      change (setPins (e.cfg.events i)).edge true = (e.cfg.events i).edge true at this
      change ((e.cfg.events i).edge true).val = _
      rw [← this, ← hst.2]
      rfl

omit [FloatFmt] in
theorem InBuffer.edges {E t : ℤ} {e : Engine} {b : Bool} (h : InBuffer E e b t) : E - 256 ≤ t ∧ t < E := by
  unfold InBuffer at h
  split at h <;> omega

/-- A pulse that has begun: what else begins, and that it ends. -/
theorem held_ends (hp : BeatPlan W jit gap top dlo dhi late T K J m0) (hq : AimOk W Q) {A : ℤ → EngAct → Prop} {G : ℤ → Engine → Prop} {eb e1 e2 : Engine}
    {n1 E1 n2 E2 s2 : ℤ} {i : Fin maxEvents} {k1 : ℕ} (hb : EngBoot eb) (h1 : EngTimed A G eb n1 E1 e1)
    (hall : ∀ n E e, EngOn A G n1 E1 e1 n E e → RunHyp W Q gap dlo dhi late T K i n E e)
    (hk : Decoded (k1 + 1) e1) (hJ : k1 < J m0) (hK : m0 - 1 ≤ K k1) (hty : (eb.cfg.events i).type ≠ .disabled)
    (quiet : eventIsUnscheduled (e1.cfg.events i) = true ∨ eventHasFired (e1.cfg.events i) = true)
    (later : ∀ n E e, EngOn A G n1 E1 e1 n E e → ∃ k ≥ k1, Decoded (k + 1) e)
    (past : ∀ k ≥ k1, ∀ κ, κ + 2 ≤ K k → ∀ t, W κ t → t ≤ T k - 256)
    {p : Fin 16} (hpin : ((eb.cfg.events i).pin.setWidth 8).toNat = p) (only : ∀ j, ((eb.cfg.events j).pin.setWidth 8).toNat = p → j = i)
    (h2 : EngOn A G n1 E1 e1 n2 E2 e2) {b2 : Bool} (in2 : InBuffer E2 e2 b2 s2)
    (dr2 : Drives (e2.buf b2) (stamp s2) p (!(eb.cfg.events i).inverted)) :
    ∃ m, (∃ P, W m P ∧ Q m s2 P) ∧ ∀ n3 E3 e3, EngOn A G n2 E2 e2 n3 E3 e3 →
      (∀ b3 s3, InBuffer E3 e3 b3 s3 → Drives (e3.buf b3) (stamp s3) p (!(eb.cfg.events i).inverted) →
        s3 = s2 ∨ ∃ κ > m, ∃ P, W κ P ∧ Q κ s3 P) ∧
      ((∀ P, W m P → Q m s2 P → P ≤ n3) →
        ∃ P, W m P ∧ DrivenOn A G n2 E2 e2 n3 E3 e3 p (eb.cfg.events i).inverted P ∧ Q m s2 P) := by
  obtain ⟨k, M, inv⟩ := beat_run hp hq hb h1 hall hk hJ hK hty quiet hpin h2
  have hT2 := on_timed h1 h2
  obtain ⟨j, hj, hd⟩ := later _ _ _ h2
  obtain rfl : k = j := by have := inv.decoded.unique hd; omega
  obtain ⟨u1, u2⟩ := driven_start hb .boot (timed_clock hT2) only dr2
  obtain ⟨w1, w2⟩ := in2.edges
  obtain ⟨rr, ci, -⟩ := clock_reach hb .boot (timed_clock hT2)
  have hst := clock_static (timed_clock hT2) i
  obtain ⟨m, hm, h0⟩ := held_start (D1' := DrivenOn A G n2 E2 e2 n2 E2 e2 p (eb.cfg.events i).inverted) inv.inv inv.low
    (fun t x1 x2 x3 x4 => by
      obtain ⟨b, y1, y2⟩ := stop_driven (reach_dma hb rr) ci.early (i := i) ⟨hst.2.2.1, hst.2.2.2⟩ hpin x1 x2 x3 x4
      exact ⟨n2, E2, e2, b, .refl, .refl, y1, y2⟩) u1 u2 w1 w2
  refine ⟨m, hm, fun n3 E3 e3 h3 => ?_⟩
  obtain ⟨k3, -, -, o3⟩ := held_run hp hq hb hT2 (fun n E e h => hall n E e (on_trans h2 h)) (fun k' hk' => past k' (le_trans hj hk')) hty inv.decoded hpin h0 h3
  have hT3 := on_timed hT2 h3
  obtain ⟨-, ci3, -⟩ := clock_reach hb .boot (timed_clock hT3)
  refine ⟨fun b3 s3 in3 dr3 => ?_, fun hP => held_ended o3 ci3.before hP⟩
  obtain ⟨v1, v2⟩ := driven_start hb .boot (timed_clock hT3) only dr3
  obtain ⟨w3, w4⟩ := in3.edges
  exact held_begun o3 v1 v2 w3 w4

end Verif
