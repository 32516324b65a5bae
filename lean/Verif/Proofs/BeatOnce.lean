/-
One output along a run: it does not fire twice in a cycle.
-/
import Verif.Proofs.BeatRun

namespace Verif

variable {W : ℤ → ℤ → Prop} {Q : ℤ → ℤ → ℤ → Prop} {jit gap top dlo dhi late : ℤ} {T : ℕ → ℤ} {K : ℕ → ℤ} {J : ℤ → ℕ} {m0 : ℤ} {D0 D1 D0' D1' : ℤ → Prop}

variable [FloatFmt]

/-- The output has something pending in cycle `κ` or has fired in it, and this is not before cycle `m`; if it is cycle `m`, its
end has been handed over. -/
def OnceInv (W : ℤ → ℤ → Prop) (Q : ℤ → ℤ → ℤ → Prop) (D0 D1 : ℤ → Prop) (E m k : ℤ) (ev : OEvent) : Prop :=
  ∃ κ, m ≤ κ ∧ κ ≤ k ∧ ((∃ s P, Pend W Q D0 D1 E κ ev s P ∧ (κ = m → ev.stop.state = .submitted)) ∨ ∃ X, Over W Q D0 D1 E κ ev X)

omit [FloatFmt] in
theorem OnceInv.le {E m k k' : ℤ} {ev : OEvent} (h : OnceInv W Q D0 D1 E m k ev) (hk : k ≤ k') : OnceInv W Q D0 D1 E m k' ev := by
  obtain ⟨κ, h1, h2, h3⟩ := h
  exact ⟨κ, h1, by omega, h3⟩

omit [FloatFmt] in
/-- Scheduling. -/
theorem once_move {E m k P d : ℤ} {ev ev' : OEvent} (hp : BeatPlan W jit gap top dlo dhi late T K J m0)
    (h : OnceInv W Q D0 D1 E m k ev) (past : ∀ κ, κ + 2 ≤ k → ∀ t, W κ t → t < E - 256)
    (mv : Moves W Q gap dlo dhi E k P d ev ev') : OnceInv W Q D0 D1 E m k ev' := by
  have hB := hp.beats
  obtain ⟨κ, k1, k2, ⟨s, P0, h6, h7⟩ | ⟨X, h6⟩⟩ := h
  · have hhand : κ = m → ev'.stop.state = .submitted := fun hκ => mv.handed h6 (h7 hκ)
    rcases (by omega : k = κ ∨ k = κ + 1 ∨ κ + 2 ≤ k) with rfl | rfl | hc
    · obtain ⟨s', P', h8, -⟩ := mv.same h6
      exact ⟨k, k1, k2, .inl ⟨s', P', h8, hhand⟩⟩
    · exact ⟨κ, k1, k2, .inl ⟨s, P0, mv.next rfl h6, hhand⟩⟩
    · have := past κ hc P0 h6.good
      have := h6.lo
      omega
  · rcases (by omega : k = κ ∨ κ < k) with rfl | hc
    · exact ⟨k, k1, k2, .inr ⟨X, mv.over hB hp.dwell0 h6⟩⟩
    · rcases mv.quiet (D0 := D0) (D1 := D1) h6.quiet with h8 | ⟨-, h8⟩
      · exact ⟨κ, k1, k2, .inr ⟨X, h8, h6.before, h6.spark⟩⟩
      · exact ⟨k, by omega, le_refl k, .inl ⟨_, _, h8, fun hκ => by omega⟩⟩

omit [FloatFmt] in
/-- A buffer swap. -/
theorem once_swap {E m k X : ℤ} {ev ev' : OEvent} (hq : AimOk W Q)
    (h : OnceInv W Q (fun _ => True) (fun t => W m t → t = X) E m k ev) (hd : ∀ {κ κ' t}, W κ t → W κ' t → κ = κ')
    (h0 : SwapEdge (stamp E) (stamp (E - 256)) ev.start ev'.start) (h1 : SwapEdge (stamp E) (stamp (E - 256)) ev.stop ev'.stop) :
    OnceInv W Q (fun _ => True) (fun t => W m t → t = X) (E + 128) m k ev' := by
  obtain ⟨κ, k1, k2, ⟨s, P, h6, h7⟩ | ⟨Y, h6⟩⟩ := h
  · obtain ⟨a1, a2⟩ := hq h6.good h6.aim
    have hsub : κ = m → P < E := fun hκ => h6.stopHanded (h7 hκ)
    rcases pend_swap (D0' := fun _ => True) (D1' := fun t => W m t → t = X) h6 a2 a1 h0 h1 (fun _ h => h) (fun _ h => h)
      (fun _ _ _ _ => trivial) (fun _ hE _ _ hW => by have := hsub (hd h6.good hW); omega) with h8 | ⟨-, h8⟩
    · refine ⟨κ, k1, k2, .inl ⟨s, P, h8, fun hκ => ?_⟩⟩
      have h9 := hsub hκ
      have h10 := h8.stopArmed
      rcases h8.live with h11 | h11
      · have := h10 h11; omega
      · exact h11
    · exact ⟨κ, k1, k2, .inr ⟨P, h8⟩⟩
  · have := h6.before
    exact ⟨κ, k1, k2, .inr ⟨Y, quiet_swap h6.quiet h0 h1, by omega, h6.spark⟩⟩

/-- The invariant along a run. -/
theorem once_run (hp : BeatPlan W jit gap top dlo dhi late T K J m0) (hq : AimOk W Q) {A : ℤ → EngAct → Prop} {G : ℤ → Engine → Prop} {eb e2 e : Engine}
    {n2 E2 n E m X : ℤ} {i : Fin maxEvents} {k2 : ℕ} (hb : EngBoot eb) (h1 : EngTimed A G eb n2 E2 e2)
    (hall : ∀ n E e, EngOn A G n2 E2 e2 n E e → RunHyp W Q gap dlo dhi late T K i n E e)
    (past : ∀ k ≥ k2, ∀ κ, κ + 2 ≤ K k → ∀ t, W κ t → t ≤ T k - 256) (hd : ∀ {κ κ' t}, W κ t → W κ' t → κ = κ')
    (hty : (eb.cfg.events i).type ≠ .disabled) (hk : Decoded (k2 + 1) e2)
    (h0 : OnceInv W Q (fun _ => True) (fun t => W m t → t = X) E2 m (K k2) (e2.cfg.events i))
    (h : EngOn A G n2 E2 e2 n E e) :
    ∃ k ≥ k2, Decoded (k + 1) e ∧ OnceInv W Q (fun _ => True) (fun t => W m t → t = X) E m (K k) (e.cfg.events i) := by
  induction h with
  | refl => exact ⟨k2, le_refl _, hk, h0⟩
  | @step n n' E e e' a hr a1 a2 a3 a4 a5 a6 ih =>
      obtain ⟨k, g1, g2, g3⟩ := ih
      obtain ⟨-, ci, -⟩ := clock_reach hb .boot (timed_clock (on_timed h1 hr))
      have hst := clock_static (timed_clock (on_timed h1 hr)) i
      have hh := hall _ _ _ hr
      obtain ⟨hT, hA⟩ := hh.aimed k g2
      have hbef := ci.before
      rcases step_beat a3 a5 hh.valid (hall _ _ _ (.step a hr a1 a2 a3 a4 a5 a6)).valid hh.cut (by rw [hst.1]; exact hty) g2 with b | ⟨b1, b2, -, -⟩
      · refine ⟨k, g1, b.decoded, ?_⟩
        rcases b.move with b1 | b1
        · rw [b1]; exact g3
        · obtain ⟨P, d, mv⟩ := hA _ b1
          exact once_move hp g3 (fun κ hκ t ht => by have := past k g1 κ hκ t ht; omega) mv
      · refine ⟨k + 1, by omega, b1, ?_⟩
        rw [b2]
        exact g3.le (hp.mono (Nat.le_succ k))
  | @swap n n' E e hr a1 a2 a3 a4 ih =>
      obtain ⟨k, g1, g2, g3⟩ := ih
      obtain ⟨rr, ci, -⟩ := clock_reach hb .boot (timed_clock (on_timed h1 hr))
      have hD := reach_dma hb rr
      have s0 := swap_ticks hD ci.early a2 a3 i false
      have s1 := swap_ticks hD ci.early a2 a3 i true
      obtain ⟨w1, w2, w3⟩ := swap_keeps (e := e) (stamp n')
      clear a4
      generalize engSwap e (stamp n') = x at *
      exact ⟨k, g1, decoded_same g2 w2 w1, once_swap hq g3 hd s0 s1⟩

omit [FloatFmt] in
/-- An end that has been handed over is the one pending. -/
theorem pend_handed {E m s P t : ℤ} {ev : OEvent} (h : Pend W Q D0 D1 E m ev s P) (hs : ev.stop.state = .submitted)
    (ht : ev.stop.time = stamp t) (h1 : E - 256 ≤ t) (h2 : t < E) : P = t := by
  have h3 := h.lo
  have h4 := h.stopHanded hs
  have h5 := h.t1
  rw [ht] at h5
  have h6 := stamp_toNat_mod t
  have h7 := stamp_toNat_mod P
  rw [h5] at h6
  omega

omit [FloatFmt] in
theorem once_end {E m k X t : ℤ} {ev : OEvent} (h : OnceInv W Q (fun _ => True) (fun t => W m t → t = X) E m k ev)
    (hs : ev.stop.state = .submitted) (ht : ev.stop.time = stamp t) (h1 : E - 256 ≤ t) (h2 : t < E) (hW : W m t) : t = X := by
  obtain ⟨κ, k1, k2, ⟨s, P, h6, h7⟩ | ⟨Y, h6⟩⟩ := h
  · obtain rfl := pend_handed h6 hs ht h1 h2
    exact h6.played1 hs hW
  · exfalso
    rcases h6.quiet.state with h8 | h8
    · simp only [eventIsUnscheduled, Bool.and_eq_true, decide_eq_true_eq] at h8
      rw [hs] at h8; cases h8.2
    · simp only [eventHasFired, Bool.and_eq_true, decide_eq_true_eq] at h8
      rw [hs] at h8; cases h8.2

omit [FloatFmt] in
/-- The invariant holds when an end has just been handed over. -/
theorem once_start {E M k X : ℤ} {ev : OEvent} (h : BeatInv W Q D0 D1 m0 E M k ev) (hM : M ≤ k)
    (hs : ev.stop.state = .submitted) (ht : ev.stop.time = stamp X) (h1 : E - 256 ≤ X) (h2 : X < E) :
    ∃ m, W m X ∧ OnceInv W Q (fun _ => True) (fun t => W m t → t = X) E m k ev := by
  have go : ∀ {m s P}, Pend W Q D0 D1 E m ev s P → m ≤ k →
      ∃ m, W m X ∧ OnceInv W Q (fun _ => True) (fun t => W m t → t = X) E m k ev := by
    intro m s P h hm
    obtain rfl := pend_handed h hs ht h1 h2
    exact ⟨m, h.good, m, le_refl m, hm, .inl ⟨s, P, { h with played0 := fun _ => trivial, played1 := fun _ _ => rfl }, fun _ => hs⟩⟩
  rcases h with ⟨s, P, h⟩ | ⟨Y, h⟩ | ⟨⟨s, P, h⟩, hk, -⟩
  · exact go h hM
  · exfalso
    rcases h.quiet.state with h8 | h8
    · simp only [eventIsUnscheduled, Bool.and_eq_true, decide_eq_true_eq] at h8
      rw [hs] at h8; cases h8.2
    · simp only [eventHasFired, Bool.and_eq_true, decide_eq_true_eq] at h8
      rw [hs] at h8; cases h8.2
  · exact go h (by omega)

end Verif
