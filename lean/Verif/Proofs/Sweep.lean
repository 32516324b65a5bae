/-
Building concrete runs: what many buffer swaps do to the outputs.
-/
import Verif.Proofs.ClockRun
import Verif.Props.Injection

namespace Verif

variable [FloatFmt]

/-- What `K` swaps do to an edge, the buffers ending at `f`. -/
def sweptEntry (f : Time) (K : ℕ) (en : Entry) : Entry :=
  match en.state with
  | .scheduled => { en with state := if K ≤ (en.time - f).toNat / 128 then .scheduled
      else if K ≤ (en.time - f).toNat / 128 + 2 then .submitted else .fired }
  | .submitted => { en with state := if K ≤ (en.time - (f - 256)).toNat / 128 then .submitted else .fired }
  | _ => en

omit [FloatFmt] in
theorem sweptEntry_zero (f : Time) (en : Entry) : sweptEntry f 0 en = en := by
  unfold sweptEntry
  cases en with
  | mk t p v s => cases s <;> simp

omit [FloatFmt] in
theorem sweptEntry_step (E : ℤ) (K : ℕ) (hK : K < 2 ^ 20) (en : Entry) :
    populated (stamp (E + 128 * K)) (retired (stamp (E + 128 * K - 256)) (sweptEntry (stamp E) K en)) = sweptEntry (stamp E) (K + 1) en := by
  have h1 : (en.time - stamp (E + 128 * K)).toNat = ((en.time - stamp E).toNat + (2 ^ 32 - 128 * K)) % 2 ^ 32 := by
    have a1 := stamp_toNat_mod (E + 128 * K)
    have a2 := stamp_toNat_mod E
    have a3 := (stamp (E + 128 * K)).isLt
    have a4 := (stamp E).isLt
    have a5 := en.time.isLt
    rw [BitVec.toNat_sub, BitVec.toNat_sub]
    omega
  have h2 : (en.time - stamp (E + 128 * K - 256)).toNat = ((en.time - stamp E).toNat + 256 + (2 ^ 32 - 128 * K)) % 2 ^ 32 := by
    have a1 := stamp_toNat_mod (E + 128 * K - 256)
    have a2 := stamp_toNat_mod E
    have a3 := (stamp (E + 128 * K - 256)).isLt
    have a4 := (stamp E).isLt
    have a5 := en.time.isLt
    rw [BitVec.toNat_sub, BitVec.toNat_sub]
    omega
  have h3 : (en.time - (stamp E - 256)).toNat = ((en.time - stamp E).toNat + 256) % 2 ^ 32 := by
    have a4 := (stamp E).isLt
    have a5 := en.time.isLt
    rw [BitVec.toNat_sub, BitVec.toNat_sub, BitVec.toNat_sub]
    have : (256 : BitVec 32).toNat = 256 := rfl
    omega
  have h4 := (en.time - stamp E).isLt
  unfold sweptEntry populated retired numSlots
  cases en with
  | mk t p v s =>
      cases s with
      | unscheduled => simp
      | fired => simp
      | scheduled =>
          simp only at h1 h2 h4 ⊢
          by_cases c1 : K ≤ (t - stamp E).toNat / 128
          · by_cases c2 : K + 1 ≤ (t - stamp E).toNat / 128
            · have : ¬ (t - stamp (E + 128 * K)).toNat < 128 := by omega
              simp [-BitVec.toNat_sub, c1, c2, this]
            · have : (t - stamp (E + 128 * K)).toNat < 128 := by omega
              have c3 : K + 1 ≤ (t - stamp E).toNat / 128 + 2 := by omega
              simp [-BitVec.toNat_sub, c1, c2, this, c3]
          · have c2 : ¬ K + 1 ≤ (t - stamp E).toNat / 128 := by omega
            by_cases c3 : K ≤ (t - stamp E).toNat / 128 + 2
            · by_cases c4 : K + 1 ≤ (t - stamp E).toNat / 128 + 2
              · have : ¬ (t - stamp (E + 128 * K - 256)).toNat < 128 := by omega
                simp [-BitVec.toNat_sub, c1, c2, c3, c4, this]
              · have : (t - stamp (E + 128 * K - 256)).toNat < 128 := by omega
                simp [-BitVec.toNat_sub, c1, c2, c3, c4, this]
            · have c4 : ¬ K + 1 ≤ (t - stamp E).toNat / 128 + 2 := by omega
              simp [-BitVec.toNat_sub, c1, c2, c3, c4]
      | submitted =>
          simp only at h2 h3 h4 ⊢
          generalize stamp E - 256 = g at *
          by_cases c1 : K ≤ (t - g).toNat / 128
          · by_cases c2 : K + 1 ≤ (t - g).toNat / 128
            · have : ¬ (t - stamp (E + 128 * K - 256)).toNat < 128 := by omega
              simp [-BitVec.toNat_sub, c1, c2, this]
            · have : (t - stamp (E + 128 * K - 256)).toNat < 128 := by omega
              simp [-BitVec.toNat_sub, c1, c2, this]
          · have c2 : ¬ K + 1 ≤ (t - g).toNat / 128 := by omega
            simp [-BitVec.toNat_sub, c1, c2]

/-- The firmware after `K` swaps, but for its buffers. -/
def Engine.swept (e : Engine) (f : Time) (K : ℕ) : Engine :=
  { e with cfg := { e.cfg with events := fun i => mapEdges (sweptEntry f K) (e.cfg.events i) } }

omit [FloatFmt] in
theorem swept_zero (e : Engine) (f : Time) : e.swept f 0 = e := by
  unfold Engine.swept
  have : (fun i => mapEdges (sweptEntry f 0) (e.cfg.events i)) = e.cfg.events := by
    funext i
    unfold mapEdges
    rw [sweptEntry_zero, sweptEntry_zero]
  rw [this]

omit [FloatFmt] in
/-- One swap. -/
theorem swap_swept {e : Engine} {b : Bool → OutBuf} {c : Bool} {E n : ℤ} {K : ℕ} (hK : K < 2 ^ 20)
    (h : DmaReach ((e.swept (stamp E) K).on b c).dma) (he : ((e.swept (stamp E) K).on b c).dma.earliest = stamp (E + 128 * K))
    (h1 : E + 128 * K - 128 ≤ n) (h2 : n < E + 128 * K) :
    ∃ b' c', engSwap ((e.swept (stamp E) K).on b c) (stamp n) = (e.swept (stamp E) (K + 1)).on b' c' := by
  have hev : (bufferSwap ((e.swept (stamp E) K).on b c).dma (stamp n)).evs = (e.swept (stamp E) (K + 1)).cfg.events := by
    generalize hd : ((e.swept (stamp E) K).on b c).dma = d at h he
    have I := dma_reach_inv h
    have hw : (stamp n - (d.buf (!d.cur)).first).toNat < 128 := by
      have := swap_window h he h1 h2
      exact this
    have hal : ((d.buf (!d.cur)).first).toNat % 128 = 0 := by
      have := I.aligned
      rw [I.adjacent]
      bv_omega
    have hr := round_in_window _ _ hal hw
    have hg : (d.buf d.cur).first = stamp (E + 128 * K - 256) := by
      rw [← stamp_sub, ← he]
      show _ = (d.buf d.cur).first + 256 - stamp 256
      have : stamp 256 = 256 := rfl
      rw [this]; bv_omega
    have hf : roundToBuffer (stamp n) + 128 = stamp (E + 128 * K) := by
      rw [hr, I.adjacent, ← he]
      show _ = (d.buf d.cur).first + 256
      bv_omega
    funext i
    rw [(bufferSwap_spec d (stamp n)).2.2.2.1 i, hf, hg, ← hd]
    show mapEdges _ (mapEdges (sweptEntry (stamp E) K) (e.cfg.events i)) = mapEdges (sweptEntry (stamp E) (K + 1)) (e.cfg.events i)
    unfold mapEdges
    simp only
    rw [sweptEntry_step E K hK, sweptEntry_step E K hK]
  refine ⟨(bufferSwap ((e.swept (stamp E) K).on b c).dma (stamp n)).buf, (bufferSwap ((e.swept (stamp E) K).on b c).dma (stamp n)).cur, ?_⟩
  unfold engSwap
  generalize bufferSwap ((e.swept (stamp E) K).on b c).dma (stamp n) = s at *
  simp only
  rw [hev]
  rfl

/-- Many swaps. -/
theorem clock_sweep {G : ℤ → Engine → Prop} {P : ℤ → ℤ → Engine → Prop} {eb e0 e : Engine} {b : Bool → OutBuf} {c : Bool} {n E : ℤ} (hb : EngBoot eb)
    (h0 : EngReach (fun _ => True) eb e0) (hP : RunOf G e0 P) (h : P n E (e.on b c)) (K : ℕ) (hK : K < 2 ^ 20)
    (hG : ∀ m K' b c, n ≤ m → m ≤ max n (E + 128 * K - 256) → G m ((e.swept (stamp E) K').on b c)) :
    ∃ n' b' c', n ≤ n' ∧ n' ≤ max n (E + 128 * K - 256) ∧ E + 128 * K - 256 ≤ n' ∧ P n' (E + 128 * K) ((e.swept (stamp E) K).on b' c') := by
  induction K with
  | zero =>
      obtain ⟨-, ci, -⟩ := clock_reach hb h0 (hP.clock h)
      have := ci.after
      exact ⟨n, b, c, le_refl _, le_max_left _ _, by simpa using this, by rw [swept_zero]; simpa using h⟩
  | succ K ih =>
      obtain ⟨n', b', c', h1, h2, h3, h4⟩ := ih (by omega) (fun m K' b c a1 a2 => hG m K' b c a1 (le_trans a2 (by
        apply max_le_max (le_refl _); push_cast; omega)))
      obtain ⟨rr, ci, -⟩ := clock_reach hb h0 (hP.clock h4)
      have hn1 := (clock_reach hb h0 (hP.clock h)).2.1.before
      obtain ⟨b2, c2, hs⟩ := swap_swept (n := max n (E + 128 * K - 128)) (by omega) (reach_dma hb rr) ci.early (by omega) (by omega)
      refine ⟨max n (E + 128 * K - 128), b2, c2, le_max_left _ _, by push_cast; omega, by push_cast; omega, ?_⟩
      have := hP.swap (n' := max n (E + 128 * K - 128)) h4 (by omega) (by omega) (by omega) (by
        rw [hs]
        exact hG _ _ _ _ (le_max_left _ _) (by push_cast; omega))
      rw [hs] at this
      have e3 : E + 128 * ((K + 1 : ℕ) : ℤ) = E + 128 * K + 128 := by push_cast; ring
      rw [e3]
      exact this

end Verif
