/-
Runs against the real clock: the time of every edge that is armed or handed over is that of one real tick.
-/
import Verif.Proofs.EvMove
import Verif.Proofs.Aim

namespace Verif

variable [FloatFmt]

/-- Armed, or handed over to the hardware. -/
def Live (st : SState) : Prop := st = .scheduled ∨ st = .submitted

/-- Stamp `x` is that of a tick `t` with property `S`, in the `L` ticks from `B`. -/
def Tick (B L : ℤ) (S : ℤ → Prop) (x : Time) : Prop := ∃ t : ℤ, x = stamp t ∧ B ≤ t ∧ t < B + L ∧ S t

omit [FloatFmt] in
/-- The window moves on by 128 ticks. -/
theorem Tick.shift {B L : ℤ} {S : ℤ → Prop} {x : Time} (h : Tick B L S x) (hL : L ≤ 2 ^ 32 - 128)
    (hx : ((x - stamp (B + 128)).toNat : ℤ) < L) : Tick (B + 128) L S x := by
  obtain ⟨t, rfl, h1, h2, h3⟩ := h
  refine ⟨t, rfl, ?_, by omega, h3⟩
  rw [stamp_sub, stamp_toNat_mod] at hx
  omega

omit [FloatFmt] in
/-- A tick not before the earliest schedulable one, as the stamps tell. -/
theorem Tick.of_armed {E t : ℤ} {S : ℤ → Prop} {x : Time} (hx : x = stamp t) (h1 : E - 2 ^ 31 ≤ t) (h2 : t < E + 2 ^ 31) (h3 : S t)
    (ha : (x - stamp E).toNat < 2 ^ 31) : Tick (E - 256) (2 ^ 31 + 256) S x := by
  subst hx
  refine ⟨t, rfl, ?_, by omega, h3⟩
  have := stamp_toNat_mod (t - E)
  rw [stamp_sub] at ha
  omega

/-- The clock and the buffers. -/
structure ClockInv (n E : ℤ) (e : Engine) : Prop where
  early : e.dma.earliest = stamp E
  after : E - 256 ≤ n
  before : n < E

omit [FloatFmt] in
theorem swap_earliest {s : Dma maxEvents} (h : DmaReach s) (now : Time) :
    (bufferSwap s now).earliest = s.earliest + 128 := by
  have I := dma_reach_inv h
  obtain ⟨c1, c2, c3, -⟩ := bufferSwap_spec s now
  have b : (bufferSwap s now).earliest = ((bufferSwap s now).buf (bufferSwap s now).cur).first + 256 := rfl
  rw [b, c1, c2, I.adjacent]
  unfold Dma.earliest
  bv_omega

omit [FloatFmt] in
theorem swap_window {E n : ℤ} {s : Dma maxEvents} (h : DmaReach s) (he : s.earliest = stamp E) (h1 : E - 128 ≤ n) (h2 : n < E) :
    (stamp n - (s.buf (!s.cur)).first).toNat < 128 := by
  have I := dma_reach_inv h
  have hf : (s.buf (!s.cur)).first = stamp (E - 128) := by
    rw [I.adjacent, ← stamp_sub, ← he]
    show _ = (s.buf s.cur).first + 256 - stamp 128
    have : stamp 128 = 128 := rfl
    rw [this]
    bv_omega
  rw [hf, stamp_sub]
  have := stamp_toNat_mod (n - (E - 128))
  omega

/-- A run against the clock is a run. -/
theorem clock_reach {G : ℤ → Engine → Prop} {eb e0 e : Engine} {n E : ℤ} (hb : EngBoot eb)
    (h0 : EngReach (fun _ => True) eb e0) (h : EngClock G e0 n E e) :
    EngReach (fun _ => True) eb e ∧ ClockInv n E e ∧ G n e := by
  induction h with
  | boot h1 h2 h3 h4 => exact ⟨h0, ⟨h1, h2, h3⟩, h4⟩
  | step a _ h1 h2 h3 h4 h5 ih =>
      obtain ⟨r, c, -⟩ := ih
      obtain ⟨b1, b2⟩ := step_bufs h3 h4
      refine ⟨.step a r trivial ?_ h4, ⟨?_, by linarith [c.after], h2⟩, h5⟩
      · cases a with
        | swap now => exact absurd rfl (h3 now)
        | _ => trivial
      · rw [← c.early]
        unfold Dma.earliest Engine.dma
        simp only
        rw [b1, b2]
  | swap _ h1 h2 h3 h4 ih =>
      obtain ⟨r, c, -⟩ := ih
      have hw := swap_window (reach_dma hb r) c.early h2 h3
      refine ⟨.step (.swap _) r trivial hw rfl, ⟨?_, by linarith, by linarith⟩, h4⟩
      rw [engSwap_dma, swap_earliest (reach_dma hb r) _, c.early, ← stamp_add]
      rfl

end Verif
