/-
C77: the crank angle read between teeth.  C78: a stopped engine.
-/
import Verif.Props.SparkWheel
import Verif.Props.Engine
import Verif.Props.Util

namespace Verif

variable [FloatFmt]
open FloatFmt Fl

/-- Decoder `d` knows the crank, whose angle at tick `t` is `θ t`, up to tick `n`: the reported time is tick `T`, the reported
angle was true at that tick, and from then until `n`, for at most nine eighths of a cycle, the crank turns evenly at a speed
that is the reported average. -/
structure ReadsCrank (θ : ℤ → ℚ) (c : CrankTol) (T n : ℤ) (d : Decoder) : Prop where
  past : T ≤ n
  time : d.lastTriggerTime = stamp T
  angle : ∃ a, d.lastTriggerAngle = .fin a ∧ 0 ≤ a ∧ a ≤ 720 ∧ Near (θ T) a c.angle
  speed : ∃ w : ℚ, 0 ≤ w ∧ |w * (4000000 / 6) - d.rpm.toNat| ≤ c.speed * d.rpm.toNat ∧ w * (n - T) ≤ 810 ∧
    |θ n - θ T - w * (n - T)| ≤ c.even

/-- The degrees that pass in `t` ticks at the speed `r`, as computed. -/
theorem degrees_close {r t : BitVec 32} (hr : 1 ≤ r.toNat) (ht : 1 ≤ t.toNat)
    (hx : (t.toNat : ℚ) * r.toNat * (6 / 4000000) ≤ 1000) : ∃ D, degreesFromTimeDiff t r = fin D ∧
      |D - (t.toNat : ℚ) * r.toNat * (6 / 4000000)| ≤ 1 / 500 := by
  obtain ⟨f, hf, hf1, hf2⟩ := tpd_close hr
  have hr1 : (1 : ℚ) ≤ r.toNat := by exact_mod_cast hr
  have ht1 : (1 : ℚ) ≤ t.toNat := by exact_mod_cast ht
  have ht2 : (t.toNat : ℚ) < 2 ^ 32 := by exact_mod_cast t.isLt
  unfold degreesFromTimeDiff
  rw [hf]
  have ho : Fl.ofU32 t = rnd (t.toNat : ℚ) := rfl
  rw [ho]
  generalize (t.toNat : ℚ) = τ at *
  generalize (r.toNat : ℚ) = ρ at *
  have hρ0 : 0 < ρ := by linarith
  have hτ0 : 0 < τ := by linarith
  obtain ⟨a, ha, ha1, ha2⟩ := rnd_factor (x := τ) (le_trans (by norm_num) ht1) (le_trans ht2.le (by norm_num))
  norm_num at hf1 hf2 ha1 ha2
  have hf0 : 0 < f := by linarith
  have ha0 : 0 < a := by linarith
  rw [ha, fin_div _ _ (by positivity)]
  obtain ⟨X, hX⟩ : ∃ X, X = τ * ρ * (6 / 4000000) := ⟨_, rfl⟩
  have hX0 : 0 < X := by rw [hX]; positivity
  have hX1 : 6 / 4000000 ≤ X := by
    rw [hX]
    have : 1 ≤ τ * ρ := by nlinarith
    linarith
  have hd : τ * a / (4000000 / 6 / ρ * f) = X * (a / f) := by
    rw [hX]; field_simp
  rw [hd]
  rw [← hX] at hx ⊢
  have hg1 : 1 - 1 / 2 ^ 20 ≤ a / f := by
    rw [le_div_iff₀ hf0]; norm_num; linarith
  have hg2 : a / f ≤ 1 + 1 / 2 ^ 20 := by
    rw [div_le_iff₀ hf0]; norm_num; linarith
  generalize a / f = g at *
  norm_num at hg1 hg2
  have hl : X * g ≥ X * (1 / 2) := mul_le_mul_of_nonneg_left (by linarith) hX0.le
  have hu : X * g ≤ X * 2 := mul_le_mul_of_nonneg_left (by linarith) hX0.le
  obtain ⟨b, hb, hb1, hb2⟩ := rnd_factor (x := X * g) (le_trans (by norm_num) (show (1:ℚ) / 2000000 ≤ X * g by linarith))
    (le_trans (show X * g ≤ 2000 by linarith) (by norm_num))
  norm_num at hb1 hb2
  refine ⟨_, hb, ?_⟩
  have hy1 : X * g ≤ X + 1 / 1000 := by
    have := mul_le_mul_of_nonneg_left hg2 hX0.le
    linarith
  have hy2 : X - 1 / 1000 ≤ X * g := by
    have := mul_le_mul_of_nonneg_left hg1 hX0.le
    linarith
  generalize X * g = Y at *
  have hY0 : 0 ≤ Y := by linarith
  have h1 := mul_le_mul_of_nonneg_left hb1 hY0
  have h2 := mul_le_mul_of_nonneg_left hb2 hY0
  rw [abs_le]
  constructor <;> linarith

/-- C77: at any tick up to one cycle and an eighth after the last tooth the crank angle is read without fault, lies in the
cycle, and is the true one, within the error of the speed over that time, the errors of angle and rotation, and a hundredth
of a degree for rounding. -/
theorem C77_angle_partial {θ : ℤ → ℚ} {c : CrankTol} {T n : ℤ} {d : Decoder} (hc : c.Sane) (h : ReadsCrank θ c T n d) :
    ∃ y, currentAngle d (stamp n) = .ok (fin y) ∧ 0 ≤ y ∧ y ≤ 720 ∧
      Near (θ n) y (900 * c.speed + c.angle + c.even + 1 / 100) := by
  obtain ⟨hp, ht, ⟨a, ha, ha0, ha1, k, hk⟩, w, hw0, hw1, hw2, hw3⟩ := h
  have hs0 := hc.speed0
  have hs1 := hc.speed1
  have he0 := hc.even0
  unfold currentAngle
  by_cases hr : d.rpm = 0
  · rw [if_pos hr]
    refine ⟨a, by rw [ha], ha0, ha1, k, ?_⟩
    rw [hr] at hw1
    have hw : w = 0 := by
      have h1 : w * (4000000 / 6) ≤ 0 := by
        have := (abs_le.mp hw1).2
        simpa using this
      linarith
    subst hw
    rw [abs_le] at *
    constructor <;> linarith
  rw [if_neg hr, ha, ht, stamp_sub]
  have hr1 : 1 ≤ d.rpm.toNat := by
    rcases Nat.eq_zero_or_pos d.rpm.toNat with h | h
    · exact absurd (BitVec.eq_of_toNat_eq h) hr
    · exact h
  have hrq : (1 : ℚ) ≤ d.rpm.toNat := by exact_mod_cast hr1
  have hw1' := abs_le.mp hw1
  obtain ⟨u, hu⟩ : ∃ u : ℤ, u = n - T := ⟨_, rfl⟩
  have huq : (n : ℚ) - T = (u : ℚ) := by rw [hu]; push_cast; ring
  rw [huq] at hw2 hw3
  rw [← hu]
  have hu0 : 0 ≤ u := by omega
  have huq0 : (0 : ℚ) ≤ u := by exact_mod_cast hu0
  -- the speed is at least nine tenths of the reported one
  have hwr : 9 / 10 * (d.rpm.toNat : ℚ) ≤ w * (4000000 / 6) := by
    have : c.speed * d.rpm.toNat ≤ 1 / 10 * d.rpm.toNat := mul_le_mul_of_nonneg_right hs1 (by linarith)
    linarith [hw1'.1]
  have hub : u < 2 ^ 32 := by
    have h1 : 9 / 10 * (u : ℚ) ≤ 810 * (4000000 / 6) := by
      have h2 : 9 / 10 ≤ w * (4000000 / 6) := by linarith
      have h3 := mul_le_mul_of_nonneg_right h2 huq0
      have h4 : w * (4000000 / 6) * u = w * u * (4000000 / 6) := by ring
      rw [h4] at h3
      linarith [mul_le_mul_of_nonneg_right hw2 (show (0:ℚ) ≤ 4000000 / 6 by norm_num)]
    have h5 : (u : ℚ) < 2 ^ 32 := by norm_num; linarith
    exact_mod_cast h5
  have hut : ((stamp u).toNat : ℤ) = u := stamp_toNat hu0 hub
  have hutq : ((stamp u).toNat : ℚ) = u := by exact_mod_cast hut
  have hX : (u : ℚ) * d.rpm.toNat * (6 / 4000000) ≤ 900 := by
    have h3 := mul_le_mul_of_nonneg_right hwr huq0
    have h4 : w * (4000000 / 6) * u = w * u * (4000000 / 6) := by ring
    rw [h4] at h3
    have h5 := mul_le_mul_of_nonneg_right hw2 (show (0:ℚ) ≤ 4000000 / 6 by norm_num)
    have h6 : 9 / 10 * (d.rpm.toNat : ℚ) * u = 9 / 10 * (u * d.rpm.toNat) := by ring
    rw [h6] at h3
    linarith
  have herr : |w * u - u * d.rpm.toNat * (6 / 4000000)| ≤ 900 * c.speed := by
    have h1 : w * u - u * d.rpm.toNat * (6 / 4000000) = (w * (4000000 / 6) - d.rpm.toNat) * (u * (6 / 4000000)) := by ring
    have h2 : (0 : ℚ) ≤ u * (6 / 4000000) := by positivity
    rw [h1, abs_mul, abs_of_nonneg h2]
    have h3 := mul_le_mul_of_nonneg_right hw1 h2
    have h4 : c.speed * d.rpm.toNat * (u * (6 / 4000000)) = u * d.rpm.toNat * (6 / 4000000) * c.speed := by ring
    rw [h4] at h3
    have h5 := mul_le_mul_of_nonneg_right hX hs0
    linarith
  obtain ⟨D, hD, hDX⟩ : ∃ D, degreesFromTimeDiff (stamp u) d.rpm = fin D ∧
      |D - u * d.rpm.toNat * (6 / 4000000)| ≤ 1 / 500 := by
    by_cases hz : u = 0
    · have hu1 : (stamp u).toNat = 0 := by omega
      obtain ⟨f, hf, hf1, hf2⟩ := tpd_close hr1
      refine ⟨0, ?_, by rw [hz]; norm_num⟩
      unfold degreesFromTimeDiff
      have ho : Fl.ofU32 (stamp u) = rnd ((stamp u).toNat : ℚ) := rfl
      norm_num at hf1 hf2
      have hf0 : 0 < f := by linarith
      have hrpos : (0 : ℚ) < d.rpm.toNat := by linarith
      rw [hf, ho, hu1, Nat.cast_zero, rnd_zero, fin_div _ _ (by positivity), zero_div, rnd_zero]
    · have := degrees_close (r := d.rpm) (t := stamp u) hr1 (by omega) (by rw [hutq]; linarith)
      rwa [hutq] at this
  have hX0 : 0 ≤ (u : ℚ) * d.rpm.toNat * (6 / 4000000) := by positivity
  have hDX' := abs_le.mp hDX
  obtain ⟨z, hz, hze, -⟩ := rnd_err (x := a + D) (by rw [abs_le]; norm_num; constructor <;> linarith)
  have hab : |a + D| ≤ 1700 := by rw [abs_le]; constructor <;> linarith
  have hze' : |z - (a + D)| ≤ 1 / 1000 := by
    refine hze.trans ?_
    norm_num at hab ⊢
    linarith
  have hze'' := abs_le.mp hze'
  rw [hD, fin_add, hz]
  obtain ⟨r, hr⟩ := C03_terminates z 720 (by
    rw [abs_le]; constructor <;> linarith) (by norm_num) (rnd_nat 720 (by norm_num))
  obtain ⟨y, hy, hy0, hy1, j, hj⟩ := clampAngle_near (by linarith) (by linarith) hr
  cases hy
  refine ⟨r, hr, hy0, hy1, k - j, ?_⟩
  rw [abs_le] at *
  push_cast
  constructor <;> linarith

/-- The part of C77 about a crank that has stopped: once the decoder has noticed, the angle read stays the one at which the
crank stands. -/
def C77_full : Prop :=
  ∀ (eb e : Engine) (T n : ℤ) (a : ℚ), EngBoot eb → EngReach (fun _ => True) eb e → T ≤ n →
    e.cfg.decoder.lastTriggerTime = stamp T → e.cfg.decoder.lastTriggerAngle = .fin a → e.cfg.decoder.loss = .expired →
    e.cfg.decoder.valid = false → ∃ y, currentAngle e.cfg.decoder (stamp n) = .ok (.fin y) ∧ Near a y 1

/-- C78 as stated: when the stall timeout takes away a valid position, the speed reported from then on is zero. -/
def C78_full : Prop :=
  ∀ (eb e e' : Engine) (now : Time), EngBoot eb → EngReach (fun _ => True) eb e → engStep e (.timer now) = .ok e' →
    e.cfg.decoder.valid = true → e'.cfg.decoder.valid = false → e'.cfg.decoder.rpm = 0

/-- Not while a trigger is being decoded. -/
def EngPc.resting : EngPc → Bool
  | .record _ _ => false
  | _ => true

/-- C78, what holds: the timeout that takes away a valid position reports the loss of synchronisation by expiry, and the
speed is the one reported before. -/
theorem C78_lost_partial {e e' : Engine} {now : Time} (h : engStep e (.timer now) = .ok e') (hv : e.cfg.decoder.valid = true)
    (hv' : e'.cfg.decoder.valid = false) : e'.cfg.decoder.state = .nosync ∧ e'.cfg.decoder.loss = .expired ∧
      e'.cfg.decoder.rpm = e.cfg.decoder.rpm := by
  rcases whenIdle_ok h with rfl | ⟨-, h⟩
  · rw [hv] at hv'; cases hv'
  · unfold engTimer at h
    rw [bind_eq_ok] at h; obtain ⟨⟨c, q⟩, h1, h⟩ := h
    simp only at h
    rw [bind_eq_ok] at h; obtain ⟨e1, h2, h⟩ := h
    cases h
    cases c with
    | expire =>
        unfold engCallback at h2
        rw [bind_eq_ok] at h2; obtain ⟨evs, h3, h2⟩ := h2
        cases h2
        exact ⟨rfl, rfl, rfl⟩
    | event i =>
        have h4 := (schedule_parts (show engSchedule _ now i = .ok e1 from h2)).2.1
        have : e1.cfg.decoder.valid = false := hv'
        rw [h4] at this
        have hv2 : e.cfg.decoder.valid = false := this
        rw [hv] at hv2; cases hv2
    | testTrigger =>
        cases h2
        have hv2 : e.cfg.decoder.valid = false := hv'
        rw [hv] at hv2; cases hv2
    | replay =>
        cases h2
        have hv2 : e.cfg.decoder.valid = false := hv'
        rw [hv] at hv2; cases hv2

theorem step_kept {e e' : Engine} {a : EngAct} (hpc : e.pc.resting = true) (ha : ∀ k t, a ≠ .trigger k t)
    (h : engStep e a = .ok e') : e'.pc.resting = true ∧ e'.cfg.decoder.rpm = e.cfg.decoder.rpm := by
  have hlog : ∀ b, engLog e b = .ok e' → e'.pc.resting = true ∧ e'.cfg.decoder.rpm = e.cfg.decoder.rpm := by
    intro b h
    unfold engLog at h
    rw [bind_eq_ok] at h; obtain ⟨l, h1, h⟩ := h
    cases h; exact ⟨hpc, rfl⟩
  cases a with
  | trigger k t => exact absurd rfl (ha k t)
  | work now =>
      have h : engWork e now = .ok e' := h
      unfold engWork at h
      split at h
      · cases h; exact ⟨hpc, rfl⟩
      · next hp => rw [hp] at hpc; cases hpc
      · unfold engLoop at h
        split_ifs at h
        · rw [bind_eq_ok] at h; obtain ⟨e1, h1, h⟩ := h
          cases h
          exact ⟨rfl, congrArg Decoder.rpm (schedule_parts h1).2.1⟩
        · cases h; exact ⟨rfl, rfl⟩
      · rw [bind_eq_ok] at h; obtain ⟨q, h1, h⟩ := h
        cases h; exact ⟨rfl, rfl⟩
  | timer now =>
      rcases whenIdle_ok h with rfl | ⟨-, h⟩
      · exact ⟨hpc, rfl⟩
      · unfold engTimer at h
        rw [bind_eq_ok] at h; obtain ⟨⟨c, q⟩, h1, h⟩ := h
        simp only at h
        rw [bind_eq_ok] at h; obtain ⟨e1, h2, h⟩ := h
        cases h
        refine ⟨rfl, ?_⟩
        cases c with
        | expire =>
            unfold engCallback at h2
            rw [bind_eq_ok] at h2; obtain ⟨evs, h3, h2⟩ := h2
            cases h2; rfl
        | event i => exact congrArg Decoder.rpm (schedule_parts (show engSchedule _ now i = .ok e1 from h2)).2.1
        | testTrigger => cases h2; rfl
        | replay => cases h2; rfl
  | desync r =>
      rcases whenIdle_ok h with rfl | ⟨-, h⟩
      · exact ⟨hpc, rfl⟩
      · unfold engDesync at h
        rw [bind_eq_ok] at h; obtain ⟨evs, h1, h⟩ := h
        cases h
        exact ⟨hpc, rfl⟩
  | swap now =>
      have h : engSwap e now = e' := Except.ok.inj h
      rw [← h]
      unfold engSwap
      generalize bufferSwap e.dma now = s
      exact ⟨hpc, rfl⟩
  | sensors s => cases h; exact ⟨hpc, rfl⟩
  | get => exact hlog _ h
  | getStep => exact hlog _ h
  | logging b => exact hlog _ h

/-- C78 is false of every stop: whatever happens until the next trigger, for however long, the reported speed stays as it
was; neither the stall timeout nor a capture overflow nor the scheduling of outputs resets it. -/
theorem C78_kept {e e' : Engine} {as : List EngAct} (hpc : e.pc.resting = true) (ha : ∀ k t, EngAct.trigger k t ∉ as)
    (h : engRun e as = .ok e') : e'.cfg.decoder.rpm = e.cfg.decoder.rpm := by
  induction as generalizing e with
  | nil => cases h; rfl
  | cons a as ih =>
      unfold engRun at h
      rw [bind_eq_ok] at h; obtain ⟨e1, h1, h⟩ := h
      obtain ⟨h2, h3⟩ := step_kept hpc (fun k t hh => ha k t (hh ▸ List.mem_cons_self ..)) h1
      rw [ih h2 (fun k t hh => ha k t (List.mem_cons_of_mem _ hh)) h, h3]

end Verif

namespace Verif
open Fl

/-- Five teeth, one of them after the gap, and then silence until the stall timeout. -/
def stallRun : List EngAct := demoTeeth [40000, 80000, 120000, 200000, 240000]

/-- The engine has synchronised at 1500 revolutions per minute and stops after the tooth at tick 240000.  The stall timeout
takes the position away, and the speed is reported as 1500 from then on. -/
theorem C78_full_false : ¬ @C78_full binary32 := by
  let _ := binary32
  intro hf
  obtain ⟨e, h1, h2⟩ := okAnd_ok (x := engRun demoEngine stallRun)
    (p := fun e => e.cfg.decoder.valid && e.pc.resting && okAnd (engStep e (.timer 400000)) fun e' =>
      !e'.cfg.decoder.valid && decide (e'.cfg.decoder.rpm ≠ 0)) (by decide +kernel)
  simp only [Bool.and_eq_true] at h2
  obtain ⟨⟨a, -⟩, b⟩ := h2
  obtain ⟨e', h3, h4⟩ := okAnd_ok b
  simp only [Bool.and_eq_true, decide_eq_true_eq, Bool.not_eq_true'] at h4
  exact h4.2 (hf demoEngine e e' 400000 demoEngine_boot
    (run_engReach .boot (fun x hx => ⟨trivial, (demoTeeth_keeps _ x hx).2⟩) h1) h3 a h4.1)

/-- The same run: the crank stands at 90 degrees, and forty milliseconds after its last tooth it is read as 450. -/
theorem C77_full_false : ¬ @C77_full binary32 := by
  let _ := binary32
  intro hf
  obtain ⟨e, h1, h2⟩ := okAnd_ok (x := engRun demoEngine (stallRun ++ [.timer 400000]))
    (p := fun e => decide (e.cfg.decoder.lastTriggerTime = 240000) && decide (e.cfg.decoder.lastTriggerAngle = fin 90) &&
      decide (e.cfg.decoder.loss = .expired) && !e.cfg.decoder.valid &&
      okAnd (currentAngle e.cfg.decoder 400000) fun x => decide (x = fin 450)) (by decide +kernel)
  simp only [Bool.and_eq_true, decide_eq_true_eq, Bool.not_eq_true'] at h2
  obtain ⟨⟨⟨⟨a, b⟩, c⟩, d⟩, f⟩ := h2
  obtain ⟨x, h3, h4⟩ := okAnd_ok f
  rw [decide_eq_true_eq] at h4
  subst h4
  obtain ⟨y, h5, k, hk⟩ := hf demoEngine e 240000 400000 90 demoEngine_boot
    (run_engReach .boot (fun x hx => ⟨trivial, by
      rw [List.mem_append] at hx
      rcases hx with hx | hx
      · exact (demoTeeth_keeps _ x hx).2
      · rw [List.mem_singleton] at hx
        rw [hx]; exact fun _ hh => nomatch hh⟩) h1) (by decide) a b c d
  rw [show stamp 400000 = (400000 : Time) from by decide, h3] at h5
  cases h5
  rw [abs_le] at hk
  have h6 : (-361 : ℚ) ≤ 720 * k := by linarith [hk.2]
  have h7 : (720 : ℚ) * k ≤ -359 := by linarith [hk.1]
  have h8 : -361 ≤ 720 * k := by exact_mod_cast h6
  have h9 : 720 * k ≤ -359 := by exact_mod_cast h7
  omega

/-- The stopped engine: the stall timeout comes and the handler goes on, and the speed is still 1500. -/
example : ∃ e e', @EngReach binary32 (fun _ => True) (@demoEngine binary32) e ∧ e.pc.resting = true ∧
    (@engStep binary32 e (.timer 400000) = .ok e' ∧ e.cfg.decoder.valid = true ∧ e'.cfg.decoder.valid = false) ∧
    e'.cfg.decoder.rpm = 1500 ∧ ∃ e'', @engRun binary32 e' (List.replicate 50 (.work 400010)) = .ok e'' := by
  let _ := binary32
  obtain ⟨e, h1, h2⟩ := okAnd_ok (x := engRun demoEngine stallRun)
    (p := fun e => e.cfg.decoder.valid && e.pc.resting && okAnd (engStep e (.timer 400000)) fun e' =>
      !e'.cfg.decoder.valid && decide (e'.cfg.decoder.rpm = 1500) &&
        okAnd (engRun e' (List.replicate 50 (.work 400010))) fun _ => true) (by decide +kernel)
  simp only [Bool.and_eq_true] at h2
  obtain ⟨⟨a, b⟩, c⟩ := h2
  obtain ⟨e', h3, h4⟩ := okAnd_ok c
  simp only [Bool.and_eq_true, decide_eq_true_eq, Bool.not_eq_true'] at h4
  obtain ⟨⟨d, f⟩, g⟩ := h4
  obtain ⟨e'', h5, -⟩ := okAnd_ok g
  exact ⟨e, e', run_engReach .boot (fun x hx => ⟨trivial, (demoTeeth_keeps _ x hx).2⟩) h1, b, ⟨h3, a, d⟩, f, e'', h5⟩

/-- What the running engine of `stallRun` reads of a crank at 1500 revolutions per minute (9/4000 degrees in a tick). -/
example : ∃ e, @EngReach binary32 (fun _ => True) (@demoEngine binary32) e ∧
    ReadsCrank (fun t => 90 + 9 / 4000 * (t - 240000)) ⟨0, 0, 0, 1⟩ 240000 300000 e.cfg.decoder := by
  let _ := binary32
  obtain ⟨e, h1, h2⟩ := okAnd_ok (x := engRun demoEngine stallRun)
    (p := fun e => decide (e.cfg.decoder.rpm = 1500) && decide (e.cfg.decoder.lastTriggerTime = 240000) &&
      decide (e.cfg.decoder.lastTriggerAngle = fin 90)) (by decide +kernel)
  simp only [Bool.and_eq_true, decide_eq_true_eq] at h2
  obtain ⟨⟨a, b⟩, c⟩ := h2
  refine ⟨e, run_engReach .boot (fun x hx => ⟨trivial, (demoTeeth_keeps _ x hx).2⟩) h1, by decide, by rw [b]; decide,
    ⟨90, c, by norm_num, by norm_num, 0, by norm_num⟩, 9 / 4000, by norm_num, ?_, by norm_num, by norm_num⟩
  rw [a]
  have : BitVec.toNat (1500 : BitVec 32) = 1500 := by decide
  rw [this]
  norm_num

end Verif
