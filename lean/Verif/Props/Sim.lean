/-
C56: the built-in test wheel.
-/
import Verif.Spec.Sim
import Verif.Model.Default
import Verif.Props.Turn

namespace Verif
open FloatFmt Fl

variable [FloatFmt]

/-! ### The events -/

theorem sim_degrees36 : Fl.fin 720 / Fl.ofInt (2 * ((36 : ℕ) : ℤ)) = .fin 10 := by
  have h : Fl.ofInt (2 * ((36 : ℕ) : ℤ)) = .fin 72 := by
    have := rnd_nat 72 (by norm_num)
    simpa [Fl.ofInt] using this
  rw [h, fin_div _ _ (by norm_num)]
  have := rnd_nat 10 (by norm_num)
  norm_num at this ⊢
  exact this

theorem sim_double36 : Fl.fin 2 * Fl.fin 10 = .fin 20 := by
  rw [fin_mul]
  have := rnd_nat 20 (by norm_num)
  norm_num at this ⊢
  exact this

theorem sim_next36 (j : ℕ) (hj : j < 71) :
    testWheelNext 36 j = { degrees := if j = 36 then .fin 20 else .fin 10, trigger := if j = 1 then 1 else 0,
                           tooth := ((if j = 70 then 0 else j + 1 : ℕ) : ℤ) } := by
  have h := sim_degrees36
  have e : (2 * ((36 : ℕ) : ℤ)) = 2 * 36 := by norm_num
  rw [e] at h
  unfold testWheelNext
  simp only [h, sim_double36]
  have e2 : (if (2 * 36 - 1 : ℤ) ≤ (j : ℤ) + 1 then (0 : ℤ) else (j : ℤ) + 1) = ((if j = 70 then 0 else j + 1 : ℕ) : ℤ) := by
    split_ifs <;> omega
  rw [e2]
  by_cases h1 : j = 1
  · subst h1; rfl
  · by_cases h2 : j = 36
    · subst h2; rfl
    · rw [if_neg (by omega), if_neg (by omega), if_neg h1, if_neg h2]

theorem sim_events36 (i : ℕ) : simEvents 36 i = testWheelNext 36 ((i % 71 : ℕ) : ℤ) := by
  induction i with
  | zero => rfl
  | succ i ih =>
      show testWheelNext _ (simEvents 36 i).tooth = _
      rw [ih, sim_next36 _ (Nat.mod_lt _ (by norm_num))]
      show testWheelNext 36 _ = _
      congr 1
      have e : (if i % 71 = 70 then 0 else i % 71 + 1) = (i + 1) % 71 := by split_ifs <;> omega
      exact congrArg Nat.cast e

/-- C56.  For 36 tooth positions the test wheel makes exactly the events of a wheel with one missing tooth and a cam
pulse once in two turns, for ever. -/
theorem C56_events_partial : SimWheel 36 := by
  refine ⟨simPos36, rfl, fun i => ?_⟩
  have hlt : i % 71 < 71 := Nat.mod_lt _ (by norm_num)
  have hs : simPos36 (i + 1) = simPos36 i + (if i % 71 = 36 then 2 else 1) := by
    unfold simPos36
    split_ifs <;> omega
  rw [sim_events36, sim_next36 _ hlt]
  refine ⟨by rw [hs]; split_ifs <;> omega, ?_, ?_, ?_⟩
  · unfold wheelEvent simPos36
    split_ifs <;> first | rfl | omega
  · rw [hs]
    show (if i % 71 = 36 then Fl.fin 20 else Fl.fin 10) = _
    split_ifs <;> (congr 1; push_cast; ring)
  · intro x h1 h2
    rw [hs] at h2
    split_ifs at h2 with h
    · have hx : x = 72 * (i / 71) + 37 := by unfold simPos36 at h1 h2; rw [h, if_pos (by norm_num)] at h1 h2; omega
      unfold wheelEvent
      rw [if_neg (by omega), if_pos (by omega)]
    · omega

/-- C56 in full, as far as the events go: for every tooth count. -/
def C56_full : Prop := ∀ N : ℕ, 3 ≤ N → N ≤ 36 → SimWheel N

/-- The test wheel is wrong for other tooth counts: the second gap of a cycle is after event 36 whatever the count.  For
24 positions the tooth that should be missing is there. -/
theorem C56_full_false : ¬ C56_full := by
  intro h
  obtain ⟨pos, h0, hp⟩ := h 24 (by norm_num) (by norm_num)
  have hd : Fl.fin 720 / Fl.ofInt (2 * ((24 : ℕ) : ℤ)) = .fin 15 := by
    have h : Fl.ofInt (2 * ((24 : ℕ) : ℤ)) = .fin 48 := by
      have := rnd_nat 48 (by norm_num)
      simpa [Fl.ofInt] using this
    rw [h, fin_div _ _ (by norm_num)]
    have := rnd_nat 15 (by norm_num)
    norm_num at this ⊢
    exact this
  have hn : ∀ j : ℕ, j < 36 → testWheelNext ((24 : ℕ) : ℤ) j =
      { degrees := .fin 15, trigger := if j = 1 then 1 else 0, tooth := ((j + 1 : ℕ) : ℤ) } := by
    intro j hj
    unfold testWheelNext
    simp only [hd]
    have e2 : (if (2 * ((24 : ℕ) : ℤ) - 1 : ℤ) ≤ (j : ℤ) + 1 then (0 : ℤ) else (j : ℤ) + 1) = ((j + 1 : ℕ) : ℤ) := by
      rw [if_neg (by omega)]; rfl
    rw [e2]
    by_cases h1 : j = 1
    · subst h1; rfl
    · rw [if_neg (by omega), if_neg (by omega), if_neg h1]
  have he : ∀ i : ℕ, i < 36 → simEvents 24 i = testWheelNext ((24 : ℕ) : ℤ) i := by
    intro i hi
    induction i with
    | zero => rfl
    | succ i ih =>
        show testWheelNext _ (simEvents 24 i).tooth = _
        rw [ih (by omega), hn i (by omega)]
  have hpos : ∀ i : ℕ, i ≤ 25 → pos i = i := by
    intro i hi
    induction i with
    | zero => exact h0
    | succ i ih =>
        have hi' := ih (by omega)
        have := (hp i).2.2.1
        rw [he i (by omega), hn i (by omega)] at this
        simp only [Fl.fin.injEq] at this
        rw [hi'] at this
        have : ((pos (i + 1) : ℕ) : ℚ) = ((i + 1 : ℕ) : ℚ) := by
          push_cast at this ⊢
          linarith
        exact_mod_cast this
  have := (hp 25).2.1
  rw [hpos 25 (by norm_num)] at this
  exact absurd this (by unfold wheelEvent; simp)

/-! ### The decoder fed by it -/

/-- The time of tooth `n` of the test wheel, when a pitch takes `a` ticks and the gap without the cam pulse `b`. -/
def simT (A a b : ℤ) : ℕ → ℤ
  | 0 => A
  | n + 1 => simT A a b n + (if n % 70 = 0 then 2 * a else if n % 70 = 35 then b else a)

omit [FloatFmt] in
theorem sim_pulse (n : ℕ) : pulseAfter 36 34 34 n ↔ n % 70 = 0 := by
  unfold pulseAfter firstRev
  norm_num
  omega

theorem sim_step36 {d0 : Decoder} {s0 : Sim} {i j : ℕ} {r : BitVec 32} {t : Time} {x y : Decoder × Option Time}
    {a b : Time} (ha : timeFromRpmDiff r (.fin 10) = .ok a) (hb : timeFromRpmDiff r (.fin 20) = .ok b)
    (h : simRun d0 36 s0 i = .ok (x, ⟨(j : ℤ), r, t⟩)) (hj : j < 71)
    (hy : turnTrigger x (if j = 1 then 1 else 0) t = .ok y) :
    simRun d0 36 s0 (i + 1) = .ok (y, ⟨((if j = 70 then 0 else j + 1 : ℕ) : ℤ), r, t + if j = 36 then b else a⟩) := by
  rw [simRun, h]
  simp only [except_bind_ok]
  unfold executeTestTrigger
  simp only []
  rw [sim_next36 j hj]
  simp only []
  have e : timeFromRpmDiff r (if j = 36 then Fl.fin 20 else Fl.fin 10) = .ok (if j = 36 then b else a) := by
    split_ifs <;> assumption
  rw [e]
  simp only [except_bind_ok]
  rw [hy]
  rfl

/-- The run of the test wheel is the run of the wheel in the specification. -/
theorem sim_run36 {d0 : Decoder} {A : ℤ} {r : BitVec 32} {a b : Time} {P : ℕ → ℤ}
    (hP : ∀ n, n % 70 = 0 → P n = simT A a.toNat b.toNat n + a.toNat)
    (ha : timeFromRpmDiff r (.fin 10) = .ok a) (hb : timeFromRpmDiff r (.fin 20) = .ok b)
    (n : ℕ) (x : Decoder × Option Time)
    (hx : camTurn d0 (simT A a.toNat b.toNat) P 36 34 34 (n + 1) = .ok x) :
    simRun d0 36 ⟨0, r, stamp A⟩ (n + n / 70 + 2) =
      .ok (x, ⟨((if n % 70 = 69 then 0 else n % 70 + 2 : ℕ) : ℤ), r, stamp (simT A a.toNat b.toNat (n + 1))⟩) := by
  have hadd : ∀ (t : ℤ) (c : Time), stamp t + c = stamp (t + c.toNat) := by
    intro t c
    rw [← stamp_add, stamp_surj]
  -- a tooth with the pulse after it
  have two : ∀ (i n : ℕ) (y z x : Decoder × Option Time), n % 70 = 0 →
      simRun d0 36 ⟨0, r, stamp A⟩ i = .ok (y, ⟨((0 : ℕ) : ℤ), r, stamp (simT A a.toNat b.toNat n)⟩) →
      turnTrigger y 0 (stamp (simT A a.toNat b.toNat n)) = .ok z →
      turnTrigger z 1 (stamp (simT A a.toNat b.toNat n + a.toNat)) = .ok x →
      simRun d0 36 ⟨0, r, stamp A⟩ (i + 1 + 1) = .ok (x, ⟨((2 : ℕ) : ℤ), r, stamp (simT A a.toNat b.toNat (n + 1))⟩) := by
    intro i n y z x hn h hz hx
    have h1 := sim_step36 ha hb h (by norm_num) (y := z) (by rw [if_neg (by norm_num)]; exact hz)
    rw [if_neg (by norm_num), if_neg (by norm_num), hadd] at h1
    have h2 := sim_step36 ha hb h1 (by norm_num) (y := x) (by rw [if_pos (by norm_num)]; exact hx)
    rw [if_neg (by norm_num), if_neg (by norm_num), hadd] at h2
    rw [h2, show simT A a.toNat b.toNat (n + 1) = simT A a.toNat b.toNat n +
            (if n % 70 = 0 then 2 * (a.toNat : ℤ) else if n % 70 = 35 then (b.toNat : ℤ) else a.toNat) from rfl, if_pos hn,
            show simT A a.toNat b.toNat n + (a.toNat : ℤ) + a.toNat = simT A a.toNat b.toNat n + 2 * a.toNat by ring]
  induction n generalizing x with
  | zero =>
      rw [camTurn, bind_eq_ok] at hx
      obtain ⟨y, hy, hx⟩ := hx
      rw [bind_eq_ok] at hx
      obtain ⟨z, hz, hx⟩ := hx
      rw [if_pos ((sim_pulse 0).2 rfl), hP 0 rfl] at hx
      cases hy
      exact two 0 0 _ z x rfl rfl hz hx
  | succ n ih =>
      rw [camTurn, bind_eq_ok] at hx
      obtain ⟨y, hy, hx⟩ := hx
      rw [bind_eq_ok] at hx
      obtain ⟨z, hz, hx⟩ := hx
      have hi := ih y hy
      by_cases hp : (n + 1) % 70 = 0
      · have e : n + 1 + (n + 1) / 70 + 2 = (n + n / 70 + 2) + 1 + 1 := by omega
        rw [if_pos ((sim_pulse _).2 hp), hP _ hp] at hx
        rw [if_pos (by omega)] at hi
        rw [e, two _ (n + 1) y z x hp hi hz hx, hp]
        rfl
      · have e : n + 1 + (n + 1) / 70 + 2 = (n + n / 70 + 2) + 1 := by omega
        rw [if_neg (fun h => hp ((sim_pulse _).1 h))] at hx
        cases hx
        rw [if_neg (by omega)] at hi
        have h1 := sim_step36 ha hb hi (by omega) (y := x) (by rw [if_neg (by omega)]; exact hz)
        rw [e, h1, hadd]
        have e1 : (if n % 70 + 2 = 70 then 0 else n % 70 + 2 + 1) = (if (n + 1) % 70 = 69 then 0 else (n + 1) % 70 + 2) := by
          split_ifs <;> omega
        have e2 : (((if n % 70 + 2 = 36 then b else a).toNat : ℕ) : ℤ) =
            if (n + 1) % 70 = 35 then (b.toNat : ℤ) else a.toNat := by
          by_cases h : (n + 1) % 70 = 35
          · rw [if_pos h, if_pos (by omega)]
          · rw [if_neg h, if_neg (by omega)]
        rw [e1, e2, show simT A a.toNat b.toNat (n + 1 + 1) = simT A a.toNat b.toNat (n + 1) +
            (if (n + 1) % 70 = 0 then 2 * (a.toNat : ℤ) else if (n + 1) % 70 = 35 then (b.toNat : ℤ) else a.toNat) from rfl,
            if_neg hp]

/-- The decoder between a tooth and the pulse after it. -/
theorem cam_turn_mid {d0 : Decoder} {N s R k n0 m : ℕ} {v g : ℚ} {p q : ℤ} {T P : ℕ → ℤ}
    (hu : TurnSetup d0 N s R v g p q T) (ht : d0.type = .missingCamsync) (hc : d0.camThis = false) (hk : k < N - 1)
    (hP : ∀ n, T n < P n ∧ P n < T (n + 1)) (hR : R ≤ n0) (hg : afterGap N s n0) (hm : n0 ≤ m) (hp : pulseAfter N s k m)
    (n : ℕ) (hn : m ≤ n) :
    ∃ x y, camTurn d0 T P N s k (n + 1) = .ok x ∧ turnTrigger x 0 (stamp (T (n + 1))) = .ok y ∧ y.1.valid = true ∧
      y.1.lastTriggerAngle = .fin (g * ((wheelPos N s (n + 1) % (2 * N) : ℕ) : ℚ)) := by
  have hN24 : N ≤ 2 ^ 24 := by have := hu.size; omega
  obtain ⟨d, ex, h1, h2, hv⟩ := cam_turn_key hu ht hc hk hP n
  have hval := C42_acquired hu.wheel ht hc hk hN24 hR hg hm hp hn h2
  have hi := cam_key hu.wheel ht hc hk hN24 (noLosses_early N s k) h2
  obtain ⟨d', ex', h1', -, -⟩ := cam_turn_key hu ht hc hk hP (n + 1)
  rw [camTurn, h1, except_bind_ok, bind_eq_ok] at h1'
  obtain ⟨y, hy, -⟩ := h1'
  refine ⟨_, y, h1, hy, ?_⟩
  unfold turnTrigger at hy
  rw [pending_waits hv.pending (hu.wheel.teeth.later n) le_rfl, bind_eq_ok] at hy
  obtain ⟨o, ho, hy⟩ := hy
  cases hy
  obtain ⟨hi1, hv1⟩ := cam_tooth hu.wheel ht hk hi ho
  exact ⟨hv1 hval, (hi1.valid (hv1 hval)).1⟩

/-- The tolerance of the shipped decoder. -/
theorem dflt_tolerance : ∃ v : ℚ, (decoderInit dfltDecoder).maxRpmChange = .fin v ∧ 34 / 100 ≤ v ∧ v ≤ 36 / 100 := by
  obtain ⟨y, hy, hb⟩ := rnd_rel (35 / 100 : ℚ) (by rw [abs_of_pos (by norm_num)]; norm_num)
    (by rw [abs_of_pos (by norm_num)]; norm_num)
  rw [abs_of_pos (by norm_num : (0 : ℚ) < 35 / 100), abs_le] at hb
  obtain ⟨b1, b2⟩ := hb
  have hy1 : 34 / 100 ≤ y := by norm_num at b1 ⊢; linarith
  have hy2 : y ≤ 36 / 100 := by norm_num at b2 ⊢; linarith
  refine ⟨y, ?_, hy1, hy2⟩
  show (if Fl.feq (rnd (35 / 100)) (Fl.fin 0) then _ else rnd (35 / 100)) = _
  rw [hy, if_neg]
  simp only [Fl.feq]
  simp
  intro h
  rw [h] at hy1
  norm_num at hy1

/-- The delays at a constant speed. -/
theorem sim_delays {r : BitVec 32} (h1 : 3 ≤ r.toNat) (h2 : r.toNat ≤ 100000) :
    ∃ a b : Time, timeFromRpmDiff r (.fin 10) = .ok a ∧ timeFromRpmDiff r (.fin 20) = .ok b ∧
      ∃ y : ℚ, 65 ≤ y ∧ y ≤ 2300000 ∧ y * (1 - 1 / 2 ^ 21) - 1 ≤ a.toNat ∧ (a.toNat : ℚ) ≤ y * (1 + 1 / 2 ^ 21) ∧
        2 * y * (1 - 1 / 2 ^ 21) - 1 ≤ b.toNat ∧ (b.toNat : ℚ) ≤ 2 * y * (1 + 1 / 2 ^ 21) := by
  obtain ⟨a, ha, a1, a2⟩ := time_close (r := r) (q := 10) (by omega) (by norm_num) (by norm_num)
  obtain ⟨b, hb, b1, b2⟩ := time_close (r := r) (q := 20) (by omega) (by norm_num) (by norm_num)
  have h1' : (3 : ℚ) ≤ r.toNat := by exact_mod_cast h1
  have h2' : (r.toNat : ℚ) ≤ 100000 := by exact_mod_cast h2
  have h0 : (0 : ℚ) < r.toNat := by linarith
  have e : (4000000 / 6 * 20 / r.toNat : ℚ) = 2 * (4000000 / 6 * 10 / r.toNat) := by ring
  rw [e] at b1 b2
  refine ⟨a, b, ha, hb, _, ?_, ?_, a1, a2, b1, b2⟩
  · rw [le_div_iff₀ h0]; linarith
  · rw [div_le_iff₀ h0]; linarith

theorem sim_setup {A : ℤ} (hA0 : 0 ≤ A) (hA1 : A ≤ 2 ^ 31) {a b : Time} {y : ℚ} (hy1 : 65 ≤ y) (hy2 : y ≤ 2300000)
    (a1 : y * (1 - 1 / 2 ^ 21) - 1 ≤ a.toNat) (a2 : (a.toNat : ℚ) ≤ y * (1 + 1 / 2 ^ 21))
    (b1 : 2 * y * (1 - 1 / 2 ^ 21) - 1 ≤ b.toNat) (b2 : (b.toNat : ℚ) ≤ 2 * y * (1 + 1 / 2 ^ 21)) :
    ∃ v p q, TurnSetup dfltDecoder 36 34 4 v 10 p q (simT A a.toNat b.toNat) := by
  obtain ⟨v, hv, v1, v2⟩ := dflt_tolerance
  generalize ha : a.toNat = α at *
  generalize hb : b.toNat = β at *
  norm_num at a1 a2 b1 b2
  have hα : α ≤ 2400000 := by
    have : (α : ℚ) ≤ 2400000 := by linarith
    exact_mod_cast this
  have hβ : β ≤ 4800000 := by
    have : (β : ℚ) ≤ 4800000 := by linarith
    exact_mod_cast this
  obtain ⟨p, hp⟩ : ∃ p : ℕ, p = min α (β / 2) := ⟨_, rfl⟩
  obtain ⟨q, hq⟩ : ∃ q : ℕ, q = max α ((β + 1) / 2) := ⟨_, rfl⟩
  have p1 : (p : ℚ) ≥ y * (2097151 / 2097152) - 1 := by
    rcases min_choice α (β / 2) with h | h
    · rw [hp, h]; linarith
    · rw [hp, h]
      have : ((β : ℕ) : ℚ) ≤ ((2 * (β / 2) + 1 : ℕ) : ℚ) := by exact_mod_cast (by omega : β ≤ 2 * (β / 2) + 1)
      push_cast at this
      linarith
  have q1 : (q : ℚ) ≤ y * (2097153 / 2097152) + 1 := by
    rcases max_choice α ((β + 1) / 2) with h | h
    · rw [hq, h]; linarith
    · rw [hq, h]
      have : ((2 * ((β + 1) / 2) : ℕ) : ℚ) ≤ ((β + 1 : ℕ) : ℚ) := by exact_mod_cast (by omega : 2 * ((β + 1) / 2) ≤ β + 1)
      push_cast at this
      linarith
  have step : ∀ n, simT A α β (n + 1) - simT A α β n =
      (if n % 70 = 0 then 2 * (α : ℤ) else if n % 70 = 35 then (β : ℤ) else α) := by
    intro n
    show simT A α β n + _ - _ = _
    ring
  have pα : p ≤ α := by omega
  have pβ : 2 * p ≤ β := by omega
  have qα : α ≤ q := by omega
  have qβ : β ≤ 2 * q := by omega
  have hw : ∀ n, ((wheelPos 36 34 (n + 1) : ℕ) : ℤ) - wheelPos 36 34 n = if n % 35 = 0 then 2 else 1 := by
    intro n
    unfold wheelPos
    split_ifs <;> omega
  have band : SpeedBand 36 34 p q (simT A α β) := by
    constructor <;>
    · intro n
      rw [step, hw]
      split_ifs <;> omega
  have pos : 5 ≤ p := by
    have : (5 : ℚ) ≤ p := by linarith
    exact_mod_cast this
  have slow : ∀ n, simT A α β (n + 1) - simT A α β n ≤ 5000000 := by
    intro n
    rw [step]
    split_ifs <;> omega
  have cfg : WheelCfg (decoderInit dfltDecoder) 36 4 v 10 := by
    refine ⟨rfl, rfl, hv, ?_, by linarith, by linarith, by norm_num, by norm_num, by norm_num⟩
    have := rnd_nat 10 (by norm_num)
    exact_mod_cast this
  have vp : (34 / 100 : ℚ) * p ≤ v * p := mul_le_mul_of_nonneg_right v1 (by positivity)
  have steady : SteadyTeeth 36 34 4 v (simT A α β) :=
    band_steady band (by norm_num) (by norm_num) (by linarith) (by linarith) (by omega) (by
      push_cast
      linarith) (fun n => by have := slow n; omega)
  refine ⟨v, p, q, ⟨cfg, by norm_num, fun k hk => ?_, steady, ?_⟩, by norm_num, slow, band, by omega, ?_⟩
  · have := rnd_nat (10 * k) (by omega)
    push_cast at this
    exact this
  · have e3 := step 2
    rw [if_neg (by norm_num), if_neg (by norm_num)] at e3
    have e : simT A α β 2 = A + 3 * α := by
      have h0 := step 0
      have h1 := step 1
      norm_num at h0 h1
      have : simT A α β 0 = A := rfl
      linarith
    have et : (stamp (simT A α β 2) - dfltDecoder.times 0).toNat = (stamp (simT A α β 2)).toNat := by
      show (stamp (simT A α β 2) - 0#32).toNat = _
      rw [BitVec.sub_zero]
    have hn := stamp_toNat (d := A + 3 * α) (by omega) (by omega)
    show 16 * (simT A α β 3 - simT A α β 2) ≤ 23 * (((stamp (simT A α β 2) - dfltDecoder.times 0).toNat / 3 : ℕ) : ℤ)
    rw [e3, et, e]
    omega
  · push_cast
    norm_num
    linarith

/-- C56.  The shipped decoder, fed by the test wheel at any constant speed between 3 and 100000 rpm, started within nine
minutes of power-on, is synchronised after the first pulse of the second cycle, and stays so however long the test runs:
no trigger faults, the decoder is valid, and its angle is that of the tooth before, counted from the same tooth always. -/
theorem C56_tracked_partial {r : BitVec 32} (hr1 : 3 ≤ r.toNat) (hr2 : r.toNat ≤ 100000) {A : ℤ} (hA0 : 0 ≤ A)
    (hA1 : A ≤ 2 ^ 31) (i : ℕ) (hi : 72 ≤ i) :
    ∃ x s, simRun dfltDecoder 36 ⟨0, r, stamp A⟩ (i + 1) = .ok (x, s) ∧ x.1.valid = true ∧
      x.1.lastTriggerAngle = .fin (10 * (((simPos36 i - (if i % 71 = 1 then 1 else 0) + 34) % 72 : ℕ) : ℚ)) := by
  obtain ⟨a, b, ha, hb, y, y1, y2, a1, a2, b1, b2⟩ := sim_delays hr1 hr2
  obtain ⟨v, p, q, hu⟩ := sim_setup hA0 hA1 y1 y2 a1 a2 b1 b2
  have apos : 2 ≤ a.toNat := by
    have : (2 : ℚ) ≤ a.toNat := by norm_num at a1; linarith
    exact_mod_cast this
  have hab : a.toNat < b.toNat := by
    have : (a.toNat : ℚ) < b.toNat := by norm_num at a2 b1; linarith
    exact_mod_cast this
  obtain ⟨P, hP'⟩ : ∃ P : ℕ → ℤ, P = fun n => simT A a.toNat b.toNat n + (if n % 70 = 0 then (a.toNat : ℤ) else 1) := ⟨_, rfl⟩
  have hP0 : ∀ n, n % 70 = 0 → P n = simT A a.toNat b.toNat n + a.toNat := by
    intro n hn
    rw [hP']
    simp only [if_pos hn]
  have hP : ∀ n, simT A a.toNat b.toNat n < P n ∧ P n < simT A a.toNat b.toNat (n + 1) := by
    intro n
    rw [hP', show simT A a.toNat b.toNat (n + 1) = simT A a.toNat b.toNat n +
            (if n % 70 = 0 then 2 * (a.toNat : ℤ) else if n % 70 = 35 then (b.toNat : ℤ) else a.toNat) from rfl]
    simp only []
    split_ifs <;> omega
  have hg : afterGap 36 34 36 := rfl
  have hp : pulseAfter 36 34 34 70 := (sim_pulse 70).2 rfl
  by_cases h0 : i % 71 = 0
  · obtain ⟨n, hn, hin⟩ : ∃ n, 70 ≤ n ∧ i = n + n / 70 + 2 ∧ (n + 1) % 70 = 0 := by
      obtain ⟨c, hc⟩ : ∃ c, i = 71 * (c + 2) := ⟨i / 71 - 2, by omega⟩
      exact ⟨70 * c + 139, by omega, by omega, by omega⟩
    obtain ⟨x, y, h1, h2, h3, h4⟩ := cam_turn_mid hu rfl rfl (by norm_num) hP (by norm_num : 4 ≤ 36) hg (by norm_num) hp n hn
    have hx := sim_run36 hP0 ha hb n x h1
    rw [if_pos (by omega)] at hx
    have hy := sim_step36 ha hb hx (by norm_num) (y := y) (by rw [if_neg (by norm_num)]; exact h2)
    rw [hin.1]
    refine ⟨y, _, hy, h3, ?_⟩
    rw [h4]
    congr 4
    unfold wheelPos simPos36
    split_ifs <;> omega
  · obtain ⟨n, hn, hin, hc⟩ : ∃ n, 70 ≤ n ∧ i + 1 = n + n / 70 + 2 ∧ n / 70 = i / 71 :=
      ⟨70 * (i / 71) + (i % 71 - 1), by omega, by omega, by omega⟩
    obtain ⟨d, ex, h1, h2, h3, -⟩ :=
      C66_cam_partial hu rfl rfl (by norm_num) hP (by norm_num : 4 ≤ 36) hg (by norm_num) hp n hn
    have hx := sim_run36 hP0 ha hb n _ h1
    rw [hin]
    refine ⟨(d, ex), _, hx, h2, ?_⟩
    rw [h3]
    congr 4
    unfold wheelPos simPos36
    split_ifs <;> omega

/-- One run of it: after a thousand cycles at 6000 rpm, the tooth at 20 degrees after the start of the cycle. -/
example : ∃ x s, simRun dfltDecoder 36 ⟨0, 6000, stamp 10000⟩ (71000 + 2 + 1) = .ok (x, s) ∧ x.1.valid = true ∧
    x.1.lastTriggerAngle = .fin 360 := by
  obtain ⟨x, s, h1, h2, h3⟩ := C56_tracked_partial (r := 6000) (by decide) (by decide) (A := 10000) (by norm_num) (by norm_num)
    (71000 + 2) (by norm_num)
  refine ⟨x, s, h1, h2, ?_⟩
  rw [h3]
  unfold simPos36
  norm_num

end Verif
