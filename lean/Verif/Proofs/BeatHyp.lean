/-
On a turning wheel every scheduling aims at the right cycle.
-/
import Verif.Proofs.BeatWheel
import Verif.Props.Cuts

namespace Verif

variable [FloatFmt]
open FloatFmt Fl

theorem sched_ignition {e e' : Engine} {now : Time} {i : Fin maxEvents} (h : engSchedule e now i = .ok e') : e'.cfg.ignition = e.cfg.ignition := by
  unfold engSchedule at h
  split_ifs at h
  · cases h; rfl
  · simp only [bind_eq_ok] at h
    obtain ⟨⟨cut, v⟩, -, ⟨evs, cb⟩, -, q, -, h⟩ := h
    cases h; rfl

omit [FloatFmt] in
theorem swap_ignition (e : Engine) (now : Time) : (engSwap e now).cfg.ignition = e.cfg.ignition := by
  unfold engSwap
  generalize bufferSwap e.dma now = s
  rfl

/-- The ignition settings do not change. -/
theorem step_ignition {e e' : Engine} {a : EngAct} (h : engStep e a = .ok e') : e'.cfg.ignition = e.cfg.ignition := by
  have idle : ∀ f, whenIdle e f = .ok e' → (f = .ok e' → e'.cfg.ignition = e.cfg.ignition) → e'.cfg.ignition = e.cfg.ignition := by
    intro f h1 h2
    unfold whenIdle at h1
    split at h1
    · exact h2 h1
    · cases h1; rfl
  have log : ∀ x, engLog e x = .ok e' → e'.cfg.ignition = e.cfg.ignition := by
    intro x h1
    unfold engLog at h1
    simp only [bind_eq_ok] at h1
    obtain ⟨l, -, h1⟩ := h1
    cases h1; rfl
  cases a with
  | trigger k t =>
      refine idle _ h fun h => ?_
      unfold engTrigger at h
      simp only [bind_eq_ok] at h
      obtain ⟨l, -, h⟩ := h
      cases h; rfl
  | work now =>
      change engWork e now = _ at h
      unfold engWork at h
      split at h
      · cases h; rfl
      · split at h
        · simp only [bind_eq_ok] at h
          obtain ⟨e1, h1, h⟩ := h
          unfold engDecode at h1
          simp only [bind_eq_ok] at h1
          obtain ⟨o, -, q, -, evs, -, h1⟩ := h1
          cases h1
          unfold engCalc at h
          split_ifs at h
          · simp only [bind_eq_ok] at h
            obtain ⟨v, -, ⟨v', s⟩, -, h⟩ := h
            cases h; rfl
          · cases h; rfl
        · simp only [bind_eq_ok] at h
          obtain ⟨l, -, h⟩ := h
          cases h; rfl
      · unfold engLoop at h
        split_ifs at h
        · simp only [bind_eq_ok] at h
          obtain ⟨e1, h1, h⟩ := h
          cases h
          have := sched_ignition h1
          exact this
        · cases h; rfl
      · simp only [bind_eq_ok] at h
        obtain ⟨q, -, h⟩ := h
        cases h; rfl
  | timer now =>
      refine idle _ h fun h => ?_
      unfold engTimer at h
      simp only [bind_eq_ok] at h
      obtain ⟨⟨c, q⟩, -, e1, h1, h⟩ := h
      cases h
      cases c with
      | expire =>
          unfold engCallback at h1
          simp only [bind_eq_ok] at h1
          obtain ⟨evs, -, h1⟩ := h1
          cases h1; rfl
      | event i =>
          have := sched_ignition (e := { e with q := q }) h1
          exact this
      | testTrigger => cases h1; rfl
      | replay => cases h1; rfl
  | desync r =>
      refine idle _ h fun h => ?_
      unfold engDesync at h
      simp only [bind_eq_ok] at h
      obtain ⟨l, -, h⟩ := h
      cases h; rfl
  | swap now =>
      change Except.ok (engSwap e now) = _ at h
      rw [← Except.ok.inj h]
      exact swap_ignition e now
  | sensors s => cases h; rfl
  | get => exact log _ h
  | getStep => exact log _ h
  | logging b => exact log _ h

theorem timed_ignition {A : ℤ → EngAct → Prop} {G : ℤ → Engine → Prop} {e0 e : Engine} {n E : ℤ} (h : EngTimed A G e0 n E e) :
    e.cfg.ignition = e0.cfg.ignition := by
  induction h with
  | boot => rfl
  | step a _ _ _ _ _ h5 _ ih => exact (step_ignition h5).trans ih
  | swap _ _ _ _ _ ih => exact (swap_ignition _ _).trans ih

/-- How far a limit of `q` degrees is. -/
theorem limit_bound {r : BitVec 32} {lim : Time} {x g : ℚ} {p q : ℤ} (hg : 0 < g) (hx0 : 0 ≤ x) (hx1 : x ≤ 180) (hb : 16 * g ≤ 5 * p)
    (hq0 : 0 < q) (hq : (q : ℚ) ≤ 23 / 16 * p) (hf : 4000000 / 6 * g ≤ 2 * q * r.toNat) (h : timeFromRpmDiff r (fin x) = .ok lim) :
    (lim.toNat : ℚ) * g < p * 680 := by
  obtain ⟨hr, hc⟩ := time_close0 hx0 (le_trans hx1 (by norm_num)) h
  have hr1 : (1 : ℚ) ≤ r.toNat := by exact_mod_cast hr
  generalize (r.toNat : ℚ) = ρ at *
  generalize (lim.toNat : ℚ) = l at *
  have hq1 : (0 : ℚ) < q := by exact_mod_cast hq0
  have hS : 4000000 / 6 * x / ρ * g ≤ 360 * q := by
    rw [div_mul_eq_mul_div, div_le_iff₀ (by linarith)]
    have h1 : x * (4000000 / 6 * g) ≤ x * (2 * q * ρ) := mul_le_mul_of_nonneg_left hf hx0
    have h2 : x * (2 * q * ρ) ≤ 180 * (2 * q * ρ) := mul_le_mul_of_nonneg_right hx1 (by positivity)
    linarith
  have hS0 : 0 ≤ 4000000 / 6 * x / ρ * g := by positivity
  have h3 := (abs_le.mp hc).2
  generalize 4000000 / 6 * x / ρ = S at *
  have h4 : l * g ≤ (S + (S / 2 ^ 21 + 3 / 2)) * g := mul_le_mul_of_nonneg_right (by linarith) hg.le
  have h5 : (S + (S / 2 ^ 21 + 3 / 2)) * g = S * g + S * g / 2 ^ 21 + 3 / 2 * g := by ring
  norm_num at h5
  linarith

omit [FloatFmt] in
theorem gap_le {ε g : ℚ} {p x : ℤ} (hg : 0 < g) (hp : 0 < p) (he : ε ≤ 20) (h : (x : ℚ) * g ≤ p * 680) : x ≤ sparkGap ε g p := by
  have hp' : (0 : ℚ) < p := by exact_mod_cast hp
  have h1 := Int.le_ceil (p * (720 - 2 * ε) / g)
  have h2 : (x : ℚ) ≤ p * (720 - 2 * ε) / g := by
    rw [le_div_iff₀ hg]
    nlinarith
  have h3 : ((x : ℤ) : ℚ) ≤ ((sparkGap ε g p : ℤ) : ℚ) := le_trans h2 h1
  exact_mod_cast h3

omit [FloatFmt] in
theorem gap_lt {ε g : ℚ} {p x : ℤ} (hg : 0 < g) (hp : 0 < p) (he : ε ≤ 20) (h : (x : ℚ) * g < p * 680) : x < sparkGap ε g p := by
  have hp' : (0 : ℚ) < p := by exact_mod_cast hp
  have h1 := Int.le_ceil (p * (720 - 2 * ε) / g)
  have h2 : (x : ℚ) < p * (720 - 2 * ε) / g := by
    rw [lt_div_iff₀ hg]
    nlinarith
  have h3 : ((x : ℤ) : ℚ) < ((sparkGap ε g p : ℤ) : ℚ) := lt_of_lt_of_le h2 h1
  exact_mod_cast h3

/-- What the firmware knows in a state of a run in which trigger `k` is the last one decoded and tooth `j` the last tooth. -/
structure AtTooth (θ : ℤ → ℚ) (c : CrankTol) (pos : ℕ → ℕ) (M n0 m0 : ℕ) (g O : ℚ) (q : ℤ) (T : ℕ → ℤ) (k j : ℕ) (n : ℤ) (e : Engine) : Prop where
  late : m0 ≤ j
  count : Decoded (k + 1) e
  valid : e.cfg.decoder.valid = true
  offset : e.cfg.decoder.offset = .fin O
  angle : e.cfg.decoder.lastTriggerAngle = .fin (toothReads pos M n0 g j)
  floor : 4000000 / 6 * g ≤ 2 * q * (e.cfg.decoder.rpm.toNat : ℚ)
  passed : T j ≤ n
  recent : n - T j ≤ 2 ^ 24
  knows : KnowsCrank θ c (T j) e.cfg.decoder

/-- Every state of a run from the second synchronised tooth on. -/
theorem run_at_tooth {d0 : Decoder} {N s R n0 k1 : ℕ} {v g O : ℚ} {p q : ℤ} {T : ℕ → ℤ} {θ : ℤ → ℚ} {c : CrankTol}
    {eb e1 e : Engine} {n1 E1 n E : ℤ} {Gd : ℤ → Engine → Prop}
    (hu : RunSetup d0 N s R v g p q T) (ht : d0.type = .missingNosync) (hg : FirstGap N s R n0) (ho : d0.offset = .fin O)
    (turns : CrankTurns θ c (wheelPos N s) n0 g T) (hc : c.Sane) (s0 : 1 / 2 ^ 18 ≤ c.speed)
    (hG : ∀ n e, Gd n e → TeethGiven T n e) (hb : EngBoot eb) (hd : eb.cfg.decoder = decoderInit d0)
    (h1 : EngTimed Honest Gd eb n1 E1 e1) (hk1 : Decoded (k1 + 1) e1) (hn : n0 < k1)
    (h : EngOn Honest Gd n1 E1 e1 n E e) : Gd n e ∧ ∃ j, k1 ≤ j ∧ AtTooth θ c (wheelPos N s) (2 * N) n0 (n0 + 1) g O q T j j n e := by
  obtain ⟨hN3, hg1, hg2, hp5, hpq, hp', hq', hq16, hq8⟩ := speed_range hu turns hc.speed1
  obtain ⟨x, hp, hx⟩ := crank_plan hu ht hg
  obtain ⟨-, j1, hj1⟩ := timed_decoded hp (G := Gd) hG hb hd h1
  obtain rfl := hk1.unique hj1.count
  obtain ⟨j', l1, hj'⟩ := on_decoded hp (G := Gd) hG hj1 h
  obtain ⟨gy, -⟩ := timed_decoded hp (G := Gd) hG hb hd (on_timed h1 h)
  obtain ⟨j, rfl⟩ : ∃ j, j' = j + 1 := ⟨j' - 1, by omega⟩
  obtain ⟨hcfg, -, -, hat⟩ := wheel_key hu.turn.wheel ht hg (hx (j + 1))
  obtain ⟨hval, htr, -⟩ := hat (by omega)
  obtain ⟨a, b, hdec⟩ := hj'.decoder
  obtain ⟨kk, kk1, kk2, kk3⟩ := hG _ _ gy
  have hlen : e.given.length = kk := by rw [kk1]; simp
  have hgl := hj'.count.given
  rw [hlen] at hgl
  have hTn : n - T j ≤ 2 ^ 24 := by
    have h1 := hu.turn.slow j
    have h2 := hu.turn.slow (j + 1)
    have h3 := steady_mono hu.turn.wheel.teeth (by omega : kk ≤ j + 1 + 1)
    omega
  refine ⟨gy, j, by omega, by omega, hj'.count, by rw [hdec]; exact hval, ?_, by rw [hdec]; exact htr.angle, ?_, kk2 j (by omega), hTn, ?_⟩
  · rw [hdec]
    exact (congrArg DecConfig.offset hcfg).trans ho
  · rw [hdec]
    exact (average_band (n := j) hu.turn ht hg (hx (j + 1)) (by omega)).floor (by omega) hq8
  · rw [hdec]
    obtain ⟨w, w0, w1, even, last⟩ := turns.speed j (by omega)
    exact knows_recount (C76_sees hu.turn.wheel ht hg (hx (j + 1)) (by omega) (by have := hu.turn.size; omega) (turns.place j (by omega)) w0 w1 even last
      s0 hc.speed1 (turns.fast j (by omega)) (turns.slow j (by omega))) a b

omit [FloatFmt] in
/-- The engine is turning. -/
theorem AtTooth.running {pos : ℕ → ℕ} {M n0 m0 k j : ℕ} {g O : ℚ} {q n : ℤ} {T : ℕ → ℤ} {θ : ℤ → ℚ} {c : CrankTol} {e : Engine}
    (h : AtTooth θ c pos M n0 m0 g O q T k j n e) (hg : 0 < g) : e.cfg.decoder.rpm ≠ 0 ∧ e.cfg.decoder.valid = true := by
  refine ⟨fun h0 => ?_, h.valid⟩
  have hf := h.floor
  rw [h0] at hf
  simp at hf
  linarith

/-- Where an end that is computed lands. -/
theorem AtTooth.lands {pos : ℕ → ℕ} {M n0 m0 k j : ℕ} {g O G δ : ℚ} {F : ℕ → ℚ → Fl} {q n : ℤ} {T : ℕ → ℤ} {θ : ℤ → ℚ} {c : CrankTol} {e : Engine} {K : ℕ → ℤ} {ang : Fl} {t : Time}
    (h : AtTooth θ c pos M n0 m0 g O q T k j n e) (hc : c.Sane) (turns : CrankTurnsFrom θ c pos n0 m0 g T) (hK : CycleOf pos M n0 g G δ F K) (hm0 : n0 ≤ m0)
    (c1 : clampAngle (F j (toothReads pos M n0 g j)) (fin 720) = .ok ang) (c2 : timeFromRpmDiff e.cfg.decoder.toothRpm ang = .ok t) :
    ∃ u : ℤ, e.cfg.decoder.lastTriggerTime + t = stamp (T j + u) ∧ 0 ≤ u ∧ u < 2 ^ 29 ∧ AtAngle θ G (c.error + δ) (K j) (T j + u) := by
  obtain ⟨y, rfl, y0, y1, y2⟩ := hK.arg j (hm0.trans h.late) ang c1
  obtain ⟨u, u1, u2, u3, u4⟩ := time_lands hc h.knows (turns.place j h.late) y0 y1 c2
  refine ⟨u, u1, u2, u3, ?_⟩
  unfold AtAngle
  have h2 := abs_le.mp u4
  have h3 := abs_le.mp y2
  unfold toothAngle at h3
  rw [abs_le]
  constructor <;> linarith [h2.1, h2.2, h3.1, h3.2]

/-- The limits of 90 and 180 degrees are shorter than a cycle. -/
theorem AtTooth.limit {pos : ℕ → ℕ} {M n0 m0 k j : ℕ} {g O ε x : ℚ} {p q n dlo dhi late : ℤ} {T : ℕ → ℤ} {θ : ℤ → ℚ} {c : CrankTol} {e : Engine} {mf : BitVec 32} {lim : Time}
    (h : AtTooth θ c pos M n0 m0 g O q T k j n e) (hg : 0 < g) (hp : 0 < p) (hq : 0 < q) (hq16 : (q : ℚ) ≤ 23 / 16 * p)
    (hr : CycleRoom ε g p q dlo dhi late mf) (hx0 : 0 ≤ x) (hx1 : x ≤ 180) (hl : timeFromRpmDiff e.cfg.decoder.rpm (fin x) = .ok lim) :
    (lim.toNat : ℤ) < sparkGap ε g p :=
  gap_lt hg hp hr.error (by exact_mod_cast limit_bound hg hx0 hx1 hr.buffer hq hq16 h.floor hl)

omit [FloatFmt] in
/-- The length of a pulse that fits into a cycle. -/
theorem CycleRoom.small {ε g : ℚ} {p q dlo dhi late : ℤ} {mf : BitVec 32} (hr : CycleRoom ε g p q dlo dhi late mf) (hg : 9 ≤ g)
    (hp : (p : ℚ) ≤ 12000 * g) (hp0 : 0 ≤ p) : dhi ≤ 2 ^ 26 := by
  have h2 : ((dhi : ℤ) : ℚ) ≤ ((2 ^ 26 : ℤ) : ℚ) := by
    have h3 := hr.time
    have h5 : (0 : ℚ) ≤ late := by exact_mod_cast hr.prompt
    have h6 : (0 : ℚ) ≤ p := by exact_mod_cast hp0
    push_cast
    by_contra hn
    nlinarith
  exact_mod_cast h2

/-- In every state of a run from `e1` on, trigger `k1` or a later one being the last one decoded, the firmware knows the crank. -/
def Follows (θ : ℤ → ℚ) (c : CrankTol) (pos : ℕ → ℕ) (M n0 m0 : ℕ) (g O : ℚ) (q : ℤ) (T : ℕ → ℤ) (τ : ℕ → ℕ) (k1 : ℕ) (Gd : ℤ → Engine → Prop) (n1 E1 : ℤ)
    (e1 : Engine) : Prop :=
  ∀ n E e, EngOn Honest Gd n1 E1 e1 n E e → Gd n e ∧ ∃ k, k1 ≤ k ∧ AtTooth θ c pos M n0 m0 g O q T k (τ k) n e

theorem on_trans {A : ℤ → EngAct → Prop} {G : ℤ → Engine → Prop} {e1 e2 e : Engine} {n1 E1 n2 E2 n E : ℤ} (h : EngOn A G n1 E1 e1 n2 E2 e2)
    (ho : EngOn A G n2 E2 e2 n E e) : EngOn A G n1 E1 e1 n E e := by
  induction ho with
  | refl => exact h
  | step a _ h1 h2 h3 h4 h5 h6 ih => exact .step a ih h1 h2 h3 h4 h5 h6
  | swap _ h1 h2 h3 h4 ih => exact .swap ih h1 h2 h3 h4

/-- The rest of the run. -/
theorem Follows.rest {pos : ℕ → ℕ} {M n0 m0 k1 : ℕ} {g O : ℚ} {q n1 E1 n2 E2 : ℤ} {T : ℕ → ℤ} {τ : ℕ → ℕ} {θ : ℤ → ℚ} {c : CrankTol} {Gd : ℤ → Engine → Prop}
    {e1 e2 : Engine} (h : Follows θ c pos M n0 m0 g O q T τ k1 Gd n1 E1 e1) (h2 : EngOn Honest Gd n1 E1 e1 n2 E2 e2) :
    Follows θ c pos M n0 m0 g O q T τ k1 Gd n2 E2 e2 := fun n E e h3 => h n E e (on_trans h2 h3)

omit [FloatFmt] in
/-- A decoded trigger has come. -/
theorem events_passed {ev : ℕ → Int × ℤ} {n : ℤ} {e : Engine} {k : ℕ} (h : EventsGiven ev n e) (hk : Decoded (k + 1) e) : (ev k).2 ≤ n := by
  obtain ⟨m, h1, h2, -⟩ := h
  have hlen : e.given.length = m := by rw [h1]; simp
  have := hk.given
  exact h2 k (by omega)

/-- A crank wheel alone. -/
theorem run_follows {d0 : Decoder} {N s R n0 k1 : ℕ} {v g O : ℚ} {p q : ℤ} {T : ℕ → ℤ} {θ : ℤ → ℚ} {c : CrankTol}
    {eb e1 : Engine} {n1 E1 : ℤ} {Gd : ℤ → Engine → Prop}
    (hu : RunSetup d0 N s R v g p q T) (ht : d0.type = .missingNosync) (hg : FirstGap N s R n0) (ho : d0.offset = .fin O)
    (turns : CrankTurns θ c (wheelPos N s) n0 g T) (hc : c.Sane) (s0 : 1 / 2 ^ 18 ≤ c.speed)
    (hG : ∀ n e, Gd n e → TeethGiven T n e) (hb : EngBoot eb) (hd : eb.cfg.decoder = decoderInit d0)
    (h1 : EngTimed Honest Gd eb n1 E1 e1) (hk1 : Decoded (k1 + 1) e1) (hn : n0 < k1) :
    Follows θ c (wheelPos N s) (2 * N) n0 (n0 + 1) g O q T id k1 Gd n1 E1 e1 := fun _ E _ h => run_at_tooth (E := E) hu ht hg ho turns hc s0 hG hb hd h1 hk1 hn h

/-- Every state of a run in which the firmware knows the crank schedules its sparks for the right cycle. -/
theorem fire_hyp {pos : ℕ → ℕ} {M n0 m0 k0 k1 : ℕ} {ev : ℕ → Int × ℤ} {τ : ℕ → ℕ} {g A V O δ : ℚ} {adv : ℕ → ℚ} {p q dlo dhi late jit top : ℤ} {T : ℕ → ℤ} {θ : ℤ → ℚ} {c : CrankTol} {K : ℕ → ℤ}
    {eb e1 e : Engine} {n1 E1 n E : ℤ} {i : Fin maxEvents}
    (hw : WheelShape pos M g p q) (turns : CrankTurnsFrom θ c pos n0 m0 g T) (hc : c.Sane)
    (hr : CycleRoom (c.error + δ) g p q dlo dhi late eb.cfg.ignition.minFireUs)
    (hK : CycleOf pos M n0 g (A - V + O) δ (fun j a => fin A - fin (adv j) - fin a + fin O) K)
    (hB : Beats (AtAngle θ (A - V + O) (c.error + δ)) jit (sparkGap (c.error + δ) g p) top) (hj : jit < dlo)
    (hb : EngBoot eb) (hi : (eb.cfg.events i).type = .ignition) (hA : (eb.cfg.events i).angle = .fin A)
    {Gd : ℤ → Engine → Prop} (hGd : ∀ n e, Gd n e → FiringOn ev k0 late (fun k => adv (τ k)) dlo dhi n e) (h1 : EngTimed Honest Gd eb n1 E1 e1) (hk0 : k0 ≤ k1 + 1) (hm0 : n0 ≤ m0)
    (fol : Follows θ c pos M n0 m0 g O q T τ k1 Gd n1 E1 e1)
    (h : EngOn Honest Gd n1 E1 e1 n E e) :
    RunHyp (AtAngle θ (A - V + O) (c.error + δ)) (SparkAim (AtAngle θ (A - V + O) (c.error + δ)) dlo dhi) (sparkGap (c.error + δ) g p) dlo dhi late (fun j => (ev j).2)
      (fun j => K (τ j)) i n E e := by
  obtain ⟨-, -, hg1, hp5, hpq, hp', hq', hq16⟩ := id hw
  have hp0 : (5 : ℚ) ≤ p := by exact_mod_cast hp5
  have hg0 : 0 < g := by linarith
  obtain ⟨gd, j, l1, hat⟩ := fol n E e h
  have gy := hGd _ _ gd
  obtain ⟨g1, g2, g3, g4, g5⟩ := gy.2 j hat.count (by omega)
  obtain ⟨-, ci, -⟩ := clock_reach hb .boot (timed_clock (on_timed h1 h))
  have hstat := clock_static (timed_clock (on_timed h1 h)) i
  have hign := timed_ignition (on_timed h1 h)
  have hTj := hat.passed
  have hTn := hat.recent
  have hdhi := hr.small hg1 hp' (by omega)
  refine ⟨g5, g1, hat.valid, fun k hk => ?_⟩
  obtain rfl : k = j := by have := hk.unique hat.count; omega
  refine ⟨events_passed gy.1 hat.count, aimed_moves hB hj (by omega) (hstat.1.trans hi) ⟨hat.running hg0, fun env stop dwell he hmf hstop hdwell => ?_⟩⟩
  unfold ignitionStop at hstop
  simp only [bind_eq_ok] at hstop
  obtain ⟨ang, c1, t, c2, c3⟩ := hstop
  cases c3
  rw [hstat.2.1, hA, he.advance, g2, he.d, hat.angle, hat.offset] at c1
  rw [he.d] at c2
  obtain ⟨u, u1, u2, u3, u4⟩ := hat.lands hc turns hK hm0 c1 c2
  rw [he.dwell, timeFromUs_eq _ (by omega)] at hdwell
  have hE1 := ci.after
  have hE2 := ci.before
  refine ⟨T (τ k) + u, 4 * (e.vals.dwellUs.toNat : ℤ), by rw [he.d]; exact u1, ?_, ⟨?_, u4, by omega, by omega, g3, g4, ?_, ?_, ?_⟩, ?_⟩
  · rw [← Except.ok.inj hdwell]
    apply BitVec.eq_of_toNat_eq
    have := stamp_toNat_mod (4 * (e.vals.dwellUs.toNat : ℤ))
    generalize e.vals.dwellUs = r at *
    have h2 : (4 * r).toNat = 4 * r.toNat := by
      rw [BitVec.toNat_mul]
      show 4 * r.toNat % 2 ^ 32 = _
      omega
    omega
  · rw [he.earliest]; exact ci.early
  · rw [he.d]; exact hat.running hg0
  · intro lim hl
    rw [he.d] at hl
    exact hat.limit hg0 (by omega) (by omega) hq16 hr (by norm_num) (by norm_num) hl
  · intro lim hl
    rw [he.d] at hl
    exact (hat.limit hg0 (by omega) (by omega) hq16 hr (by norm_num) (by norm_num) hl).le
  · intro lim hl
    rw [hmf, hign] at hl
    have hag := hr.again
    refine gap_le hg0 (by omega) hr.error ?_
    have hdl : (0 : ℚ) ≤ dhi := by
      have h2 : (0 : ℤ) ≤ dhi := by omega
      exact_mod_cast h2
    generalize eb.cfg.ignition.minFireUs = r at *
    have hr24 : r.toNat ≤ 2 ^ 24 := by
      have h2 : ((r.toNat : ℕ) : ℚ) ≤ ((2 ^ 24 : ℕ) : ℚ) := by
        push_cast
        by_contra hn
        nlinarith
      exact_mod_cast h2
    rw [timeFromUs_eq _ hr24] at hl
    rw [← Except.ok.inj hl]
    have h2 : (4 * r).toNat = 4 * r.toNat := by
      rw [BitVec.toNat_mul]
      show 4 * r.toNat % 2 ^ 32 = _
      omega
    rw [h2]
    push_cast
    exact hag

end Verif
