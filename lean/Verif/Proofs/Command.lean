/-
The calculated values of a run, from its inputs and settings.
-/
import Verif.Spec.Command
import Verif.Proofs.FreePlan

namespace Verif

/-- `e'` has the settings of `e`. -/
def SameSettings (e e' : Engine) : Prop :=
  e'.cfg = { e.cfg with decoder := e'.cfg.decoder, events := e'.cfg.events, sensors := e'.cfg.sensors }

theorem SameSettings.trans {e e' e'' : Engine} (h : SameSettings e e') (h' : SameSettings e' e'') : SameSettings e e'' := by
  unfold SameSettings at *
  rw [h'] at *
  rw [h]

/-- The commanded values are the same. -/
structure SameValues (v v' : CalcValues) : Prop where
  advance : v'.timingAdvance = v.timingAdvance
  dwell : v'.dwellUs = v.dwellUs
  fuel : v'.fuelingUs = v.fuelingUs

/-- A step that decodes nothing. -/
structure Idles (e e' : Engine) : Prop where
  settings : SameSettings e e'
  values : SameValues e.vals e'.vals
  tipin : e'.tipin = e.tipin
  count : ∀ k, Decoded k e' → Decoded k e

variable [FloatFmt]

theorem cut_values {c : Config} {v : CalcValues} {r : Bool × CalcValues} (h : ignitionCut c v = .ok r) : SameValues v r.2 := by
  unfold ignitionCut rpmCut at h
  simp only at h
  generalize (if c.decoder.rpm.toNat < c.rpmStart.toNat then false else if c.rpmStop.toNat ≤ c.decoder.rpm.toNat then true else v.rpmLimitCut) = b at h
  cases b
  · simp only [Bool.false_eq_true, if_false, bind_eq_ok] at h
    obtain ⟨⟨o, v1⟩, h1, h⟩ := h
    unfold fuelOverduty at h1
    simp only [bind_eq_ok] at h1
    obtain ⟨t, -, h1⟩ := h1
    split_ifs at h1
    simp only [bind_eq_ok] at h1
    obtain ⟨pw, -, h1⟩ := h1
    cases h1
    simp only at h
    split at h
    · cases h; exact ⟨rfl, rfl, rfl⟩
    · cases h; exact ⟨rfl, rfl, rfl⟩
  · cases h; exact ⟨rfl, rfl, rfl⟩

theorem sched_idles {e e' : Engine} {now : Time} {i : Fin maxEvents} (h : engSchedule e now i = .ok e') :
    SameSettings e e' ∧ SameValues e.vals e'.vals ∧ e'.tipin = e.tipin ∧ e'.pc = e.pc ∧ e'.given = e.given := by
  unfold engSchedule at h
  split_ifs at h
  · cases h; exact ⟨rfl, ⟨rfl, rfl, rfl⟩, rfl, rfl, rfl⟩
  · simp only [bind_eq_ok] at h
    obtain ⟨⟨cut, v⟩, h1, ⟨evs, cb⟩, -, q, -, h⟩ := h
    cases h; exact ⟨rfl, cut_values h1, rfl, rfl, rfl⟩

omit [FloatFmt] in
theorem swap_idles (e : Engine) (now : Time) : Idles e (engSwap e now) := by
  unfold engSwap
  generalize bufferSwap e.dma now = s
  exact ⟨rfl, ⟨rfl, rfl, rfl⟩, rfl, fun k h => h⟩

/-- Either nothing is decoded, or a trigger is decoded and, if the decoder is synchronised, the values are calculated. -/
theorem step_values {e e' : Engine} {a : EngAct} (h : engStep e a = .ok e') :
    Idles e e' ∨ (SameSettings e e' ∧ e'.cfg.sensors = e.cfg.sensors ∧ (∀ k, Decoded k e → Decoded (k + 1) e') ∧ (∀ k, Decoded (k + 1) e' → Decoded k e) ∧
      ((e'.cfg.decoder.valid = false ∧ e'.tipin = e.tipin) ∨
        ∃ now v, calculateIgnition e'.cfg e.vals = .ok v ∧ calculateFueling e'.cfg now e.tipin v = .ok (e'.vals, e'.tipin))) := by
  have self : Idles e e := ⟨rfl, ⟨rfl, rfl, rfl⟩, rfl, fun _ h => h⟩
  have log : ∀ x, engLog e x = .ok e' → Idles e e' := by
    intro x h1
    unfold engLog at h1
    simp only [bind_eq_ok] at h1
    obtain ⟨l, -, h1⟩ := h1
    cases h1; exact ⟨rfl, ⟨rfl, rfl, rfl⟩, rfl, fun _ h => h⟩
  have idle : ∀ f, whenIdle e f = .ok e' → (e.pc = .idle → f = .ok e' → Idles e e') → Idles e e' := by
    intro f h1 h2
    unfold whenIdle at h1
    split at h1
    · next h => exact h2 h h1
    · cases h1; exact self
  have ends : ∀ (x : Engine), (∀ i t, x.pc ≠ .record i t) → (∀ i t, e.pc ≠ .record i t) → x.given = e.given → ∀ k, Decoded k x → Decoded k e := by
    intro x h1 h2 h3 k hk
    exact ⟨fun i t h => absurd h (h2 i t), fun _ => by rw [← h3]; exact hk.2 h1⟩
  cases a with
  | trigger k t =>
      refine .inl (idle _ h fun hi h => ?_)
      unfold engTrigger at h
      simp only [bind_eq_ok] at h
      obtain ⟨l, -, h⟩ := h
      cases h
      refine ⟨rfl, ⟨rfl, rfl, rfl⟩, rfl, fun m hm => ⟨fun i t h => (nomatch hi.symm.trans h), fun _ => ?_⟩⟩
      have := hm.1 k t rfl
      simp only [List.length_append, List.length_singleton] at this
      omega
  | work now =>
      change engWork e now = _ at h
      unfold engWork at h
      split at h
      · cases h; exact .inl self
      · next i t hpc =>
        split at h
        · simp only [bind_eq_ok] at h
          obtain ⟨e1, h1, h⟩ := h
          unfold engDecode at h1
          simp only [bind_eq_ok] at h1
          obtain ⟨o, -, q, -, evs, -, h1⟩ := h1
          cases h1
          unfold engCalc at h
          have cnt : ∀ (x : Engine), (∀ i t, x.pc ≠ .record i t) → x.given = e.given → ∀ k, Decoded (k + 1) x → Decoded k e := by
            intro x h1 h2 k hk
            exact ⟨fun _ _ _ => by rw [← h2]; exact hk.2 h1, fun hn => absurd hpc (hn i t)⟩
          have cnt' : ∀ (x : Engine), (∀ i t, x.pc ≠ .record i t) → x.given = e.given → ∀ k, Decoded k e → Decoded (k + 1) x := by
            intro x h1 h2 k hk
            exact ⟨fun i t h => absurd h (h1 i t), fun _ => by rw [h2]; exact hk.1 i t hpc⟩
          split_ifs at h with hv
          · simp only [bind_eq_ok] at h
            obtain ⟨v, h2, ⟨v', s⟩, h3, h⟩ := h
            cases h
            exact .inr ⟨rfl, rfl, cnt' _ (fun _ _ h => by cases h) rfl, cnt _ (fun _ _ h => by cases h) rfl, .inr ⟨now, v, h2, h3⟩⟩
          · cases h
            exact .inr ⟨rfl, rfl, cnt' _ (fun _ _ h => by cases h) rfl, cnt _ (fun _ _ h => by cases h) rfl, .inl ⟨by simpa using hv, rfl⟩⟩
        · simp only [bind_eq_ok] at h
          obtain ⟨l, -, h⟩ := h
          cases h; exact .inl ⟨rfl, ⟨rfl, rfl, rfl⟩, rfl, fun _ h => h⟩
      · next i hpc =>
        unfold engLoop at h
        split_ifs at h
        · simp only [bind_eq_ok] at h
          obtain ⟨e1, h1, h⟩ := h
          cases h
          obtain ⟨a1, a2, a3, a4, a5⟩ := sched_idles h1
          exact .inl ⟨a1, a2, a3, ends _ (fun _ _ h => by cases h) (fun _ _ h => by rw [hpc] at h; cases h) a5⟩
        · cases h
          exact .inl ⟨rfl, ⟨rfl, rfl, rfl⟩, rfl, ends _ (fun _ _ h => by cases h) (fun _ _ h => by rw [hpc] at h; cases h) rfl⟩
      · next hpc =>
        simp only [bind_eq_ok] at h
        obtain ⟨q, -, h⟩ := h
        cases h
        exact .inl ⟨rfl, ⟨rfl, rfl, rfl⟩, rfl, ends _ (fun _ _ h => by cases h) (fun _ _ h => by rw [hpc] at h; cases h) rfl⟩
  | timer now =>
      refine .inl (idle _ h fun hi h => ?_)
      unfold engTimer at h
      simp only [bind_eq_ok] at h
      obtain ⟨⟨c, q⟩, -, e1, h1, h⟩ := h
      cases h
      have no : ∀ i t, e.pc ≠ .record i t := fun _ _ h => by rw [hi] at h; cases h
      cases c with
      | expire =>
          unfold engCallback at h1
          simp only [bind_eq_ok] at h1
          obtain ⟨evs, -, h1⟩ := h1
          cases h1
          exact ⟨rfl, ⟨rfl, rfl, rfl⟩, rfl, ends _ (fun _ _ h => by cases h) no rfl⟩
      | event i =>
          obtain ⟨a1, a2, a3, a4, a5⟩ := sched_idles (e := { e with q := q }) h1
          exact ⟨a1, a2, a3, ends _ (fun _ _ h => by cases h) no a5⟩
      | testTrigger => cases h1; exact ⟨rfl, ⟨rfl, rfl, rfl⟩, rfl, ends _ (fun _ _ h => by cases h) no rfl⟩
      | replay => cases h1; exact ⟨rfl, ⟨rfl, rfl, rfl⟩, rfl, ends _ (fun _ _ h => by cases h) no rfl⟩
  | desync r =>
      refine .inl (idle _ h fun hi h => ?_)
      unfold engDesync at h
      simp only [bind_eq_ok] at h
      obtain ⟨l, -, h⟩ := h
      cases h; exact ⟨rfl, ⟨rfl, rfl, rfl⟩, rfl, fun _ h => h⟩
  | swap now =>
      change Except.ok (engSwap e now) = _ at h
      rw [← Except.ok.inj h]
      exact .inl (swap_idles e now)
  | sensors s => cases h; exact .inl ⟨rfl, ⟨rfl, rfl, rfl⟩, rfl, fun _ h => h⟩
  | get => exact .inl (log _ h)
  | getStep => exact .inl (log _ h)
  | logging b => exact .inl (log _ h)

/-- Settings decide what is calculated. -/
theorem ignition_at {e0 e : Engine} (h : SameSettings e0 e) (v : CalcValues) :
    calculateIgnition e.cfg v = calculateIgnition (atSpeed e0.cfg e.cfg.decoder.rpm e.cfg.sensors) v := by
  rw [h]; rfl

theorem fueling_at {e0 e : Engine} (h : SameSettings e0 e) (now : Time) (i : Tipin) (v : CalcValues) :
    calculateFueling e.cfg now i v = calculateFueling (atSpeed e0.cfg e.cfg.decoder.rpm e.cfg.sensors) now i v := by
  rw [h]; rfl

/-- The last state of a run is one of `G`. -/
theorem timed_last {A : ℤ → EngAct → Prop} {G : ℤ → Engine → Prop} {e0 e : Engine} {n E : ℤ} (h : EngTimed A G e0 n E e) : G n e := by
  cases h with
  | boot _ _ _ h => exact h
  | step _ _ _ _ _ _ _ h => exact h
  | swap _ _ _ _ h => exact h

theorem timed_weaken {A : ℤ → EngAct → Prop} {G G' : ℤ → Engine → Prop} {e0 e : Engine} {n E : ℤ} (hG : ∀ n e, G n e → G' n e)
    (h : EngTimed A G e0 n E e) : EngTimed A G' e0 n E e := by
  induction h with
  | boot h1 h2 h3 h4 => exact .boot h1 h2 h3 (hG _ _ h4)
  | step a _ h1 h2 h3 h4 h5 h6 ih => exact .step a ih h1 h2 h3 h4 h5 (hG _ _ h6)
  | swap _ h1 h2 h3 h4 ih => exact .swap ih h1 h2 h3 (hG _ _ h4)

theorem on_weaken {A : ℤ → EngAct → Prop} {G G' : ℤ → Engine → Prop} {e0 e : Engine} {n0 E0 n E : ℤ} (hG : ∀ n e, G n e → G' n e)
    (h : EngOn A G n0 E0 e0 n E e) : EngOn A G' n0 E0 e0 n E e := by
  induction h with
  | refl => exact .refl
  | step a _ h1 h2 h3 h4 h5 h6 ih => exact .step a ih h1 h2 h3 h4 h5 (hG _ _ h6)
  | swap _ h1 h2 h3 h4 ih => exact .swap ih h1 h2 h3 (hG _ _ h4)

theorem driven_weaken {A : ℤ → EngAct → Prop} {G G' : ℤ → Engine → Prop} {e1 e : Engine} {n1 E1 n E t : ℤ} {p : Fin 16} {v : Bool}
    (hG : ∀ n e, G n e → G' n e) (h : DrivenOn A G n1 E1 e1 n E e p v t) : DrivenOn A G' n1 E1 e1 n E e p v t := by
  obtain ⟨n', E', e', b, h1, h2, h3⟩ := h
  exact ⟨n', E', e', b, on_weaken hG h1, on_weaken hG h2, h3⟩

/-- What holds of all states of a run. -/
theorem timed_with {A : ℤ → EngAct → Prop} {G P : ℤ → Engine → Prop} {e0 e : Engine} {n E : ℤ}
    (hP : ∀ n E e, EngTimed A G e0 n E e → P n e) (h : EngTimed A G e0 n E e) : EngTimed A (fun n e => G n e ∧ P n e) e0 n E e := by
  induction h with
  | boot h1 h2 h3 h4 => exact .boot h1 h2 h3 ⟨h4, hP _ _ _ (.boot h1 h2 h3 h4)⟩
  | step a h h1 h2 h3 h4 h5 h6 ih => exact .step a ih h1 h2 h3 h4 h5 ⟨h6, hP _ _ _ (.step a h h1 h2 h3 h4 h5 h6)⟩
  | swap h h1 h2 h3 h4 ih => exact .swap ih h1 h2 h3 ⟨h4, hP _ _ _ (.swap h h1 h2 h3 h4)⟩

theorem on_with {A : ℤ → EngAct → Prop} {G P : ℤ → Engine → Prop} {e1 e : Engine} {n1 E1 n E : ℤ}
    (hP : ∀ n E e, EngOn A G n1 E1 e1 n E e → P n e) (h : EngOn A G n1 E1 e1 n E e) : EngOn A (fun n e => G n e ∧ P n e) n1 E1 e1 n E e := by
  induction h with
  | refl => exact .refl
  | step a h h1 h2 h3 h4 h5 h6 ih => exact .step a ih h1 h2 h3 h4 h5 ⟨h6, hP _ _ _ (.step a h h1 h2 h3 h4 h5 h6)⟩
  | swap h h1 h2 h3 h4 ih => exact .swap ih h1 h2 h3 ⟨h4, hP _ _ _ (.swap h h1 h2 h3 h4)⟩

/-- The values are those that the settings command. -/
structure Commanded (V δ : ℚ) (dlo dhi flo fhi : ℤ) (v : CalcValues) : Prop where
  spark : ∃ a, v.timingAdvance = .fin a ∧ |a - V| ≤ δ
  dwell : dlo ≤ 4 * (v.dwellUs.toNat : ℤ) ∧ 4 * (v.dwellUs.toNat : ℤ) ≤ dhi
  fuel : flo ≤ 4 * (v.fuelingUs.toNat : ℤ) ∧ 4 * (v.fuelingUs.toNat : ℤ) ≤ fhi

omit [FloatFmt] in
theorem Commanded.same {V δ : ℚ} {dlo dhi flo fhi : ℤ} {v v' : CalcValues} (h : Commanded V δ dlo dhi flo fhi v) (hs : SameValues v v') :
    Commanded V δ dlo dhi flo fhi v' := ⟨by rw [hs.advance]; exact h.spark, by rw [hs.dwell]; exact h.dwell, by rw [hs.fuel]; exact h.fuel⟩

/-- What fueling leaves alone. -/
theorem fueling_keeps {c : Config} {now : Time} {i i' : Tipin} {v v' : CalcValues} (h : calculateFueling c now i v = .ok (v', i')) :
    v'.timingAdvance = v.timingAdvance ∧ v'.dwellUs = v.dwellUs := by
  unfold calculateFueling at h
  simp only [bind_eq_ok] at h
  obtain ⟨ve, -, la, -, idt, -, ete, -, ⟨ti, s⟩, -, pwc, -, us, -, h⟩ := h
  cases h
  exact ⟨rfl, rfl⟩

/-- A synchronised decoder reports a speed of the wheel once `k0` triggers have been decoded. -/
def SpeedPlan (d0 : Decoder) (ev : ℕ → Int × ℤ) (k0 : ℕ) (g : ℚ) (p q : ℤ) : Prop :=
  ∃ x, DecPlan d0 ev x ∧ ∀ j, k0 ≤ j + 1 → (x (j + 1)).1.valid = true ∧ SpeedIn g p q (x (j + 1)).1.rpm

theorem speed_state {d0 : Decoder} {ev : ℕ → Int × ℤ} {k0 k : ℕ} {g : ℚ} {p q n E : ℤ} {G : ℤ → Engine → Prop} {eb e : Engine}
    (hp : SpeedPlan d0 ev k0 g p q) (hG : ∀ n e, G n e → EventsGiven ev n e) (hb : EngBoot eb) (hd : eb.cfg.decoder = decoderInit d0)
    (h : EngTimed Honest G eb n E e) (hk : Decoded (k + 1) e) (h0 : k0 ≤ k + 1) :
    e.cfg.decoder.valid = true ∧ SpeedIn g p q e.cfg.decoder.rpm := by
  obtain ⟨x, hp, hx⟩ := hp
  obtain ⟨-, j, hj⟩ := timed_decoded hp (G := G) hG hb hd h
  obtain rfl := hk.unique hj.count
  obtain ⟨a, b, hdec⟩ := hj.decoder
  rw [hdec]
  exact hx k h0

/-- The calculated values of a run. -/
theorem commands_hold {d0 : Decoder} {ev : ℕ → Int × ℤ} {k0 : ℕ} {g V δ : ℚ} {p q dlo dhi flo fhi n E : ℤ} {S : (Fin numSensors → Sensor) → Prop}
    {Ti : Tipin → Prop} {G : ℤ → Engine → Prop} {eb e : Engine} (hp : SpeedPlan d0 ev k0 g p q) (hG : ∀ n e, G n e → EventsGiven ev n e ∧ S e.cfg.sensors)
    (hC : Commands eb.cfg S Ti g p q V δ dlo dhi flo fhi) (hTi : Ti eb.tipin) (hb : EngBoot eb) (hd : eb.cfg.decoder = decoderInit d0)
    (h : EngTimed Honest G eb n E e) : SameSettings eb e ∧ Ti e.tipin ∧
      ∀ k, Decoded (k + 1) e → k0 ≤ k + 1 → Commanded V δ dlo dhi flo fhi e.vals := by
  induction h with
  | boot _ _ _ h4 =>
      refine ⟨rfl, hTi, fun k hk => ?_⟩
      have := hk.2 (by rw [hb.pc]; exact fun _ _ h => nomatch h)
      rw [hb.given] at this
      cases this
  | @step n n' E e e' a h h1 h2 h3 h4 h5 h6 ih =>
      obtain ⟨i1, i2, i3⟩ := ih
      have hsp := fun k => speed_state (k := k) hp (fun n e h => (hG n e h).1) hb hd (.step a h h1 h2 h3 h4 h5 h6)
      rcases step_values h5 with hi | ⟨s1, s2, -, -, ⟨s4, s5⟩ | ⟨now, v, s4, s5⟩⟩
      · exact ⟨i1.trans hi.settings, by rw [hi.tipin]; exact i2, fun k hk h0 => (i3 k (hi.count _ hk) h0).same hi.values⟩
      · refine ⟨i1.trans s1, by rw [s5]; exact i2, fun k hk h0 => ?_⟩
        have := (hsp k hk h0).1
        rw [s4] at this
        cases this
      · have set := i1.trans s1
        have hs := (hG _ _ (timed_last h)).2
        rw [← s2] at hs
        rw [ignition_at set] at s4
        rw [fueling_at set] at s5
        refine ⟨set, hC.tipin _ _ _ _ _ _ _ hs i2 s5, fun k hk h0 => ?_⟩
        obtain ⟨-, sp⟩ := hsp k hk h0
        obtain ⟨f1, f2⟩ := fueling_keeps s5
        refine ⟨?_, ?_, hC.fuel _ _ _ _ _ _ _ sp hs i2 s5⟩
        · rw [f1]; exact hC.spark _ _ _ _ sp hs s4
        · rw [f2]; exact hC.dwell _ _ _ _ sp hs s4
  | @swap n n' E e h h1 h2 h3 h4 ih =>
      obtain ⟨i1, i2, i3⟩ := ih
      have hi := swap_idles e (stamp n')
      exact ⟨i1.trans hi.settings, by rw [hi.tipin]; exact i2, fun k hk h0 => (i3 k (hi.count _ hk) h0).same hi.values⟩

/-- Nothing is cut. -/
theorem commands_cut {g V δ : ℚ} {p q dlo dhi flo fhi : ℤ} {S : (Fin numSensors → Sensor) → Prop} {Ti : Tipin → Prop} {eb e : Engine}
    (hC : Commands eb.cfg S Ti g p q V δ dlo dhi flo fhi) (hset : SameSettings eb e) (hs : S e.cfg.sensors) (sp : SpeedIn g p q e.cfg.decoder.rpm)
    (hv : Commanded V δ dlo dhi flo fhi e.vals) : NoCut e := by
  intro r hr
  have c1 : e.cfg.rpmStart = eb.cfg.rpmStart := by rw [hset]
  have c2 : e.cfg.boost = eb.cfg.boost := by rw [hset]
  have c3 : e.cfg.fueling = eb.cfg.fueling := by rw [hset]
  have h1 := hC.revs _ sp
  have h2 := hC.boost _ hs
  have h3 := hC.short
  have h4 := hv.fuel
  unfold ignitionCut rpmCut at hr
  simp only [c1, if_pos h1, Bool.false_eq_true, if_false, bind_eq_ok] at hr
  obtain ⟨⟨o, v1⟩, h5, hr⟩ := hr
  unfold fuelOverduty at h5
  simp only [bind_eq_ok] at h5
  obtain ⟨t, h6, h5⟩ := h5
  have h7 := hC.duty _ _ sp h6
  rw [c3] at h5
  split_ifs at h5
  simp only [bind_eq_ok] at h5
  obtain ⟨pw, h8, h5⟩ := h5
  rw [timeFromUs_eq _ (by omega)] at h8
  have h9 : pw.toNat = 4 * e.vals.fuelingUs.toNat := by
    rw [← Except.ok.inj h8]
    generalize e.vals.fuelingUs = r at *
    rw [BitVec.toNat_mul]
    show 4 * r.toNat % 2 ^ 32 = _
    omega
  rw [decide_eq_false (by omega)] at h5
  cases h5
  simp only [Bool.false_eq_true, if_false] at hr
  cases hr
  unfold boostCut
  simp only [c2]
  exact h2

/-- All states of a run whose triggers, sensors and latency are as assumed. -/
theorem commands_all {d0 : Decoder} {ev : ℕ → Int × ℤ} {k0 : ℕ} {g V δ : ℚ} {p q dlo dhi flo fhi late n E : ℤ} {S : (Fin numSensors → Sensor) → Prop}
    {Ti : Tipin → Prop} {G : ℤ → Engine → Prop} {eb e : Engine} (hp : SpeedPlan d0 ev k0 g p q) (hG : ∀ n e, G n e → InputsOn ev late S n e)
    (hC : Commands eb.cfg S Ti g p q V δ dlo dhi flo fhi) (hTi : Ti eb.tipin) (hb : EngBoot eb) (hd : eb.cfg.decoder = decoderInit d0)
    (h : EngTimed Honest G eb n E e) :
    EventsGiven ev n e ∧ ∀ k, Decoded (k + 1) e → k0 ≤ k + 1 → HandledBy (fun j => (ev j).2) late n e ∧ Commanded V δ dlo dhi flo fhi e.vals ∧ NoCut e := by
  have hg := hG _ _ (timed_last h)
  obtain ⟨i1, -, i3⟩ := commands_hold hp (fun n e h => ⟨(hG n e h).1, (hG n e h).2.2⟩) hC hTi hb hd h
  refine ⟨hg.1, fun k hk h0 => ?_⟩
  obtain ⟨-, sp⟩ := speed_state hp (fun n e h => (hG n e h).1) hb hd h hk h0
  exact ⟨hg.2.1, i3 k hk h0, commands_cut hC i1 hg.2.2 sp (i3 k hk h0)⟩

/-- What is said of the states up to `b` decoded triggers, for a list of advances. -/
def PathOk (G : ℤ → Engine → Prop) (ev : ℕ → Int × ℤ) (k0 : ℕ) (late dlo dhi : ℤ) (adv : ℕ → ℚ) (b : ℕ) (n : ℤ) (e : Engine) : Prop :=
  G n e ∧ FiringOn ev k0 late adv dlo dhi n e ∧ ∀ k, Decoded k e → k ≤ b

/-- A step adds at most one advance to the list. -/
theorem path_step {ev : ℕ → Int × ℤ} {k0 b b' : ℕ} {V δ : ℚ} {dlo dhi flo fhi late n n' : ℤ} {G : ℤ → Engine → Prop} {e e' : Engine} {adv : ℕ → ℚ}
    (hs : (∀ k, Decoded k e' → Decoded k e) ∧ SameValues e.vals e'.vals ∨ (∀ k, Decoded k e → Decoded (k + 1) e'))
    (hadv : ∀ j, |adv j - V| ≤ δ) (h : PathOk G ev k0 late dlo dhi adv b n e) (hb : Decoded b e) (hb' : Decoded b' e') (hg : G n' e') (he : EventsGiven ev n' e')
    (hc : ∀ k, Decoded (k + 1) e' → k0 ≤ k + 1 → HandledBy (fun j => (ev j).2) late n' e' ∧ Commanded V δ dlo dhi flo fhi e'.vals ∧ NoCut e') :
    ∃ adv', (∀ j, |adv' j - V| ≤ δ) ∧ (∀ n x, PathOk G ev k0 late dlo dhi adv b n x → PathOk G ev k0 late dlo dhi adv' b' n x) ∧
      PathOk G ev k0 late dlo dhi adv' b' n' e' := by
  have last : ∀ k, Decoded k e' → k ≤ b' := fun k hk => (hk.unique hb').le
  rcases hs with ⟨hs, hv⟩ | hs
  · obtain rfl := (hs _ hb').unique hb
    refine ⟨adv, hadv, fun n x h => h, hg, ⟨he, fun k hk h0 => ?_⟩, last⟩
    obtain ⟨c1, c2, c3⟩ := hc k hk h0
    obtain ⟨-, f2, -⟩ := h.2.1.2 k (hs _ hk) h0
    exact ⟨c1, by rw [hv.advance]; exact f2, c2.dwell.1, c2.dwell.2, c3⟩
  · obtain rfl := hb'.unique (hs _ hb)
    have key : ∃ a, |a - V| ≤ δ ∧ (k0 ≤ b + 1 → e'.vals.timingAdvance = .fin a) := by
      by_cases h0 : k0 ≤ b + 1
      · obtain ⟨-, c2, -⟩ := hc b hb' h0
        obtain ⟨a, a1, a2⟩ := c2.spark
        exact ⟨a, a2, fun _ => a1⟩
      · exact ⟨adv 0, hadv 0, fun h => absurd h h0⟩
    obtain ⟨a, a1, a2⟩ := key
    refine ⟨Function.update adv b a, fun j => ?_, fun n x hx => ⟨hx.1, ⟨hx.2.1.1, fun k hk h0 => ?_⟩, fun k hk => le_trans (hx.2.2 k hk) (by omega)⟩,
      hg, ⟨he, fun k hk h0 => ?_⟩, last⟩
    · by_cases hj : j = b
      · rw [hj, Function.update_self]; exact a1
      · rw [Function.update_of_ne hj]; exact hadv j
    · have := hx.2.2 _ hk
      rw [Function.update_of_ne (by omega)]
      exact hx.2.1.2 k hk h0
    · obtain rfl : k = b := by have := hk.unique hb'; omega
      obtain ⟨c1, c2, c3⟩ := hc k hk h0
      exact ⟨c1, by rw [Function.update_self]; exact a2 h0, c2.dwell.1, c2.dwell.2, c3⟩

theorem step_path {e e' : Engine} {a : EngAct} (h : engStep e a = .ok e') :
    (∀ k, Decoded k e' → Decoded k e) ∧ SameValues e.vals e'.vals ∨ (∀ k, Decoded k e → Decoded (k + 1) e') := by
  rcases step_values h with hi | ⟨-, -, h3, -⟩
  · exact .inl ⟨hi.count, hi.values⟩
  · exact .inr h3

/-- The advances of a run from the start. -/
theorem timed_path {d0 : Decoder} {ev : ℕ → Int × ℤ} {k0 b : ℕ} {g V δ : ℚ} {p q dlo dhi flo fhi late n E : ℤ} {S : (Fin numSensors → Sensor) → Prop}
    {Ti : Tipin → Prop} {G : ℤ → Engine → Prop} {eb e : Engine} (hδ : 0 ≤ δ) (hp : SpeedPlan d0 ev k0 g p q) (hG : ∀ n e, G n e → InputsOn ev late S n e)
    (hC : Commands eb.cfg S Ti g p q V δ dlo dhi flo fhi) (hTi : Ti eb.tipin) (hb : EngBoot eb) (hd : eb.cfg.decoder = decoderInit d0)
    (h : EngTimed Honest G eb n E e) (hk : Decoded b e) :
    ∃ adv, (∀ j, |adv j - V| ≤ δ) ∧ EngTimed Honest (PathOk G ev k0 late dlo dhi adv b) eb n E e := by
  have cnt : ∀ {n E e}, EngTimed Honest G eb n E e → ∃ j, Decoded j e := by
    intro n E e h
    obtain ⟨x, hx, -⟩ := hp
    obtain ⟨-, j, hj⟩ := timed_decoded hx (G := G) (fun n e h => (hG n e h).1) hb hd h
    exact ⟨j, hj.count⟩
  induction h generalizing b with
  | boot h1 h2 h3 h4 =>
      have all := commands_all hp hG hC hTi hb hd (.boot h1 h2 h3 h4)
      have h0 : ∀ k, Decoded k eb → k = 0 := by
        intro k hk
        have := hk.2 (by rw [hb.pc]; exact fun _ _ h => nomatch h)
        rw [hb.given] at this
        exact this.symm
      exact ⟨fun _ => V, fun _ => by rw [sub_self, abs_zero]; exact hδ, .boot h1 h2 h3 ⟨h4, ⟨all.1, fun k hk => absurd (h0 _ hk) (by omega)⟩, fun k hk => by rw [h0 k hk]; omega⟩⟩
  | @step n n' E e e' a h h1 h2 h3 h4 h5 h6 ih =>
      obtain ⟨j, hj⟩ := cnt h
      obtain ⟨adv, a1, a2⟩ := ih hj
      have all := commands_all hp hG hC hTi hb hd (.step a h h1 h2 h3 h4 h5 h6)
      obtain ⟨adv', b1, b2, b3⟩ := path_step (step_path h5) a1 (timed_last a2) hj hk h6 all.1 all.2
      exact ⟨adv', b1, .step a (timed_weaken b2 a2) h1 h2 h3 h4 h5 b3⟩
  | @swap n n' E e h h1 h2 h3 h4 ih =>
      obtain ⟨j, hj⟩ := cnt h
      obtain ⟨adv, a1, a2⟩ := ih hj
      have all := commands_all hp hG hC hTi hb hd (.swap h h1 h2 h3 h4)
      have hi := swap_idles e (stamp n')
      obtain ⟨adv', b1, b2, b3⟩ := path_step (.inl ⟨hi.count, hi.values⟩) a1 (timed_last a2) hj hk h4 all.1 all.2
      exact ⟨adv', b1, .swap (timed_weaken b2 a2) h1 h2 h3 b3⟩

theorem on_last {A : ℤ → EngAct → Prop} {G : ℤ → Engine → Prop} {e1 e : Engine} {n1 E1 n E : ℤ} (h : EngOn A G n1 E1 e1 n E e) (h1 : G n1 e1) : G n e := by
  cases h with
  | refl => exact h1
  | step _ _ _ _ _ _ _ h => exact h
  | swap _ _ _ _ h => exact h

/-- The advances of a run that goes on from `e1`; `Q` is what is known of the run up to there. -/
theorem more_path {d0 : Decoder} {ev : ℕ → Int × ℤ} {k0 b : ℕ} {g V δ : ℚ} {p q dlo dhi flo fhi late n1 E1 n E : ℤ} {S : (Fin numSensors → Sensor) → Prop}
    {Ti : Tipin → Prop} {G : ℤ → Engine → Prop} {eb e1 e : Engine} (hp : SpeedPlan d0 ev k0 g p q) (hG : ∀ n e, G n e → InputsOn ev late S n e)
    (hC : Commands eb.cfg S Ti g p q V δ dlo dhi flo fhi) (hTi : Ti eb.tipin) (hb : EngBoot eb) (hd : eb.cfg.decoder = decoderInit d0)
    (h1 : EngTimed Honest G eb n1 E1 e1) {Q : (ℤ → Engine → Prop) → Prop} (mono : ∀ F F', (∀ n x, F n x → F' n x) → Q F → Q F')
    (base : ∀ b, Decoded b e1 → ∃ adv, (∀ j, |adv j - V| ≤ δ) ∧ PathOk G ev k0 late dlo dhi adv b n1 e1 ∧ Q (PathOk G ev k0 late dlo dhi adv b))
    (h : EngOn Honest G n1 E1 e1 n E e) (hk : Decoded b e) :
    ∃ adv, (∀ j, |adv j - V| ≤ δ) ∧ PathOk G ev k0 late dlo dhi adv b n e ∧ Q (PathOk G ev k0 late dlo dhi adv b) ∧
      EngOn Honest (PathOk G ev k0 late dlo dhi adv b) n1 E1 e1 n E e := by
  have cnt : ∀ {n E e}, EngOn Honest G n1 E1 e1 n E e → ∃ j, Decoded j e := by
    intro n E e h
    obtain ⟨x, hx, -⟩ := hp
    obtain ⟨-, j, hj⟩ := timed_decoded hx (G := G) (fun n e h => (hG n e h).1) hb hd (on_timed h1 h)
    exact ⟨j, hj.count⟩
  induction h generalizing b with
  | refl =>
      obtain ⟨adv, a1, a2, a3⟩ := base b hk
      exact ⟨adv, a1, a2, a3, .refl⟩
  | @step n n' E e e' a h g1 h2 h3 h4 h5 h6 ih =>
      obtain ⟨j, hj⟩ := cnt h
      obtain ⟨adv, a1, a2, a3, a4⟩ := ih hj
      have all := commands_all hp hG hC hTi hb hd (on_timed h1 (.step a h g1 h2 h3 h4 h5 h6))
      obtain ⟨adv', b1, b2, b3⟩ := path_step (step_path h5) a1 a2 hj hk h6 all.1 all.2
      exact ⟨adv', b1, b3, mono _ _ b2 a3, .step a (on_weaken b2 a4) g1 h2 h3 h4 h5 b3⟩
  | @swap n n' E e h g1 h2 h3 h4 ih =>
      obtain ⟨j, hj⟩ := cnt h
      obtain ⟨adv, a1, a2, a3, a4⟩ := ih hj
      have all := commands_all hp hG hC hTi hb hd (on_timed h1 (.swap h g1 h2 h3 h4))
      have hi := swap_idles e (stamp n')
      obtain ⟨adv', b1, b2, b3⟩ := path_step (.inl ⟨hi.count, hi.values⟩) a1 a2 hj hk h4 all.1 all.2
      exact ⟨adv', b1, b3, mono _ _ b2 a3, .swap (on_weaken b2 a4) g1 h2 h3 b3⟩

/-- The advances of a run from the start through `e1` and `e2`. -/
theorem whole_path {d0 : Decoder} {ev : ℕ → Int × ℤ} {k0 : ℕ} {g V δ : ℚ} {p q dlo dhi flo fhi late n1 E1 n2 E2 n E : ℤ} {S : (Fin numSensors → Sensor) → Prop}
    {Ti : Tipin → Prop} {G : ℤ → Engine → Prop} {eb e1 e2 e : Engine} (hδ : 0 ≤ δ) (hp : SpeedPlan d0 ev k0 g p q) (hG : ∀ n e, G n e → InputsOn ev late S n e)
    (hC : Commands eb.cfg S Ti g p q V δ dlo dhi flo fhi) (hTi : Ti eb.tipin) (hb : EngBoot eb) (hd : eb.cfg.decoder = decoderInit d0)
    (h1 : EngTimed Honest G eb n1 E1 e1) (h2 : EngOn Honest G n1 E1 e1 n2 E2 e2) (h : EngOn Honest G n2 E2 e2 n E e) :
    ∃ adv F, (∀ j, |adv j - V| ≤ δ) ∧ (∀ n e, F n e → G n e) ∧ (∀ n e, F n e → FiringOn ev k0 late adv dlo dhi n e) ∧
      EngTimed Honest F eb n1 E1 e1 ∧ EngOn Honest F n1 E1 e1 n2 E2 e2 ∧ EngOn Honest F n2 E2 e2 n E e := by
  have cnt : ∃ j, Decoded j e := by
    obtain ⟨x, hx, -⟩ := hp
    obtain ⟨-, j, hj⟩ := timed_decoded hx (G := G) (fun n e h => (hG n e h).1) hb hd (on_timed (on_timed h1 h2) h)
    exact ⟨j, hj.count⟩
  obtain ⟨b, hk⟩ := cnt
  have p1 := fun b hk => timed_path (b := b) hδ hp hG hC hTi hb hd h1 hk
  have p2 := fun b hk => more_path (b := b) hp hG hC hTi hb hd h1 (Q := fun F => EngTimed Honest F eb n1 E1 e1) (fun F F' hF h => timed_weaken hF h)
    (fun b hk => (p1 b hk).imp fun adv h => ⟨h.1, timed_last h.2, h.2⟩) h2 hk
  obtain ⟨adv, a1, a2, ⟨a3, a4⟩, a5⟩ := more_path (b := b) hp hG hC hTi hb hd (on_timed h1 h2)
    (Q := fun F => EngTimed Honest F eb n1 E1 e1 ∧ EngOn Honest F n1 E1 e1 n2 E2 e2) (fun F F' hF h => ⟨timed_weaken hF h.1, on_weaken hF h.2⟩)
    (fun b hk => (p2 b hk).imp fun adv h => ⟨h.1, h.2.1, h.2.2.1, h.2.2.2⟩) h hk
  exact ⟨adv, _, a1, fun n e h => h.1, fun n e h => h.2.1, a3, a4, a5⟩

/-- The conditions of the theorems on injections. -/
def CommandOk (ev : ℕ → Int × ℤ) (k0 : ℕ) (late : ℤ) (V δ : ℚ) (dlo dhi flo fhi : ℤ) (n : ℤ) (e : Engine) : Prop :=
  EventsGiven ev n e ∧ ∀ k, Decoded (k + 1) e → k0 ≤ k + 1 → HandledBy (fun j => (ev j).2) late n e ∧ Commanded V δ dlo dhi flo fhi e.vals ∧ NoCut e

theorem CommandOk.injecting {ev : ℕ → Int × ℤ} {k0 : ℕ} {late dlo dhi flo fhi n : ℤ} {V δ : ℚ} {e : Engine} (h : CommandOk ev k0 late V δ dlo dhi flo fhi n e)
    (h0 : 1 ≤ k0) : InjectingOn ev k0 late flo fhi n e := by
  refine ⟨h.1, fun k hk hk0 => ?_⟩
  obtain ⟨k, rfl⟩ : ∃ j, k = j + 1 := ⟨k - 1, by omega⟩
  obtain ⟨c1, c2, c3⟩ := h.2 k hk hk0
  exact ⟨c1, c2.fuel.1, c2.fuel.2, c3⟩

/-- What holds of all states of a run holds along its three parts. -/
theorem three_runs {A : ℤ → EngAct → Prop} {n1 E1 n2 E2 n E : ℤ} {G P : ℤ → Engine → Prop} {eb e1 e2 e : Engine} (all : ∀ n E e, EngTimed A G eb n E e → P n e)
    (h1 : EngTimed A G eb n1 E1 e1) (h2 : EngOn A G n1 E1 e1 n2 E2 e2) (h : EngOn A G n2 E2 e2 n E e) :
    EngTimed A (fun n e => G n e ∧ P n e) eb n1 E1 e1 ∧ EngOn A (fun n e => G n e ∧ P n e) n1 E1 e1 n2 E2 e2 ∧
      EngOn A (fun n e => G n e ∧ P n e) n2 E2 e2 n E e :=
  ⟨timed_with all h1, on_with (fun _ _ _ h => all _ _ _ (on_timed h1 h)) h2, on_with (fun _ _ _ h' => all _ _ _ (on_timed (on_timed h1 h2) h')) h⟩

theorem command_runs {d0 : Decoder} {ev : ℕ → Int × ℤ} {k0 : ℕ} {g V δ : ℚ} {p q dlo dhi flo fhi late n1 E1 n2 E2 n E : ℤ} {S : (Fin numSensors → Sensor) → Prop}
    {Ti : Tipin → Prop} {G : ℤ → Engine → Prop} {eb e1 e2 e : Engine} (hp : SpeedPlan d0 ev k0 g p q) (hG : ∀ n e, G n e → InputsOn ev late S n e)
    (hC : Commands eb.cfg S Ti g p q V δ dlo dhi flo fhi) (hTi : Ti eb.tipin) (hb : EngBoot eb) (hd : eb.cfg.decoder = decoderInit d0)
    (h1 : EngTimed Honest G eb n1 E1 e1) (h2 : EngOn Honest G n1 E1 e1 n2 E2 e2) (h : EngOn Honest G n2 E2 e2 n E e) :
    EngTimed Honest (fun n e => G n e ∧ CommandOk ev k0 late V δ dlo dhi flo fhi n e) eb n1 E1 e1 ∧
      EngOn Honest (fun n e => G n e ∧ CommandOk ev k0 late V δ dlo dhi flo fhi n e) n1 E1 e1 n2 E2 e2 ∧
      EngOn Honest (fun n e => G n e ∧ CommandOk ev k0 late V δ dlo dhi flo fhi n e) n2 E2 e2 n E e :=
  three_runs (fun _ _ _ h => commands_all hp hG hC hTi hb hd h) h1 h2 h

/-- The same where the speed after trigger `j` is that of the tooth `τ j`. -/
def SpeedPlanOn (d0 : Decoder) (ev : ℕ → Int × ℤ) (τ : ℕ → ℕ) (k0 : ℕ) (g : ℚ) (p q : ℤ) : Prop :=
  ∃ x, DecPlan d0 ev x ∧ ∃ w : ℕ → BitVec 32, ∀ j, k0 ≤ j + 1 → (x (j + 1)).1.valid = true ∧ SpeedIn g p q (x (j + 1)).1.rpm ∧ (x (j + 1)).1.rpm = w (τ j)

theorem SpeedPlanOn.plan {d0 : Decoder} {ev : ℕ → Int × ℤ} {τ : ℕ → ℕ} {k0 : ℕ} {g : ℚ} {p q : ℤ} (h : SpeedPlanOn d0 ev τ k0 g p q) : SpeedPlan d0 ev k0 g p q := by
  obtain ⟨x, hp, w, hx⟩ := h
  exact ⟨x, hp, fun j hj => ⟨(hx j hj).1, (hx j hj).2.1⟩⟩

/-- Where the advance depends on the speed alone, it is one advance for each speed. -/
theorem steady_advance {c : Config} {S : (Fin numSensors → Sensor) → Prop} {Ti : Tipin → Prop} {g V δ : ℚ} {p q dlo dhi flo fhi : ℤ} (hδ : 0 ≤ δ)
    (hC : Commands c S Ti g p q V δ dlo dhi flo fhi) (hst : SteadyAdvance c S) :
    ∃ F : BitVec 32 → ℚ, (∀ r, |F r - V| ≤ δ) ∧ ∀ r s v w, SpeedIn g p q r → S s → calculateIgnition (atSpeed c r s) v = .ok w → w.timingAdvance = .fin (F r) := by
  have key : ∀ r, ∃ a : ℚ, |a - V| ≤ δ ∧ ∀ s v w, SpeedIn g p q r → S s → calculateIgnition (atSpeed c r s) v = .ok w → w.timingAdvance = .fin a := by
    intro r
    by_cases h : SpeedIn g p q r ∧ ∃ s v w, S s ∧ calculateIgnition (atSpeed c r s) v = .ok w
    · obtain ⟨h1, s, v, w, h2, h3⟩ := h
      obtain ⟨a, a1, a2⟩ := hC.spark _ _ _ _ h1 h2 h3
      exact ⟨a, a2, fun s' v' w' _ h5 h6 => by rw [← a1]; exact hst _ _ _ _ _ _ _ h5 h2 h6 h3⟩
    · exact ⟨V, by rw [sub_self, abs_zero]; exact hδ, fun s v w h1 h2 h3 => absurd ⟨h1, s, v, w, h2, h3⟩ h⟩
  choose F hF using key
  exact ⟨F, fun r => (hF r).1, fun r => (hF r).2⟩

/-- The advance of a run is the one calculated at the last trigger. -/
theorem advance_calc {d0 : Decoder} {ev : ℕ → Int × ℤ} {k0 : ℕ} {g : ℚ} {p q n E : ℤ} {S : (Fin numSensors → Sensor) → Prop}
    {x : ℕ → Decoder × Option Time} {G : ℤ → Engine → Prop} {eb e : Engine} (hp : DecPlan d0 ev x)
    (hx : ∀ j, k0 ≤ j + 1 → (x (j + 1)).1.valid = true ∧ SpeedIn g p q (x (j + 1)).1.rpm) (hG : ∀ n e, G n e → EventsGiven ev n e ∧ S e.cfg.sensors)
    (hb : EngBoot eb) (hd : eb.cfg.decoder = decoderInit d0)
    (h : EngTimed Honest G eb n E e) : SameSettings eb e ∧
      ∀ k, Decoded (k + 1) e → k0 ≤ k + 1 → ∃ s v w, S s ∧ calculateIgnition (atSpeed eb.cfg (x (k + 1)).1.rpm s) v = .ok w ∧ e.vals.timingAdvance = w.timingAdvance := by
  have spd : ∀ {k n E e}, EngTimed Honest G eb n E e → Decoded (k + 1) e → k0 ≤ k + 1 → e.cfg.decoder.valid = true ∧ e.cfg.decoder.rpm = (x (k + 1)).1.rpm := by
    intro k n E e h hk h0
    obtain ⟨-, j, hj⟩ := timed_decoded hp (G := G) (fun n e h => (hG n e h).1) hb hd h
    obtain rfl := hk.unique hj.count
    obtain ⟨a, b, hdec⟩ := hj.decoder
    rw [hdec]
    exact ⟨(hx k h0).1, rfl⟩
  induction h with
  | boot _ _ _ h4 =>
      refine ⟨rfl, fun k hk => ?_⟩
      have := hk.2 (by rw [hb.pc]; exact fun _ _ h => nomatch h)
      rw [hb.given] at this
      cases this
  | @step n n' E e e' a h h1 h2 h3 h4 h5 h6 ih =>
      obtain ⟨i1, i3⟩ := ih
      have hsp := fun k => spd (k := k) (.step a h h1 h2 h3 h4 h5 h6)
      rcases step_values h5 with hi | ⟨s1, s2, -, -, ⟨s4, s5⟩ | ⟨now, v, s4, s5⟩⟩
      · refine ⟨i1.trans hi.settings, fun k hk h0 => ?_⟩
        rw [hi.values.advance]
        exact i3 k (hi.count _ hk) h0
      · refine ⟨i1.trans s1, fun k hk h0 => ?_⟩
        have := (hsp k hk h0).1
        rw [s4] at this
        cases this
      · have set := i1.trans s1
        have hs := (hG _ _ (timed_last h)).2
        rw [← s2] at hs
        rw [ignition_at set] at s4
        refine ⟨set, fun k hk h0 => ?_⟩
        rw [(hsp k hk h0).2] at s4
        exact ⟨_, _, _, hs, s4, (fueling_keeps s5).1⟩
  | @swap n n' E e h h1 h2 h3 h4 ih =>
      obtain ⟨i1, i3⟩ := ih
      have hi := swap_idles e (stamp n')
      refine ⟨i1.trans hi.settings, fun k hk h0 => ?_⟩
      rw [hi.values.advance]
      exact i3 k (hi.count _ hk) h0

/-- The conditions along the three parts of a run, where the advance depends on the speed alone. -/
theorem steady_runs {d0 : Decoder} {ev : ℕ → Int × ℤ} {τ : ℕ → ℕ} {k0 : ℕ} {g V δ : ℚ} {p q dlo dhi flo fhi late : ℤ} {S : (Fin numSensors → Sensor) → Prop}
    {Ti : Tipin → Prop} {G : ℤ → Engine → Prop} {eb : Engine} (hδ : 0 ≤ δ) (hp : SpeedPlanOn d0 ev τ k0 g p q) (hG : ∀ n e, G n e → InputsOn ev late S n e)
    (hC : Commands eb.cfg S Ti g p q V δ dlo dhi flo fhi) (hst : SteadyAdvance eb.cfg S) (hTi : Ti eb.tipin) (hb : EngBoot eb) (hd : eb.cfg.decoder = decoderInit d0) :
    ∃ adv : ℕ → ℚ, (∀ j, |adv j - V| ≤ δ) ∧ ∀ n E e, EngTimed Honest G eb n E e → FiringOn ev k0 late (fun k => adv (τ k)) dlo dhi n e := by
  obtain ⟨F, f1, f2⟩ := steady_advance hδ hC hst
  obtain ⟨x, hx, w, hw⟩ := id hp
  refine ⟨fun j => F (w j), fun j => f1 _, fun n E e h => ?_⟩
  obtain ⟨c1, c2⟩ := commands_all hp.plan hG hC hTi hb hd h
  refine ⟨c1, fun k hk h0 => ?_⟩
  obtain ⟨c3, c4, c5⟩ := c2 k hk h0
  obtain ⟨s, v, v', d1, d2, d3⟩ := (advance_calc hx (fun j hj => ⟨(hw j hj).1, (hw j hj).2.1⟩) (fun n e h => ⟨(hG n e h).1, (hG n e h).2.2⟩) hb hd h).2 k hk h0
  refine ⟨c3, ?_, c4.dwell.1, c4.dwell.2, c5⟩
  rw [d3, f2 _ _ _ _ (hw k h0).2.1 d1 d2, (hw k h0).2.2]

omit [FloatFmt] in
theorem angle_unique {θ : ℤ → ℚ} {G ε : ℚ} {m m' t : ℤ} (hε : ε ≤ 20) (h : AtAngle θ G ε m t) (h' : AtAngle θ G ε m' t) : m = m' := by
  unfold AtAngle at h h'
  rw [abs_le] at h h'
  have h1 : (m : ℚ) < (m' + 1 : ℤ) := by push_cast; linarith
  have h2 : (m' : ℚ) < (m + 1 : ℤ) := by push_cast; linarith
  rw [Int.cast_lt] at h1 h2
  omega

omit [FloatFmt] in
theorem angle_close {pos : ℕ → ℕ} {M n0 m0 : ℕ} {θ : ℤ → ℚ} {G g δ : ℚ} {p q dlo dhi late : ℤ} {w : BitVec 32} {c : CrankTol} {T : ℕ → ℤ} {m m' P P' s : ℤ}
    (hw : WheelShape pos M g p q) (turns : CrankTurnsFrom θ c pos n0 m0 g T) (hc : c.Sane) (hδ : 0 ≤ δ)
    (room : CycleRoom (c.error + δ) g p q dlo dhi late w) (hT : Turning θ g p q) (h : AtAngle θ G (c.error + δ) m P) (h' : AtAngle θ G (c.error + δ) m' P')
    (a1 : dlo ≤ P - s) (a2 : P - s ≤ dhi) (b1 : dlo ≤ P' - s) (b2 : P' - s ≤ dhi) : m = m' := by
  obtain ⟨-, -, hg1, hp5, hpq, -, -, -⟩ := hw
  have hg0 : 0 < g := by linarith
  have hp0 : (5 : ℚ) ≤ p := by exact_mod_cast hp5
  have hq0 : (5 : ℚ) ≤ q := by exact_mod_cast (by omega : 5 ≤ q)
  have he0 : 0 ≤ c.error := by
    obtain ⟨w, w0, w1, -⟩ := turns.speed m0 le_rfl
    have := hc.angle0
    have := hc.even0
    have := hc.speed0
    unfold CrankTol.error
    linarith
  have hd0 : 0 < dlo := by
    have := room.charge
    have h2 : 0 ≤ 2 * (c.error + δ) * q := mul_nonneg (by linarith) (by linarith)
    have h3 : 0 < g * dlo := by linarith
    exact_mod_cast (pos_iff_pos_of_mul_pos h3).mp hg0
  wlog hle : P ≤ P' generalizing P P' m m'
  · exact (this h' h b1 b2 a1 a2 (by omega)).symm
  obtain ⟨t1, t2⟩ := hT P P' hle
  have hle' : ((P' - P : ℤ) : ℚ) ≤ (dhi : ℚ) := by exact_mod_cast (by omega : P' - P ≤ dhi)
  have hge' : (0 : ℚ) ≤ ((P' - P : ℤ) : ℚ) := by exact_mod_cast (by omega : 0 ≤ P' - P)
  push_cast at hle' hge'
  have hl : (0 : ℚ) ≤ late := by exact_mod_cast room.prompt
  have k1 : g * ((P' : ℚ) - P) ≤ g * dhi := mul_le_mul_of_nonneg_left hle' hg0.le
  have k2 := room.time
  have k3 : (p : ℚ) * (θ P' - θ P) ≤ p * 560 := by nlinarith [mul_nonneg hg0.le hl, mul_pos hg0 (by linarith : (0 : ℚ) < p)]
  have k4 : θ P' - θ P ≤ 560 := le_of_mul_le_mul_left k3 (by linarith)
  have hq : (0 : ℚ) ≤ θ P' - θ P := by
    by_contra hneg
    have := mul_neg_of_pos_of_neg (by linarith : (0 : ℚ) < q) (not_le.mp hneg)
    have := mul_nonneg hg0.le hge'
    linarith
  have he := room.error
  unfold AtAngle at h h'
  rw [abs_le] at h h'
  have h1 : (m : ℚ) < (m' + 1 : ℤ) := by push_cast; linarith
  have h2 : (m' : ℚ) < (m + 1 : ℤ) := by push_cast; linarith
  rw [Int.cast_lt] at h1 h2
  omega

/-- A crank wheel with a missing tooth. -/
theorem crank_speed {d0 : Decoder} {N s R n0 : ℕ} {v g : ℚ} {p q : ℤ} {T : ℕ → ℤ} (hu : RunSetup d0 N s R v g p q T) (ht : d0.type = .missingNosync)
    (hg : FirstGap N s R n0) : SpeedPlan d0 (fun j => (0, T j)) (n0 + 2) g p q := by
  obtain ⟨x, hp, hx⟩ := crank_plan hu ht hg
  refine ⟨x, hp, fun j hj => ⟨?_, average_band (n := j) hu.turn ht hg (hx (j + 1)) (by omega)⟩⟩
  obtain ⟨-, -, -, hat⟩ := wheel_key hu.turn.wheel ht hg (hx (j + 1))
  exact (hat (by omega)).1

/-- The same with a cam. -/
theorem cam_speed {d0 : Decoder} {N s R k n0 j1 : ℕ} {v g : ℚ} {p q : ℤ} {T P : ℕ → ℤ} (hu : RunSetup d0 N s R v g p q T) (hw : CamWheel d0 N s R k n0 T P)
    (hn : n0 + k < (camSlot (pulseAfter N s k) j1).tooth) :
    SpeedPlanOn d0 (camEvent (pulseAfter N s k) T P) (fun j => (camSlot (pulseAfter N s k) j).tooth) (j1 + 1) g p q := by
  obtain ⟨x, hp, hx, w, hr⟩ := cam_plan hu hw.type hw.unseen hw.place hw.between hw.start
  refine ⟨x, hp, w, fun j hj => ?_⟩
  have hf := cam_feed (pl := pulseAfter N s k) hu.turn.wheel.teeth.later hw.between
  have hle := lt_of_lt_of_le hn (hf.le (by omega : j1 ≤ j))
  exact ⟨(hx j hle).1.valid, (hx j hle).2, hr j hle⟩

/-- An even wheel with a cam. -/
theorem even_speed {d0 : Decoder} {N R W low c m j1 : ℕ} {v g : ℚ} {p q : ℤ} {T P : ℕ → ℤ} (he : EvenWheel d0 N R W low c m v g p q T P)
    (hn : m < (camSlot (fun n => n % N = c) j1).tooth) :
    SpeedPlanOn d0 (camEvent (fun n => n % N = c) T P) (fun j => (camSlot (fun n => n % N = c) j).tooth) (j1 + 1) g p q := by
  obtain ⟨x, hp, hx, w, hr⟩ := even_plan he
  refine ⟨x, hp, w, fun j hj => ?_⟩
  have hf := cam_feed (pl := fun n => n % N = c) he.wheel.teeth.later he.between
  have hle := lt_of_lt_of_le hn (hf.le (by omega : j1 ≤ j))
  exact ⟨(hx j hle).1.valid, (hx j hle).2, hr j hle⟩

/-- An even wheel without a cam. -/
theorem free_speed {d0 : Decoder} {N R W low : ℕ} {v g : ℚ} {p q : ℤ} {T : ℕ → ℤ} (he : FreeWheel d0 N R W low v g p q T) :
    SpeedPlan d0 (fun j => (0, T j)) (R - 1 + 2) g p q := by
  obtain ⟨x, hp, hx⟩ := free_plan he
  refine ⟨x, hp, fun j hj => ?_⟩
  obtain ⟨a, b⟩ := hx j (by omega)
  exact ⟨a.valid, b⟩

end Verif
