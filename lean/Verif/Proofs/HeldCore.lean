/-
A charge or an injection that has begun ends, whatever triggers the crank is known from.
-/
import Verif.Proofs.BeatHeld
import Verif.Proofs.CycleCore
import Verif.Proofs.PulsesCore

namespace Verif

variable [FloatFmt]

/-- The ends of a cycle are long over when the cycle after the next has come. -/
theorem cycle_past {pos : ℕ → ℕ} {M n0 m0 k1 : ℕ} {ev : ℕ → Int × ℤ} {τ : ℕ → ℕ} {g G ε δ : ℚ} {F : ℕ → ℚ → Fl} {p q dlo dhi late : ℤ} {T : ℕ → ℤ} {θ : ℤ → ℚ}
    {c : CrankTol} {K : ℕ → ℤ} {mf : BitVec 32}
    (hw : WheelShape pos M g p q) (hf : WheelFeed ev τ T) (turns : CrankTurnsFrom θ c pos n0 m0 g T) (hT : Turning θ g p q) (hc : c.Sane)
    (hce : c.error + δ ≤ ε) (room : CycleRoom ε g p q dlo dhi late mf) (hK : CycleOf pos M n0 g G δ F K) (hn : m0 ≤ τ k1) (hm0 : n0 ≤ m0) :
    ∀ j ≥ k1, ∀ κ, κ + 2 ≤ K (τ j) → ∀ t, AtAngle θ G ε κ t → t ≤ (ev j).2 - 256 := by
  obtain ⟨-, -, hg1, hp5, hpq, -⟩ := id hw
  have hg0 : 0 < g := by linarith
  have hq0 : 0 < q := by omega
  have hang : c.angle + δ ≤ 20 := by
    have := room.error
    have := hc.speed0
    have := hc.even0
    obtain ⟨w, w0, w1, -⟩ := turns.speed (τ k1) hn
    unfold CrankTol.error at *
    linarith
  intro j hj κ hκ t hW
  have hnj : m0 ≤ τ j := le_trans hn (hf.le hj)
  have haf := hf.after j
  have a1 := hK.high (τ j) (hm0.trans hnj)
  have a2 := abs_le.mp (turns.place (τ j) hnj)
  have a3 := abs_le.mp hW
  have a4 : ((κ + 2 : ℤ) : ℚ) ≤ K (τ j) := by exact_mod_cast hκ
  push_cast at a4
  have a5 := room.error
  unfold toothAngle at a1
  have a6 : θ t + 600 ≤ θ (T (τ j)) := by linarith
  have a7 := turning_lt hT hg0 hq0 (show θ t < θ (T (τ j)) by linarith)
  have a8 := (hT t (T (τ j)) a7.le).1
  have a9 := room.buffer
  have a10 : (256 : ℚ) ≤ (T (τ j) : ℚ) - t := by
    have hp0 : (0 : ℚ) ≤ p := by exact_mod_cast (by omega : (0 : ℤ) ≤ p)
    have b1 : (p : ℚ) * 600 ≤ p * (θ (T (τ j)) - θ t) := mul_le_mul_of_nonneg_left (by linarith) hp0
    have b2 : g * 256 ≤ g * ((T (τ j) : ℚ) - t) := by linarith
    exact le_of_mul_le_mul_left b2 hg0
  have a11 : ((256 : ℤ) : ℚ) ≤ ((T (τ j) - t : ℤ) : ℚ) := by push_cast; exact a10
  have a12 : (256 : ℤ) ≤ T (τ j) - t := by exact_mod_cast a11
  omega

/-- C101 for coils and any list of triggers from which the firmware knows the crank. -/
theorem coil_held {pos : ℕ → ℕ} {M n0 m0 k0 k1 : ℕ} {ev : ℕ → Int × ℤ} {τ : ℕ → ℕ} {g A V O δ : ℚ} {adv : ℕ → ℚ} {p q dlo dhi late : ℤ} {T : ℕ → ℤ} {θ : ℤ → ℚ} {c : CrankTol}
    {eb e1 e2 : Engine} {n1 E1 n2 E2 s2 : ℤ} {i : Fin maxEvents}
    (hw : WheelShape pos M g p q) (hf : WheelFeed ev τ T) (hO : |O| ≤ 720)
    (turns : CrankTurnsFrom θ c pos n0 m0 g T) (hT : Turning θ g p q) (hc : c.Sane)
    (room : CycleRoom (c.error + δ) g p q dlo dhi late eb.cfg.ignition.minFireUs) (hV : |V| + δ ≤ 720)
    (hadv : ∀ j, |adv j - V| ≤ δ) (hδ : 2 * δ + 1 / 125 < g)
    (hb : EngBoot eb)
    (hi : (eb.cfg.events i).type = .ignition) (hA : (eb.cfg.events i).angle = .fin A) (hA1 : |A| ≤ 720)
    {Gd : ℤ → Engine → Prop} (hGd : ∀ n e, Gd n e → FiringOn ev k0 late (fun k => adv (τ k)) dlo dhi n e) (h1 : EngTimed Honest Gd eb n1 E1 e1) (hk1 : Decoded (k1 + 1) e1) (hn : m0 ≤ τ k1) (hm0 : n0 ≤ m0)
    (hk0 : k0 ≤ k1 + 1) (fol : Follows θ c pos M n0 m0 g O q T τ k1 Gd n1 E1 e1)
    (quiet : eventIsUnscheduled (e1.cfg.events i) = true ∨ eventHasFired (e1.cfg.events i) = true)
    {pin : Fin 16} (hpin : ((eb.cfg.events i).pin.setWidth 8).toNat = pin) (only : ∀ j, ((eb.cfg.events j).pin.setWidth 8).toNat = pin → j = i)
    (h2 : EngOn Honest Gd n1 E1 e1 n2 E2 e2)
    {b2 : Bool} (in2 : InBuffer E2 e2 b2 s2) (dr2 : Drives (e2.buf b2) (stamp s2) pin (!(eb.cfg.events i).inverted)) :
    ∃ m, (∃ P, AtAngle θ (A - V + O) (c.error + δ) m P ∧ dlo ≤ P - s2 ∧ P - s2 ≤ dhi) ∧
      ∀ n3 E3 e3, EngOn Honest Gd n2 E2 e2 n3 E3 e3 →
        (∀ b3 s3, InBuffer E3 e3 b3 s3 → Drives (e3.buf b3) (stamp s3) pin (!(eb.cfg.events i).inverted) →
          s3 = s2 ∨ ∃ m' > m, ∃ P, AtAngle θ (A - V + O) (c.error + δ) m' P ∧ dlo ≤ P - s3 ∧ P - s3 ≤ dhi) ∧
        (g * dhi + 2 * (c.error + δ) * q ≤ g * (n3 - s2) →
          ∃ t, AtAngle θ (A - V + O) (c.error + δ) m t ∧ s2 < t ∧
            g * dlo - 2 * (c.error + δ) * q ≤ g * (t - s2) ∧ g * (t - s2) ≤ g * dhi + 2 * (c.error + δ) * q ∧
            DrivenOn Honest Gd n2 E2 e2 n3 E3 e3 pin (eb.cfg.events i).inverted t) := by
  obtain ⟨-, -, hg1, hp5, hpq, -⟩ := id hw
  have hg0 : 0 < g := by linarith
  have hδ0 : 0 ≤ δ := le_trans (abs_nonneg _) (hadv 0)
  obtain ⟨K, hK⟩ := cycles_exist (n0 := n0) (G := A - V + O) (δ := δ) (F := fun j a => .fin A - .fin (adv j) - .fin a + .fin O) (H := fun j => A - adv j + O) hw hδ
    (fun j => by rw [show A - adv j + O - (A - V + O) = -(adv j - V) by ring, abs_neg]; exact hadv j)
    (fun j a0 h0 h1 => spark_arg hA1 (adv_bound (hadv j) hV) h0 h1 hO)
  obtain ⟨J, hp, hJ, hlate⟩ := feed_plan hf hw turns hT hc hδ0 le_rfl room hK hn hm0
  have hq : AimOk (AtAngle θ (A - V + O) (c.error + δ)) (SparkAim (AtAngle θ (A - V + O) (c.error + δ)) dlo dhi) := spark_aimOk hp.beats hp.dwell0 hp.dwell2
  have hall : ∀ n E e, EngOn Honest Gd n1 E1 e1 n E e → _ := fun n E e h =>
    fire_hyp (i := i) hw turns hc room hK hp.beats hp.dwell0 hb hi hA hGd h1 hk0 hm0 fol h
  obtain ⟨m, ⟨P0, -, P1, hP1, hl, hh⟩, hrest⟩ := held_ends (J := J) hp hq hb h1 hall hk1 hJ (by omega) (by rw [hi]; simp) quiet
    (fun n E e h => by obtain ⟨-, j, l, hat⟩ := fol _ _ _ h; exact ⟨j, l, hat.count⟩) (cycle_past hw hf turns hT hc le_rfl room hK hn hm0) hpin only h2 in2 dr2
  refine ⟨m, ⟨P1, hP1, hl, hh⟩, fun n3 E3 e3 h3 => ?_⟩
  obtain ⟨c1, c2⟩ := hrest n3 E3 e3 h3
  have hjit : (sparkJit (c.error + δ) g q : ℚ) * g ≤ 2 * (c.error + δ) * q := by
    have := Int.floor_le (2 * (c.error + δ) * q / g)
    rw [le_div_iff₀ hg0] at this
    exact this
  have close : ∀ {P}, AtAngle θ (A - V + O) (c.error + δ) m P → g * dlo - 2 * (c.error + δ) * q ≤ g * (P - s2) ∧
      g * (P - s2) ≤ g * dhi + 2 * (c.error + δ) * q := by
    intro P hP
    have j1 := hp.beats.same hP hP1
    have j2 := hp.beats.same hP1 hP
    constructor
    · have h2 : ((dlo - sparkJit (c.error + δ) g q : ℤ) : ℚ) ≤ ((P - s2 : ℤ) : ℚ) := by exact_mod_cast (by omega : dlo - sparkJit (c.error + δ) g q ≤ P - s2)
      push_cast at h2
      nlinarith
    · have h2 : ((P - s2 : ℤ) : ℚ) ≤ ((dhi + sparkJit (c.error + δ) g q : ℤ) : ℚ) := by exact_mod_cast (by omega : P - s2 ≤ dhi + sparkJit (c.error + δ) g q)
      push_cast at h2
      nlinarith
  refine ⟨fun b3 s3 in3 dr3 => ?_, fun hlong => ?_⟩
  · rcases c1 b3 s3 in3 dr3 with h | ⟨κ, hκ, _, _, h⟩
    · exact .inl h
    · exact .inr ⟨κ, hκ, h⟩
  · obtain ⟨P, x1, x2, x3⟩ := c2 (fun P hP _ => by
      have h4 := (close hP).2
      have h5 : g * ((P : ℚ) - s2) ≤ g * (n3 - s2) := by linarith
      have h6 := le_of_mul_le_mul_left h5 hg0
      have h7 : (P : ℚ) ≤ n3 := by linarith
      exact_mod_cast h7)
    exact ⟨P, x1, (hq x1 x3).1, (close x1).1, (close x1).2, x2⟩

/-- C101 for injectors and any list of triggers from which the firmware knows the crank. -/
theorem squirt_held {pos : ℕ → ℕ} {M n0 m0 k0 k1 : ℕ} {ev : ℕ → Int × ℤ} {τ : ℕ → ℕ} {g A O ε : ℚ} {p q dlo dhi late : ℤ} {T : ℕ → ℤ} {θ : ℤ → ℚ} {c : CrankTol}
    {eb e1 e2 : Engine} {n1 E1 n2 E2 s2 : ℤ} {i : Fin maxEvents}
    (hw : WheelShape pos M g p q) (hf : WheelFeed ev τ T) (hO : |O| ≤ 720)
    (turns : CrankTurnsFrom θ c pos n0 m0 g T) (hT : Turning θ g p q) (hc : c.Sane)
    (room : CycleRoom ε g p q dlo dhi late 0) (hε : g * (dhi - dlo) ≤ p * (ε - c.error))
    (hb : EngBoot eb)
    (hi : (eb.cfg.events i).type = .fuel) (hA : (eb.cfg.events i).angle = .fin A) (hA1 : |A| ≤ 720)
    {Gd : ℤ → Engine → Prop} (hGd : ∀ n e, Gd n e → InjectingOn ev k0 late dlo dhi n e) (h1 : EngTimed Honest Gd eb n1 E1 e1) (hk1 : Decoded (k1 + 1) e1) (hn : m0 ≤ τ k1) (hm0 : n0 ≤ m0)
    (hk0 : k0 ≤ k1 + 1) (fol : Follows θ c pos M n0 m0 g O q T τ k1 Gd n1 E1 e1)
    (quiet : eventIsUnscheduled (e1.cfg.events i) = true ∨ eventHasFired (e1.cfg.events i) = true)
    {pin : Fin 16} (hpin : ((eb.cfg.events i).pin.setWidth 8).toNat = pin) (only : ∀ j, ((eb.cfg.events j).pin.setWidth 8).toNat = pin → j = i)
    (h2 : EngOn Honest Gd n1 E1 e1 n2 E2 e2)
    {b2 : Bool} (in2 : InBuffer E2 e2 b2 s2) (dr2 : Drives (e2.buf b2) (stamp s2) pin (!(eb.cfg.events i).inverted)) :
    ∃ m, (∃ P, AtAngle θ (A + O) c.error m P ∧ dlo ≤ P - s2 ∧ P - s2 ≤ dhi) ∧
      ∀ n3 E3 e3, EngOn Honest Gd n2 E2 e2 n3 E3 e3 →
        (∀ b3 s3, InBuffer E3 e3 b3 s3 → Drives (e3.buf b3) (stamp s3) pin (!(eb.cfg.events i).inverted) →
          s3 = s2 ∨ ∃ m' > m, ∃ P, AtAngle θ (A + O) c.error m' P ∧ dlo ≤ P - s3 ∧ P - s3 ≤ dhi) ∧
        (s2 + dhi ≤ n3 →
          ∃ t, AtAngle θ (A + O) ε m t ∧ s2 < t ∧ dlo ≤ t - s2 ∧ t - s2 ≤ dhi ∧
            DrivenOn Honest Gd n2 E2 e2 n3 E3 e3 pin (eb.cfg.events i).inverted t) := by
  obtain ⟨-, -, hg1, hp5, hpq, -⟩ := id hw
  have hg0 : 0 < g := by linarith
  have hq0 : 0 < q := by omega
  have hce : c.error ≤ ε := by
    have h2 : (0 : ℚ) ≤ dhi - dlo := by
      have : (dlo : ℚ) ≤ dhi := by exact_mod_cast room.charges
      linarith
    have h3 : (0 : ℚ) < p := by exact_mod_cast (by omega : 0 < p)
    by_contra hn
    nlinarith
  obtain ⟨K, hK⟩ := cycles_exist (n0 := n0) (G := A + O) (δ := 0) (F := fun _ a => .fin A - .fin a + .fin O) (H := fun _ => A + O) hw (by linarith) (fun _ => by simp)
    (fun _ a0 h0 h1 => fuel_arg hA1 h0 h1 hO)
  obtain ⟨J, hp, hJ, hlate⟩ := feed_plan hf hw turns hT hc le_rfl (by linarith) room hK hn hm0
  have hR : Reach (AtAngle θ (A + O) c.error) (AtAngle θ (A + O) ε) dlo dhi := angle_reach hT hg0 (by omega) hq0 hε
  have hq : AimOk (AtAngle θ (A + O) ε) (FuelAim (AtAngle θ (A + O) c.error) dlo dhi) :=
    fuel_aimOk (by have := hp.beats.jit0; have := hp.dwell0; omega) hp.dwell2
  have hall : ∀ n E e, EngOn Honest Gd n1 E1 e1 n E e → _ := fun n E e h =>
    inject_hyp (i := i) hw turns hc room hK hp.beats hp.dwell0 hR hb hi hA hGd h1 hk0 hm0 fol h
  obtain ⟨m, ⟨P0, -, hP0, -, -⟩, hrest⟩ := held_ends hp hq hb h1 hall hk1 hJ (by omega) (by rw [hi]; simp) quiet
    (fun n E e h => by obtain ⟨-, j, l, hat⟩ := fol _ _ _ h; exact ⟨j, l, hat.count⟩) (cycle_past (δ := 0) hw hf turns hT hc (by linarith) room hK hn hm0) hpin only h2 in2 dr2
  refine ⟨m, hP0, fun n3 E3 e3 h3 => ?_⟩
  obtain ⟨c1, c2⟩ := hrest n3 E3 e3 h3
  refine ⟨fun b3 s3 in3 dr3 => ?_, fun hlong => ?_⟩
  · rcases c1 b3 s3 in3 dr3 with h | ⟨κ, hκ, -, -, h, -⟩
    · exact .inl h
    · exact .inr ⟨κ, hκ, h⟩
  · obtain ⟨P, x1, x2, x3⟩ := c2 (fun P _ h => by have := h.2.2; omega)
    exact ⟨P, x1, (hq x1 x3).1, x3.2.1, x3.2.2, x2⟩

end Verif
