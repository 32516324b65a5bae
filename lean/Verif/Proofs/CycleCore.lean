/-
Every ignition output fires once in every cycle, whatever triggers the crank is known from.
-/
import Verif.Proofs.BeatHyp
import Verif.Proofs.BeatOnce

namespace Verif

variable [FloatFmt]

omit [FloatFmt] in
theorem adv_bound {a V δ : ℚ} (h : |a - V| ≤ δ) (hV : |V| + δ ≤ 720) : |a| ≤ 720 := by
  have h1 := abs_le.mp h
  have h2 := neg_abs_le V
  have h3 := le_abs_self V
  rw [abs_le]
  constructor <;> linarith

/-- C86 for any list of triggers from which the firmware knows the crank. -/
theorem cycle_fires {pos : ℕ → ℕ} {M n0 m0 k0 k1 : ℕ} {ev : ℕ → Int × ℤ} {τ : ℕ → ℕ} {g A V O δ : ℚ} {adv : ℕ → ℚ} {p q dlo dhi late : ℤ} {T : ℕ → ℤ} {θ : ℤ → ℚ} {c : CrankTol}
    {eb e1 e : Engine} {n1 E1 n E : ℤ} {i : Fin maxEvents}
    (hw : WheelShape pos M g p q) (hf : WheelFeed ev τ T) (hO : |O| ≤ 720)
    (turns : CrankTurnsFrom θ c pos n0 m0 g T) (hT : Turning θ g p q) (hc : c.Sane)
    (room : CycleRoom (c.error + δ) g p q dlo dhi late eb.cfg.ignition.minFireUs) (hV : |V| + δ ≤ 720)
    (hadv : ∀ j, |adv j - V| ≤ δ) (hδ : 2 * δ + 1 / 125 < g)
    (hb : EngBoot eb)
    (hi : (eb.cfg.events i).type = .ignition) (hA : (eb.cfg.events i).angle = .fin A) (hA1 : |A| ≤ 720)
    {Gd : ℤ → Engine → Prop} (hGd : ∀ n e, Gd n e → FiringOn ev k0 late (fun k => adv (τ k)) dlo dhi n e) (h1 : EngTimed Honest Gd eb n1 E1 e1) (hk1 : Decoded (k1 + 1) e1) (hn : m0 ≤ τ k1) (hm0 : n0 ≤ m0)
    (hk0 : k0 ≤ k1 + 1) (fol : Follows θ c pos M n0 m0 g O q T τ k1 Gd n1 E1 e1)
    (quiet : eventIsUnscheduled (e1.cfg.events i) = true ∨ eventHasFired (e1.cfg.events i) = true)
    (h : EngOn Honest Gd n1 E1 e1 n E e)
    {pin : Fin 16} (hpin : ((eb.cfg.events i).pin.setWidth 8).toNat = pin) {m : ℤ}
    (start : θ (T (τ k1)) + 1500 ≤ A - V + O + 720 * m) (over : A - V + O + 720 * m + (c.error + δ) ≤ θ n) :
    ∃ s t, AtAngle θ (A - V + O) (c.error + δ) m t ∧ s < t ∧
      g * dlo - 2 * (c.error + δ) * q ≤ g * (t - s) ∧ g * (t - s) ≤ g * dhi + 2 * (c.error + δ) * q ∧
      DrivenOn Honest Gd n1 E1 e1 n E e pin (!(eb.cfg.events i).inverted) s ∧
      DrivenOn Honest Gd n1 E1 e1 n E e pin (eb.cfg.events i).inverted t := by
  obtain ⟨-, -, hg1, hp5, hpq, -⟩ := id hw
  have hg0 : 0 < g := by linarith
  have hq0 : 0 < q := by omega
  have hδ0 : 0 ≤ δ := le_trans (abs_nonneg _) (hadv 0)
  obtain ⟨K, hK⟩ := cycles_exist (n0 := n0) (G := A - V + O) (δ := δ) (F := fun j a => .fin A - .fin (adv j) - .fin a + .fin O) (H := fun j => A - adv j + O) hw hδ
    (fun j => by rw [show A - adv j + O - (A - V + O) = -(adv j - V) by ring, abs_neg]; exact hadv j)
    (fun j a0 h0 h1 => spark_arg hA1 (adv_bound (hadv j) hV) h0 h1 hO)
  obtain ⟨J, hp, hJ, hlate⟩ := feed_plan hf hw turns hT hc hδ0 le_rfl room hK hn hm0
  have hq : AimOk (AtAngle θ (A - V + O) (c.error + δ)) (SparkAim (AtAngle θ (A - V + O) (c.error + δ)) dlo dhi) := spark_aimOk hp.beats hp.dwell0 hp.dwell2
  have hall : ∀ n E e, EngOn Honest Gd n1 E1 e1 n E e → _ := fun n E e h =>
    fire_hyp (i := i) hw turns hc room hK hp.beats hp.dwell0 hb hi hA hGd h1 hk0 hm0 fol h
  obtain ⟨k, M, inv⟩ := beat_run hp hq hb h1 hall hk1 hJ (by omega) (by rw [hi]; simp) quiet hpin h
  obtain ⟨-, ci, -⟩ := clock_reach hb .boot (timed_clock (on_timed h1 h))
  have he0 : 0 ≤ (c.error + δ) := by
    have h2 := hp.beats.jit0
    by_contra hn
    have h3 : (0 : ℚ) ≤ 2 * (c.error + δ) * q / g := Int.floor_nonneg.mp h2
    have h4 : (0 : ℚ) < q := by exact_mod_cast hq0
    rw [le_div_iff₀ hg0] at h3
    nlinarith
  have hm : K (τ k1) + 1 < m := by
    have h2 := hK.high (τ k1) (hm0.trans hn)
    have h3 := abs_le.mp (turns.place (τ k1) hn)
    have h5 : c.angle + δ ≤ 20 := by
      have := room.error
      have := hc.speed0
      have := hc.even0
      obtain ⟨w, w0, w1, -⟩ := turns.speed (τ k1) hn
      unfold CrankTol.error at *
      linarith
    unfold toothAngle at h2
    by_contra hn
    have h6 : ((m : ℤ) : ℚ) ≤ ((K (τ k1) + 1 : ℤ) : ℚ) := by exact_mod_cast not_lt.mp hn
    push_cast at h6
    linarith
  obtain ⟨X, x1, x2, s, x3, P', x4, x5, x6⟩ := beat_fired hp (fun h => hf.order h) inv (hall _ _ _ h).handled ci.before hm
    (hlate m hm.le n (by linarith)) (fun t ht => by
      unfold AtAngle at ht
      have h2 := abs_le.mp ht
      by_contra hn
      obtain ⟨-, h4⟩ := hT n t (by omega)
      have h5 : (n : ℚ) < t := by exact_mod_cast not_le.mp hn
      have h6 : (0 : ℚ) < q := by exact_mod_cast hq0
      nlinarith)
  have j1 := hp.beats.same x1 x4
  have j2 := hp.beats.same x4 x1
  have hjit : (sparkJit (c.error + δ) g q : ℚ) * g ≤ 2 * (c.error + δ) * q := by
    have := Int.floor_le (2 * (c.error + δ) * q / g)
    rw [le_div_iff₀ hg0] at this
    exact this
  have hdl := hp.dwell0
  refine ⟨s, X, x1, by omega, ?_, ?_, x3, x2⟩
  · have h2 : ((dlo - sparkJit (c.error + δ) g q : ℤ) : ℚ) ≤ ((X - s : ℤ) : ℚ) := by exact_mod_cast (by omega : dlo - sparkJit (c.error + δ) g q ≤ X - s)
    push_cast at h2
    nlinarith
  · have h2 : ((X - s : ℤ) : ℚ) ≤ ((dhi + sparkJit (c.error + δ) g q : ℤ) : ℚ) := by exact_mod_cast (by omega : X - s ≤ dhi + sparkJit (c.error + δ) g q)
    push_cast at h2
    nlinarith

/-- C86 for any list of triggers: an output fires at most once in a cycle. -/
theorem cycle_once {pos : ℕ → ℕ} {M n0 m0 k0 k1 : ℕ} {ev : ℕ → Int × ℤ} {τ : ℕ → ℕ} {g A V O δ : ℚ} {adv : ℕ → ℚ} {p q dlo dhi late : ℤ} {T : ℕ → ℤ} {θ : ℤ → ℚ} {c : CrankTol}
    {eb e1 e2 : Engine} {n1 E1 n2 E2 t2 : ℤ} {i : Fin maxEvents}
    (hw : WheelShape pos M g p q) (hf : WheelFeed ev τ T) (hO : |O| ≤ 720)
    (turns : CrankTurnsFrom θ c pos n0 m0 g T) (hT : Turning θ g p q) (hc : c.Sane)
    (room : CycleRoom (c.error + δ) g p q dlo dhi late eb.cfg.ignition.minFireUs) (hV : |V| + δ ≤ 720)
    (hadv : ∀ j, |adv j - V| ≤ δ) (hδ : 2 * δ + 1 / 125 < g)
    (hb : EngBoot eb)
    (hi : (eb.cfg.events i).type = .ignition) (hA : (eb.cfg.events i).angle = .fin A) (hA1 : |A| ≤ 720)
    {Gd : ℤ → Engine → Prop} (hGd : ∀ n e, Gd n e → FiringOn ev k0 late (fun k => adv (τ k)) dlo dhi n e) (h1 : EngTimed Honest Gd eb n1 E1 e1) (hk1 : Decoded (k1 + 1) e1) (hn : m0 ≤ τ k1) (hm0 : n0 ≤ m0)
    (hk0 : k0 ≤ k1 + 1) (fol : Follows θ c pos M n0 m0 g O q T τ k1 Gd n1 E1 e1)
    (quiet : eventIsUnscheduled (e1.cfg.events i) = true ∨ eventHasFired (e1.cfg.events i) = true)
    {pin : Fin 16} (hpin : ((eb.cfg.events i).pin.setWidth 8).toNat = pin) (only : ∀ j, ((eb.cfg.events j).pin.setWidth 8).toNat = pin → j = i)
    (h2 : EngOn Honest Gd n1 E1 e1 n2 E2 e2)
    {b2 : Bool} (in2 : InBuffer E2 e2 b2 t2) (dr2 : Drives (e2.buf b2) (stamp t2) pin (eb.cfg.events i).inverted) :
    ∃ m, AtAngle θ (A - V + O) (c.error + δ) m t2 ∧
      ∀ n3 E3 e3 b3 t3, EngOn Honest Gd n2 E2 e2 n3 E3 e3 → InBuffer E3 e3 b3 t3 →
        Drives (e3.buf b3) (stamp t3) pin (eb.cfg.events i).inverted → AtAngle θ (A - V + O) (c.error + δ) m t3 → t3 = t2 := by
  obtain ⟨-, -, hg1, hp5, hpq, -⟩ := id hw
  have hg0 : 0 < g := by linarith
  have hq0 : 0 < q := by omega
  have hδ0 : 0 ≤ δ := le_trans (abs_nonneg _) (hadv 0)
  obtain ⟨K, hK⟩ := cycles_exist (n0 := n0) (G := A - V + O) (δ := δ) (F := fun j a => .fin A - .fin (adv j) - .fin a + .fin O) (H := fun j => A - adv j + O) hw hδ
    (fun j => by rw [show A - adv j + O - (A - V + O) = -(adv j - V) by ring, abs_neg]; exact hadv j)
    (fun j a0 h0 h1 => spark_arg hA1 (adv_bound (hadv j) hV) h0 h1 hO)
  obtain ⟨J, hp, hJ, hlate⟩ := feed_plan hf hw turns hT hc hδ0 le_rfl room hK hn hm0
  have hq : AimOk (AtAngle θ (A - V + O) (c.error + δ)) (SparkAim (AtAngle θ (A - V + O) (c.error + δ)) dlo dhi) := spark_aimOk hp.beats hp.dwell0 hp.dwell2
  have hall : ∀ n E e, EngOn Honest Gd n1 E1 e1 n E e → _ := fun n E e h =>
    fire_hyp (i := i) hw turns hc room hK hp.beats hp.dwell0 hb hi hA hGd h1 hk0 hm0 fol h
  obtain ⟨k, M, inv⟩ := beat_run hp hq hb h1 hall hk1 hJ (by omega) (by rw [hi]; simp) quiet hpin h2
  have hT2 := on_timed h1 h2
  have edges : ∀ {E : ℤ} {e : Engine} {b : Bool} {t : ℤ}, InBuffer E e b t → E - 256 ≤ t ∧ t < E := by
    intro E e b t h
    unfold InBuffer at h
    split at h <;> omega
  obtain ⟨u1, u2⟩ := driven_stop hb .boot (timed_clock hT2) only dr2
  obtain ⟨w1, w2⟩ := edges in2
  obtain ⟨m, hm, h0⟩ := once_start inv.inv inv.low u1 u2 w1 w2
  have hnk : m0 ≤ τ k := by
    obtain ⟨-, j, -, hat⟩ := fol _ _ _ h2
    have := inv.decoded.unique hat.count
    obtain rfl : k = j := by omega
    exact hat.late
  have hang : c.angle + δ ≤ 20 := by
    have := room.error
    have := hc.speed0
    have := hc.even0
    obtain ⟨w, w0, w1, -⟩ := turns.speed (τ k1) hn
    unfold CrankTol.error at *
    linarith
  have past : ∀ j ≥ k, ∀ κ, κ + 2 ≤ K (τ j) → ∀ t, AtAngle θ (A - V + O) (c.error + δ) κ t → t ≤ (ev j).2 - 256 := by
    intro j hj κ hκ t hW
    have hnj : m0 ≤ τ j := le_trans hnk (hf.le hj)
    have haf := hf.after j
    have a1 := hK.high (τ j) (hm0.trans hnj)
    have a2 := abs_le.mp (turns.place (τ j) hnj)
    have a3 := abs_le.mp hW
    have a4 : ((κ + 2 : ℤ) : ℚ) ≤ K (τ j) := by exact_mod_cast hκ
    push_cast at a4
    have a5 := room.error
    unfold toothAngle at a1
    have a6 : θ t + 600 ≤ θ (T (τ j)) := by linarith
    have a7 := turning_lt hT hg0 hq0 (show θ t < θ (T (τ j)) by linarith)
    have a8 := (hT t (T (τ j)) a7.le).1
    have a9 := room.buffer
    have a10 : (256 : ℚ) ≤ (T (τ j) : ℚ) - t := by
      have hp0 : (0 : ℚ) ≤ p := by exact_mod_cast (by omega : (0 : ℤ) ≤ p)
      have b1 : (p : ℚ) * 600 ≤ p * (θ (T (τ j)) - θ t) := mul_le_mul_of_nonneg_left (by linarith) hp0
      have b2 : g * 256 ≤ g * ((T (τ j) : ℚ) - t) := by linarith
      exact le_of_mul_le_mul_left b2 hg0
    have a11 : ((256 : ℤ) : ℚ) ≤ ((T (τ j) - t : ℤ) : ℚ) := by push_cast; exact a10
    have a12 : (256 : ℤ) ≤ T (τ j) - t := by exact_mod_cast a11
    omega
  have hdis : ∀ {κ κ' t}, AtAngle θ (A - V + O) (c.error + δ) κ t → AtAngle θ (A - V + O) (c.error + δ) κ' t → κ = κ' := by
    intro κ κ' t x1 x2
    have x1 := abs_le.mp x1
    have x2 := abs_le.mp x2
    have x3 := room.error
    have x4 : ((κ : ℤ) : ℚ) < ((κ' + 1 : ℤ) : ℚ) := by push_cast; linarith
    have x5 : ((κ' : ℤ) : ℚ) < ((κ + 1 : ℤ) : ℚ) := by push_cast; linarith
    have x4 : κ < κ' + 1 := by exact_mod_cast x4
    have x5 : κ' < κ + 1 := by exact_mod_cast x5
    omega
  have hall2 : ∀ n E e, EngOn Honest Gd n2 E2 e2 n E e → _ := fun n E e h =>
    fire_hyp (i := i) hw turns hc room hK hp.beats hp.dwell0 hb hi hA hGd hT2 hk0 hm0 (fol.rest h2) h
  refine ⟨m, hm, fun n3 E3 e3 b3 t3 h3 in3 dr3 hW3 => ?_⟩
  obtain ⟨k3, -, -, o3⟩ := once_run hp hq hb hT2 hall2 past (fun x y => hdis x y) (by rw [hi]; simp) inv.decoded h0 h3
  obtain ⟨v1, v2⟩ := driven_stop hb .boot (timed_clock (on_timed hT2 h3)) only dr3
  obtain ⟨w3, w4⟩ := edges in3
  exact once_end o3 v1 v2 w3 w4 hW3

end Verif
