/-
Every injector opens once in every cycle, whatever triggers the crank is known from.
-/
import Verif.Proofs.BeatFuel
import Verif.Proofs.BeatOnce

namespace Verif

variable [FloatFmt]

/-- C92 for any list of triggers from which the firmware knows the crank. -/
theorem pulse_fires {pos : ℕ → ℕ} {M n0 m0 k0 k1 : ℕ} {ev : ℕ → Int × ℤ} {τ : ℕ → ℕ} {g A O ε : ℚ} {p q dlo dhi late : ℤ} {T : ℕ → ℤ} {θ : ℤ → ℚ} {c : CrankTol}
    {eb e1 e : Engine} {n1 E1 n E : ℤ} {i : Fin maxEvents}
    (hw : WheelShape pos M g p q) (hf : WheelFeed ev τ T) (hO : |O| ≤ 720)
    (turns : CrankTurnsFrom θ c pos n0 m0 g T) (hT : Turning θ g p q) (hc : c.Sane)
    (room : CycleRoom ε g p q dlo dhi late 0) (hε : g * (dhi - dlo) ≤ p * (ε - c.error))
    (hb : EngBoot eb)
    (hi : (eb.cfg.events i).type = .fuel) (hA : (eb.cfg.events i).angle = .fin A) (hA1 : |A| ≤ 720)
    {Gd : ℤ → Engine → Prop} (hGd : ∀ n e, Gd n e → InjectingOn ev k0 late dlo dhi n e) (h1 : EngTimed Honest Gd eb n1 E1 e1) (hk1 : Decoded (k1 + 1) e1) (hn : m0 ≤ τ k1) (hm0 : n0 ≤ m0)
    (hk0 : k0 ≤ k1 + 1) (fol : Follows θ c pos M n0 m0 g O q T τ k1 Gd n1 E1 e1)
    (quiet : eventIsUnscheduled (e1.cfg.events i) = true ∨ eventHasFired (e1.cfg.events i) = true)
    (h : EngOn Honest Gd n1 E1 e1 n E e)
    {pin : Fin 16} (hpin : ((eb.cfg.events i).pin.setWidth 8).toNat = pin) {m : ℤ}
    (start : θ (T (τ k1)) + 1500 ≤ A + O + 720 * m) (over : A + O + 720 * m + ε ≤ θ n) :
    ∃ s t, AtAngle θ (A + O) ε m t ∧ s < t ∧
      dlo ≤ t - s ∧ t - s ≤ dhi ∧
      DrivenOn Honest Gd n1 E1 e1 n E e pin (!(eb.cfg.events i).inverted) s ∧
      DrivenOn Honest Gd n1 E1 e1 n E e pin (eb.cfg.events i).inverted t := by
  obtain ⟨-, -, hg1, hp5, hpq, -⟩ := id hw
  have hg0 : 0 < g := by linarith
  have hq0 : 0 < q := by omega
  have hce : c.error ≤ ε := by
    have h2 : (0 : ℚ) ≤ dhi - dlo := by
      have : (dlo : ℚ) ≤ dhi := by exact_mod_cast room.charges
      linarith
    have h3 : (0 : ℚ) < p := by exact_mod_cast (by omega : 0 < p)
    by_contra hn
    nlinarith
  obtain ⟨K, hK⟩ := cycles_exist (n0 := n0) (G := A + O) (δ := 0) (F := fun _ a => .fin A - .fin a + .fin O) (H := fun _ => A + O) hw (by linarith) (fun _ => by simp)
    (fun _ a0 h0 h1 => fuel_arg hA1 h0 h1 hO)
  obtain ⟨J, hp, hJ, hlate⟩ := feed_plan hf hw turns hT hc le_rfl (by linarith) room hK hn hm0
  have hR : Reach (AtAngle θ (A + O) c.error) (AtAngle θ (A + O) ε) dlo dhi := angle_reach hT hg0 (by omega) hq0 hε
  have hq : AimOk (AtAngle θ (A + O) ε) (FuelAim (AtAngle θ (A + O) c.error) dlo dhi) :=
    fuel_aimOk (by have := hp.beats.jit0; have := hp.dwell0; omega) hp.dwell2
  have hall : ∀ n E e, EngOn Honest Gd n1 E1 e1 n E e → _ := fun n E e h =>
    inject_hyp (i := i) hw turns hc room hK hp.beats hp.dwell0 hR hb hi hA hGd h1 hk0 hm0 fol h
  obtain ⟨k, M, inv⟩ := beat_run hp hq hb h1 hall hk1 hJ (by omega) (by rw [hi]; simp) quiet hpin h
  obtain ⟨-, ci, -⟩ := clock_reach hb .boot (timed_clock (on_timed h1 h))
  have he0 : 0 ≤ ε := by
    have h2 := hp.beats.jit0
    by_contra hn
    have h3 : (0 : ℚ) ≤ 2 * ε * q / g := Int.floor_nonneg.mp h2
    have h4 : (0 : ℚ) < q := by exact_mod_cast hq0
    rw [le_div_iff₀ hg0] at h3
    nlinarith
  have hm : K (τ k1) + 1 < m := by
    have h2 := hK.high (τ k1) (hm0.trans hn)
    have h3 := abs_le.mp (turns.place (τ k1) hn)
    have h5 : c.angle ≤ 20 := by
      have := room.error
      have := hc.speed0
      have := hc.even0
      obtain ⟨w, w0, w1, -⟩ := turns.speed (τ k1) hn
      unfold CrankTol.error at *
      linarith
    unfold toothAngle at h2
    by_contra hn
    have h6 : ((m : ℤ) : ℚ) ≤ ((K (τ k1) + 1 : ℤ) : ℚ) := by exact_mod_cast not_lt.mp hn
    push_cast at h6
    linarith
  obtain ⟨X, x1, x2, s, x3, -, x5, x6⟩ := beat_fired hp (fun h => hf.order h) inv (hall _ _ _ h).handled ci.before hm
    (hlate m hm.le n (by linarith)) (fun t ht => by
      unfold AtAngle at ht
      have h2 := abs_le.mp ht
      by_contra hn
      obtain ⟨-, h4⟩ := hT n t (by omega)
      have h5 : (n : ℚ) < t := by exact_mod_cast not_le.mp hn
      have h6 : (0 : ℚ) < q := by exact_mod_cast hq0
      nlinarith)
  have hdl := hp.dwell0
  have hjt := hp.beats.jit0
  exact ⟨s, X, x1, by omega, x5, x6, x3, x2⟩

/-- C92 for any list of triggers: an injector closes at most once in a cycle. -/
theorem pulse_once {pos : ℕ → ℕ} {M n0 m0 k0 k1 : ℕ} {ev : ℕ → Int × ℤ} {τ : ℕ → ℕ} {g A O ε : ℚ} {p q dlo dhi late : ℤ} {T : ℕ → ℤ} {θ : ℤ → ℚ} {c : CrankTol}
    {eb e1 e2 : Engine} {n1 E1 n2 E2 t2 : ℤ} {i : Fin maxEvents}
    (hw : WheelShape pos M g p q) (hf : WheelFeed ev τ T) (hO : |O| ≤ 720)
    (turns : CrankTurnsFrom θ c pos n0 m0 g T) (hT : Turning θ g p q) (hc : c.Sane)
    (room : CycleRoom ε g p q dlo dhi late 0) (hε : g * (dhi - dlo) ≤ p * (ε - c.error))
    (hb : EngBoot eb)
    (hi : (eb.cfg.events i).type = .fuel) (hA : (eb.cfg.events i).angle = .fin A) (hA1 : |A| ≤ 720)
    {Gd : ℤ → Engine → Prop} (hGd : ∀ n e, Gd n e → InjectingOn ev k0 late dlo dhi n e) (h1 : EngTimed Honest Gd eb n1 E1 e1) (hk1 : Decoded (k1 + 1) e1) (hn : m0 ≤ τ k1) (hm0 : n0 ≤ m0)
    (hk0 : k0 ≤ k1 + 1) (fol : Follows θ c pos M n0 m0 g O q T τ k1 Gd n1 E1 e1)
    (quiet : eventIsUnscheduled (e1.cfg.events i) = true ∨ eventHasFired (e1.cfg.events i) = true)
    {pin : Fin 16} (hpin : ((eb.cfg.events i).pin.setWidth 8).toNat = pin) (only : ∀ j, ((eb.cfg.events j).pin.setWidth 8).toNat = pin → j = i)
    (h2 : EngOn Honest Gd n1 E1 e1 n2 E2 e2)
    {b2 : Bool} (in2 : InBuffer E2 e2 b2 t2) (dr2 : Drives (e2.buf b2) (stamp t2) pin (eb.cfg.events i).inverted) :
    ∃ m, AtAngle θ (A + O) ε m t2 ∧
      ∀ n3 E3 e3 b3 t3, EngOn Honest Gd n2 E2 e2 n3 E3 e3 → InBuffer E3 e3 b3 t3 →
        Drives (e3.buf b3) (stamp t3) pin (eb.cfg.events i).inverted → AtAngle θ (A + O) ε m t3 → t3 = t2 := by
  obtain ⟨-, -, hg1, hp5, hpq, -⟩ := id hw
  have hg0 : 0 < g := by linarith
  have hq0 : 0 < q := by omega
  have hce : c.error ≤ ε := by
    have h2 : (0 : ℚ) ≤ dhi - dlo := by
      have : (dlo : ℚ) ≤ dhi := by exact_mod_cast room.charges
      linarith
    have h3 : (0 : ℚ) < p := by exact_mod_cast (by omega : 0 < p)
    by_contra hn
    nlinarith
  obtain ⟨K, hK⟩ := cycles_exist (n0 := n0) (G := A + O) (δ := 0) (F := fun _ a => .fin A - .fin a + .fin O) (H := fun _ => A + O) hw (by linarith) (fun _ => by simp)
    (fun _ a0 h0 h1 => fuel_arg hA1 h0 h1 hO)
  obtain ⟨J, hp, hJ, hlate⟩ := feed_plan hf hw turns hT hc le_rfl (by linarith) room hK hn hm0
  have hR : Reach (AtAngle θ (A + O) c.error) (AtAngle θ (A + O) ε) dlo dhi := angle_reach hT hg0 (by omega) hq0 hε
  have hq : AimOk (AtAngle θ (A + O) ε) (FuelAim (AtAngle θ (A + O) c.error) dlo dhi) :=
    fuel_aimOk (by have := hp.beats.jit0; have := hp.dwell0; omega) hp.dwell2
  have hall : ∀ n E e, EngOn Honest Gd n1 E1 e1 n E e → _ := fun n E e h =>
    inject_hyp (i := i) hw turns hc room hK hp.beats hp.dwell0 hR hb hi hA hGd h1 hk0 hm0 fol h
  obtain ⟨k, M, inv⟩ := beat_run hp hq hb h1 hall hk1 hJ (by omega) (by rw [hi]; simp) quiet hpin h2
  have hT2 := on_timed h1 h2
  have edges : ∀ {E : ℤ} {e : Engine} {b : Bool} {t : ℤ}, InBuffer E e b t → E - 256 ≤ t ∧ t < E := by
    intro E e b t h
    unfold InBuffer at h
    split at h <;> omega
  obtain ⟨u1, u2⟩ := driven_stop hb .boot (timed_clock hT2) only dr2
  obtain ⟨w1, w2⟩ := edges in2
  obtain ⟨m, hm, h0⟩ := once_start inv.inv inv.low u1 u2 w1 w2
  have hnk : m0 ≤ τ k := by
    obtain ⟨-, j, -, hat⟩ := fol _ _ _ h2
    have := inv.decoded.unique hat.count
    obtain rfl : k = j := by omega
    exact hat.late
  have hang : c.angle ≤ 20 := by
    have := room.error
    have := hc.speed0
    have := hc.even0
    obtain ⟨w, w0, w1, -⟩ := turns.speed (τ k1) hn
    unfold CrankTol.error at *
    linarith
  have past : ∀ j ≥ k, ∀ κ, κ + 2 ≤ K (τ j) → ∀ t, AtAngle θ (A + O) ε κ t → t ≤ (ev j).2 - 256 := by
    intro j hj κ hκ t hW
    have hnj : m0 ≤ τ j := le_trans hnk (hf.le hj)
    have haf := hf.after j
    have a1 := hK.high (τ j) (hm0.trans hnj)
    have a2 := abs_le.mp (turns.place (τ j) hnj)
    have a3 := abs_le.mp hW
    have a4 : ((κ + 2 : ℤ) : ℚ) ≤ K (τ j) := by exact_mod_cast hκ
    push_cast at a4
    have a5 := room.error
    unfold toothAngle at a1
    have a6 : θ t + 600 ≤ θ (T (τ j)) := by linarith
    have a7 := turning_lt hT hg0 hq0 (show θ t < θ (T (τ j)) by linarith)
    have a8 := (hT t (T (τ j)) a7.le).1
    have a9 := room.buffer
    have a10 : (256 : ℚ) ≤ (T (τ j) : ℚ) - t := by
      have hp0 : (0 : ℚ) ≤ p := by exact_mod_cast (by omega : (0 : ℤ) ≤ p)
      have b1 : (p : ℚ) * 600 ≤ p * (θ (T (τ j)) - θ t) := mul_le_mul_of_nonneg_left (by linarith) hp0
      have b2 : g * 256 ≤ g * ((T (τ j) : ℚ) - t) := by linarith
      exact le_of_mul_le_mul_left b2 hg0
    have a11 : ((256 : ℤ) : ℚ) ≤ ((T (τ j) - t : ℤ) : ℚ) := by push_cast; exact a10
    have a12 : (256 : ℤ) ≤ T (τ j) - t := by exact_mod_cast a11
    omega
  have hdis : ∀ {κ κ' t}, AtAngle θ (A + O) ε κ t → AtAngle θ (A + O) ε κ' t → κ = κ' := by
    intro κ κ' t x1 x2
    have x1 := abs_le.mp x1
    have x2 := abs_le.mp x2
    have x3 := room.error
    have x4 : ((κ : ℤ) : ℚ) < ((κ' + 1 : ℤ) : ℚ) := by push_cast; linarith
    have x5 : ((κ' : ℤ) : ℚ) < ((κ + 1 : ℤ) : ℚ) := by push_cast; linarith
    have x4 : κ < κ' + 1 := by exact_mod_cast x4
    have x5 : κ' < κ + 1 := by exact_mod_cast x5
    omega
  have hall2 : ∀ n E e, EngOn Honest Gd n2 E2 e2 n E e → _ := fun n E e h =>
    inject_hyp (i := i) hw turns hc room hK hp.beats hp.dwell0 hR hb hi hA hGd hT2 hk0 hm0 (fol.rest h2) h
  refine ⟨m, hm, fun n3 E3 e3 b3 t3 h3 in3 dr3 hW3 => ?_⟩
  obtain ⟨k3, -, -, o3⟩ := once_run hp hq hb hT2 hall2 past (fun x y => hdis x y) (by rw [hi]; simp) inv.decoded h0 h3
  obtain ⟨v1, v2⟩ := driven_stop hb .boot (timed_clock (on_timed hT2 h3)) only dr3
  obtain ⟨w3, w4⟩ := edges in3
  exact once_end o3 v1 v2 w3 w4 hW3

end Verif
