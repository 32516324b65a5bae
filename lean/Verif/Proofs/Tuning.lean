/-
Lemmas for the tuning of the knock inputs: what every request keeps, and the power of a tone that lies on
another bin.
-/
import Verif.Proofs.Holds
import Verif.Spec.Tuning
import Mathlib.Analysis.SpecialFunctions.Trigonometric.Basic
import Mathlib.Algebra.Field.GeomSum

namespace Verif

/-! ### The console's tree -/

section
variable [FloatFmt] [LibM]

/-- Both knock inputs listen for what their settings say. -/
def Listening (rate : BitVec 32) (ks : Fin 2 → Knock) : Prop :=
  ∀ i, Fl.toU32 (((ks i).frequency + Fl.ofU32 rate / Fl.fin 64) / (Fl.ofU32 rate / Fl.fin 64)) = .ok (ks i).freq ∧
    FilterOf (ks i)

theorem knockConfigure_listens {rate : BitVec 32} {k k' : Knock} (h : knockConfigure rate k = .ok k') :
    Fl.toU32 ((k'.frequency + Fl.ofU32 rate / Fl.fin 64) / (Fl.ofU32 rate / Fl.fin 64)) = .ok k'.freq ∧
      FilterOf k' := by
  unfold knockConfigure at h
  obtain ⟨b, hb, h⟩ := bind_eq_ok.mp h
  cases h
  exact ⟨hb, rfl, rfl, rfl⟩

theorem knockPost_listens {rate : BitVec 32} {s s' : Console} (h : knockPost rate s = .ok s') :
    Listening rate s'.cfg.knock := by
  unfold knockPost at h
  obtain ⟨k0, h0, h⟩ := bind_eq_ok.mp h
  obtain ⟨k1, h1, h⟩ := bind_eq_ok.mp h
  cases h
  intro i
  match i with
  | 0 => exact knockConfigure_listens h0
  | 1 => exact knockConfigure_listens h1

/-- On a get nothing is written, on a set the hook has the last word. -/
theorem holds_knockNode (rate : BitVec 32) (b : Bool) (l : Lens Console Knock) :
    Holds b (fun c => Listening rate c.cfg.knock) (knockNode rate l) := by
  intro f v st st' hi hr
  unfold knockNode Node.fields at hr
  cases b with
  | false =>
    refine map_holds (I := fun c => c = st.s) (J := fun c => Listening rate c.cfg.knock) (b := false)
      (fun i hil => ?_) rfl (fun s s' hs hp => ?_) hr
    · have hi : i < 2 := hil
      interval_cases i
      all_goals
        intro f v s s' hs h
        cases h
        exact hs
    · cases hp
      rw [hs]
      exact hi
  | true =>
    refine map_holds (I := fun _ => True) (J := fun c => Listening rate c.cfg.knock) (b := true)
      (fun i hil => ?_) trivial (fun s s' hs hp => ?_) hr
    · intro _ _ _ _ _ _; trivial
    · exact knockPost_listens hp

variable {rate : BitVec 32} {b : Bool}

theorem holds_sensorsNode : Holds b (fun c => Listening rate c.cfg.knock) (sensorsNode rate) := by
  intro f v st st' hi hr
  refine map_holds (I := fun c => Listening rate c.cfg.knock) (J := fun c => Listening rate c.cfg.knock)
    (fun i hil => ?_) hi (fun s s' hs hp => ?_) hr
  · dsimp only
    split
    · exact holds_sensorNode (π := fun c => c.cfg.knock) fun _ _ => rfl
    · split
      · exact holds_knockNode rate b _
      · exact holds_knockNode rate b _
  · split at hp <;> (cases hp; exact hs)

/-- Whatever a get or a set does, the knock inputs listen for what their settings say afterwards. -/
theorem holds_consoleTree (version : String) :
    Holds b (fun c => Listening rate c.cfg.knock) (consoleTree rate version) := by
  unfold consoleTree; apply holds_fields; each
  · unfold decoderNode; apply holds_fields; each
    all_goals holds_leaf
  · exact holds_sensorsNode
  · exact holds_fixedArr fun i => holds_outputNode (π := fun c => c.cfg.knock) fun _ _ => rfl
  · unfold fuelingNode; apply holds_fields; each
    all_goals first
      | holds_leaf
      | (unfold crankNode; apply holds_fields; each
         all_goals holds_leaf)
  · unfold ignitionNode; apply holds_fields; each
    all_goals holds_leaf
  · unfold tablesNode; apply holds_fields; each
    all_goals first
      | exact holds_table1Node (π := fun c => c.cfg.knock) (fun _ _ => rfl) (fun _ _ => rfl) fun _ _ => rfl
      | exact holds_table2Node (π := fun c => c.cfg.knock) (fun _ _ => rfl) (fun _ _ => rfl) (fun _ _ => rfl)
          fun _ _ => rfl
  · unfold boostNode; apply holds_fields; each
    all_goals first
      | holds_leaf
      | exact holds_table1Node (π := fun c => c.cfg.knock) (fun _ _ => rfl) (fun _ _ => rfl) fun _ _ => rfl
  · unfold celNode; apply holds_fields; each
    all_goals holds_leaf
  · exact holds_fixedArr fun i => holds_freqNode (π := fun c => c.cfg.knock) fun _ _ => rfl
  · unfold testNode; apply holds_fields; each
    all_goals holds_leaf
  · apply holds_fields; each
    holds_leaf

theorem request_listens {version : String} {p : List Item} {v : Option Item} {c c' : Console} {l : List Item}
    (hc : Listening rate c.cfg.knock) (h : request (consoleTree rate version) b p v c = .ok (c', l)) :
    Listening rate c'.cfg.knock := by
  unfold request at h
  cases hr : render (consoleTree rate version) b (!p.isEmpty) v { s := c, path := p, out := [] } with
  | error e => rw [hr] at h; cases h
  | ok st =>
    rw [hr] at h
    cases h
    exact holds_consoleTree version _ _ _ _ hc hr

theorem process_listens {version : String} {struct req l : List Item} {c c' : Console} {e : Effect}
    (hc : Listening rate c.cfg.knock) (h : processRequest rate version struct req c = .ok (c', l, e)) :
    Listening rate c'.cfg.knock := by
  unfold processRequest at h
  dsimp only at h
  split at h
  · cases h; exact hc
  · rename_i m _
    split at h
    · cases h; exact hc
    split at h
    · cases h; exact hc
    split at h
    · cases h; exact hc
    split at h
    · cases h; exact hc
    cases hp : pathRequest rate version req m c with
    | error e => rw [hp] at h; cases h
    | ok x =>
      rw [hp] at h
      cases h
      unfold pathRequest at hp
      split at hp
      · rename_i p _
        split at hp
        · cases hr : request (consoleTree rate version) false p none c with
          | error e => rw [hr] at hp; cases hp
          | ok y => rw [hr] at hp; cases hp; exact request_listens hc hr
        · split at hp
          · cases hp; exact hc
          · rename_i v _
            split at hp
            · cases hr : request (consoleTree rate version) true p (some v) c with
              | error e => rw [hr] at hp; cases hp
              | ok y => rw [hr] at hp; cases hp; exact request_listens hc hr
            · cases hp; exact hc
      · cases hp; exact hc

omit [LibM] in
theorem knockAdd_keeps (xs : List Fl) (k : Knock) :
    let k' := xs.foldl knockAdd k
    k'.frequency = k.frequency ∧ k'.freq = k.freq ∧ k'.width = k.width ∧ k'.w = k.w ∧ k'.cr = k.cr := by
  induction xs generalizing k with
  | nil => exact ⟨rfl, rfl, rfl, rfl, rfl⟩
  | cons x xs ih =>
    have h := ih (knockAdd k x)
    have h1 : (knockAdd k x).frequency = k.frequency ∧ (knockAdd k x).freq = k.freq ∧
        (knockAdd k x).width = k.width ∧ (knockAdd k x).w = k.w ∧ (knockAdd k x).cr = k.cr := by
      unfold knockAdd
      dsimp only
      split <;> exact ⟨rfl, rfl, rfl, rfl, rfl⟩
    rw [h1.1, h1.2.1, h1.2.2.1, h1.2.2.2.1, h1.2.2.2.2] at h
    exact h

theorem update_listens {ks : Fin 2 → Knock} (h : Listening rate ks) (pin : Int) (xs : List Fl) :
    Listening rate (updateKnock ks pin xs) := by
  intro i
  unfold updateKnock
  generalize (if pin = 0 then (0 : Fin 2) else 1) = m
  by_cases hi : i = m
  · obtain ⟨h1, h2, h3, h4, h5⟩ := knockAdd_keeps xs (ks m)
    obtain ⟨h6, h7, h8, h9⟩ := h m
    simp only [hi, if_true]
    unfold FilterOf
    rw [h1, h2, h3, h4, h5]
    exact ⟨h6, h7, h8, h9⟩
  · simp only [hi, if_false]
    exact h i

end

/-! ### Tones -/

/-- The terms of a whole number of turns that is not a multiple of 64 cancel. -/
theorem turns_cancel (k : ℤ) (hk : ¬ (64 : ℤ) ∣ k) :
    ∑ j ∈ Finset.range 64, Complex.exp (2 * Real.pi * Complex.I * k * j / 64) = 0 := by
  have e : ∀ j : ℕ, Complex.exp (2 * Real.pi * Complex.I * k * j / 64) =
      Complex.exp (2 * Real.pi * Complex.I * k / 64) ^ j := by
    intro j
    rw [← Complex.exp_nat_mul]; congr 1; ring
  simp only [e]
  have hne : Complex.exp (2 * Real.pi * Complex.I * k / 64) ≠ 1 := by
    intro h
    obtain ⟨n, hn⟩ := Complex.exp_eq_one_iff.mp h
    apply hk
    refine ⟨n, ?_⟩
    have hpi : (2 * Real.pi * Complex.I : ℂ) ≠ 0 := Complex.two_pi_I_ne_zero
    have : (k : ℂ) = 64 * n := by
      have h2 : (2 * Real.pi * Complex.I : ℂ) * (k - 64 * n) = 0 := by linear_combination 64 * hn
      rcases mul_eq_zero.mp h2 with h3 | h3
      · exact (hpi h3).elim
      · linear_combination h3
    exact_mod_cast this
  rw [geom_sum_eq hne, ← Complex.exp_nat_mul]
  have : Complex.exp (((64 : ℕ) : ℂ) * (2 * Real.pi * Complex.I * k / 64)) = 1 := by
    rw [Complex.exp_eq_one_iff]
    exact ⟨k, by push_cast; ring⟩
  rw [this, sub_self, zero_div]

/-- A tone in the middle of a bin has no power in another bin. -/
theorem tone_silent (m n : ℕ) (h1 : ¬ (64 : ℤ) ∣ (m : ℤ) - n) (h2 : ¬ (64 : ℤ) ∣ (m : ℤ) + n) (h3 : ¬ (64 : ℤ) ∣ (n : ℤ))
    (a φ level : ℝ) :
    power64 n (fun j => level + a * Real.cos (2 * Real.pi * m * j / 64 + φ)) = 0 := by
  unfold power64
  rw [Complex.normSq_eq_zero]
  have e : ∀ j : ℕ, (((level + a * Real.cos (2 * Real.pi * m * j / 64 + φ) : ℝ)) : ℂ) *
        Complex.exp (-(2 * Real.pi * Complex.I * n * j / 64)) =
      level * Complex.exp (2 * Real.pi * Complex.I * ((-n : ℤ) : ℂ) * j / 64) +
      (a / 2 * Complex.exp (φ * Complex.I)) * Complex.exp (2 * Real.pi * Complex.I * (((m : ℤ) - n : ℤ) : ℂ) * j / 64) +
      (a / 2 * Complex.exp (-(φ * Complex.I))) *
        Complex.exp (2 * Real.pi * Complex.I * ((-((m : ℤ) + n) : ℤ) : ℂ) * j / 64) := by
    intro j
    push_cast
    rw [Complex.cos, mul_assoc (a / 2 : ℂ), mul_assoc (a / 2 : ℂ), ← Complex.exp_add, ← Complex.exp_add, add_mul,
      mul_assoc (a : ℂ), div_mul_eq_mul_div, add_mul, ← Complex.exp_add, ← Complex.exp_add]
    rw [show -(2 * (Real.pi : ℂ) * Complex.I * n * j / 64) = 2 * Real.pi * Complex.I * (-n) * j / 64 by ring,
      show (2 * (Real.pi : ℂ) * m * j / 64 + φ) * Complex.I + 2 * Real.pi * Complex.I * (-n) * j / 64 =
        φ * Complex.I + 2 * Real.pi * Complex.I * (m - n) * j / 64 by ring,
      show -(2 * (Real.pi : ℂ) * m * j / 64 + φ) * Complex.I + 2 * Real.pi * Complex.I * (-n) * j / 64 =
        -(φ * Complex.I) + 2 * Real.pi * Complex.I * (-n + -m) * j / 64 by ring]
    rw [show (-n + -m : ℂ) = -(m + n) by ring]
    ring_nf
  simp only [e]
  rw [Finset.sum_add_distrib, Finset.sum_add_distrib, ← Finset.mul_sum, ← Finset.mul_sum, ← Finset.mul_sum,
    turns_cancel _ (by simpa using h3), turns_cancel _ h1, turns_cancel _ (by rwa [Int.dvd_neg])]
  simp

end Verif
