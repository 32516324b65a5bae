/-
Windowed sensors over a run: the specification's windows by angle within the cycle are those of `Spec/WindowRun`.
-/
import Verif.Props.Window
import Verif.Spec.WindowRun

namespace Verif

theorem turn720_range (q : ℚ) : 0 ≤ turn720 q ∧ turn720 q < 720 := by
  unfold turn720
  have h1 := Int.floor_le (q / 720)
  have h2 := Int.lt_floor_add_one (q / 720)
  rw [le_div_iff₀ (by norm_num)] at h1
  rw [div_lt_iff₀ (by norm_num)] at h2
  constructor <;> linarith

/-- The angle within the cycle is the only one there that differs by whole cycles. -/
theorem turn720_unique {q r : ℚ} {m : ℤ} (h : q = r + 720 * m) (h0 : 0 ≤ r) (h1 : r < 720) : turn720 q = r := by
  unfold turn720
  have : ⌊q / 720⌋ = m := by
    rw [Int.floor_eq_iff, le_div_iff₀ (by norm_num), div_lt_iff₀ (by norm_num)]
    constructor <;> linarith
  rw [this, h]; ring

theorem turn720_turn (q o : ℚ) : turn720 (turn720 q - o) = turn720 (q - o) := by
  obtain ⟨h0, h1⟩ := turn720_range (q - o)
  refine turn720_unique (m := ⌊(q - o) / 720⌋ - ⌊q / 720⌋) ?_ h0 h1
  unfold turn720
  push_cast; ring

theorem inCapture_iff {g : WinGeom} (hg : g.Tiles) (ψ : ℚ) : InCapture g.capture g.total g.offset (turn720 ψ) ↔ ∃ j, g.In j ψ := by
  obtain ⟨q, hq⟩ := hg.div
  have hqq : (720 : ℚ) = g.total * q := by exact_mod_cast hq
  have ht : (0 : ℚ) < g.total := by exact_mod_cast hg.pos
  have hc : (g.capture : ℚ) ≤ g.total := by exact_mod_cast hg.fits
  unfold InCapture
  rw [turn720_turn]
  obtain ⟨h0, h1⟩ := turn720_range (ψ - g.offset)
  obtain ⟨m, hm⟩ : ∃ m : ℤ, turn720 (ψ - g.offset) = ψ - g.offset - 720 * m := ⟨_, rfl⟩
  rw [hm] at h0 h1 ⊢
  constructor
  · rintro ⟨k, -, h2, h3⟩
    refine ⟨k + q * m, ?_, ?_⟩ <;> push_cast at * <;> rw [hqq] at * <;> nlinarith
  · rintro ⟨j, h2, h3⟩
    have e : (j : ℚ) * g.total = (j - q * m : ℤ) * g.total + 720 * m := by push_cast; rw [hqq]; ring
    rw [e] at h2 h3
    have hk : 0 ≤ j - q * m := by
      by_contra hn
      have : j - q * m + 1 ≤ 0 := by omega
      have h4 : ((j - q * m : ℤ) : ℚ) + 1 ≤ 0 := by exact_mod_cast this
      nlinarith
    obtain ⟨k, hk'⟩ := Int.eq_ofNat_of_zero_le hk
    rw [hk'] at h2 h3
    have h2' : ((k * g.total : ℕ) : ℚ) ≤ ψ - g.offset - 720 * m := by push_cast at *; linarith
    refine ⟨k, ?_, h2', ?_⟩
    · have : ((k * g.total : ℕ) : ℚ) < 720 := lt_of_le_of_lt h2' h1
      exact_mod_cast this
    · push_cast at *; linarith

theorem In_unique {g : WinGeom} (hg : g.Tiles) {i j : ℤ} {ψ : ℚ} (hi : g.In i ψ) (hj : g.In j ψ) : i = j := by
  have ht : (0 : ℚ) < g.total := by exact_mod_cast hg.pos
  have hc : (g.capture : ℚ) ≤ g.total := by exact_mod_cast hg.fits
  obtain ⟨a, b⟩ := hi
  obtain ⟨c, d⟩ := hj
  rcases lt_trichotomy i j with h | h | h
  · have : ((i : ℚ) + 1) ≤ j := by exact_mod_cast h
    nlinarith
  · exact h
  · have : ((j : ℚ) + 1) ≤ i := by exact_mod_cast h
    nlinarith

theorem WinSt.run_append (c t o : ℕ) (line : ℚ → ℚ) (l m : List (ℚ × ℚ)) (st : WinSt) (v : Option ℚ) :
    st.run c t o line v (l ++ m) = (st.run c t o line v l).1.run c t o line (st.run c t o line v l).2 m := by
  induction l generalizing st v with
  | nil => rfl
  | cons x l ih =>
      obtain ⟨a, raw⟩ := x
      simp only [List.cons_append, WinSt.run]
      exact ih _ _

/-- What holds of the open window and the value after the samples `p`. -/
structure WinInv (g : WinGeom) (p : List (ℚ × ℚ)) (st : WinSt) (v : Option ℚ) : Prop where
  opened : ∀ j x, p.getLast? = some x → g.In j x.1 → st.samples = g.samples j p ∧ ∃ σ, g.In j σ ∧ σ ≤ x.1 ∧ st.start = turn720 σ
  shut : (∀ j x, p.getLast? = some x → ¬ g.In j x.1) → st.samples = []
  value : g.Reports p v

theorem samples_append (g : WinGeom) (j : ℤ) (p : List (ℚ × ℚ)) (x : ℚ × ℚ) :
    g.samples j (p ++ [x]) = g.samples j p ++ (open Classical in if g.In j x.1 then [x.2] else []) := by
  unfold WinGeom.samples
  rw [List.filter_append, List.map_append]
  congr 1
  by_cases h : g.In j x.1 <;> simp [h]

theorem last_le {p : List (ℚ × ℚ)} {y z : ℚ × ℚ} (hp : p.Pairwise (fun x y => x.1 ≤ y.1)) (hz : p.getLast? = some z) (hy : y ∈ p) :
    y.1 ≤ z.1 := by
  obtain ⟨q, rfl⟩ := List.getLast?_eq_some_iff.mp hz
  rcases List.mem_append.mp hy with h | h
  · exact (List.pairwise_append.mp hp).2.2 y h z (by simp)
  · rw [List.mem_singleton] at h; rw [h]

/-- A window with a sample that is not over after `p` contains the last sample of `p`. -/
theorem in_last {g : WinGeom} {p : List (ℚ × ℚ)} {y z : ℚ × ℚ} {j : ℤ} (hp : p.Pairwise (fun x y => x.1 ≤ y.1))
    (hz : p.getLast? = some z) (hy : y ∈ p) (hj : g.In j y.1) (hn : ¬ g.Over p j) : g.In j z.1 := by
  refine ⟨hj.1.trans (last_le hp hz hy), ?_⟩
  by_contra h
  exact hn ⟨⟨y, hy, hj⟩, z, hz, not_lt.mp h⟩

/-- One more sample, when the last one lies in no window or in the same one: the windows that are over stay the same. -/
theorem over_same {g : WinGeom} {p : List (ℚ × ℚ)} {x : ℚ × ℚ} (hp : (p ++ [x]).Pairwise (fun x y => x.1 ≤ y.1))
    (hs : ∀ z j, p.getLast? = some z → g.In j z.1 → g.In j x.1) (j : ℤ) : g.Over (p ++ [x]) j ↔ g.Over p j := by
  have hpp := (List.pairwise_append.mp hp).1
  have hpx := (List.pairwise_append.mp hp).2.2
  constructor
  · rintro ⟨⟨y, hy, hj⟩, z, hz, hb⟩
    rw [List.getLast?_concat, Option.some.injEq] at hz
    subst hz
    rcases List.mem_append.mp hy with h | h
    · by_contra hn
      obtain ⟨z, hz⟩ : ∃ z, p.getLast? = some z := by
        cases hq : p.getLast? with
        | none => rw [List.getLast?_eq_none_iff] at hq; rw [hq] at h; cases h
        | some z => exact ⟨z, rfl⟩
      have := (hs z j hz (in_last hpp hz h hj hn)).2
      linarith
    · rw [List.mem_singleton] at h
      subst h
      exact absurd hj.2 (not_lt.mpr hb)
  · rintro ⟨⟨y, hy, hj⟩, z, hz, hb⟩
    refine ⟨⟨y, List.mem_append_left _ hy, hj⟩, x, List.getLast?_concat, hb.trans ?_⟩
    exact hpx z (List.mem_of_getLast? hz) x (by simp)

/-- One more sample, which leaves the window `i`: this one is over too. -/
theorem over_more {g : WinGeom} {p : List (ℚ × ℚ)} {x z : ℚ × ℚ} {i : ℤ} (hg : g.Tiles)
    (hp : (p ++ [x]).Pairwise (fun x y => x.1 ≤ y.1)) (hz : p.getLast? = some z) (hi : g.In i z.1) (hx : ¬ g.In i x.1) (j : ℤ) :
    g.Over (p ++ [x]) j ↔ g.Over p j ∨ j = i := by
  have hpp := (List.pairwise_append.mp hp).1
  have hzx := (List.pairwise_append.mp hp).2.2 z (List.mem_of_getLast? hz) x (by simp)
  constructor
  · rintro ⟨⟨y, hy, hj⟩, w, hw, hb⟩
    rw [List.getLast?_concat, Option.some.injEq] at hw
    subst hw
    rcases List.mem_append.mp hy with h | h
    · by_cases hn : g.Over p j
      · exact Or.inl hn
      · exact Or.inr (In_unique hg (in_last hpp hz h hj hn) hi)
    · rw [List.mem_singleton] at h
      subst h
      exact absurd hj.2 (not_lt.mpr hb)
  · rintro (⟨⟨y, hy, hj⟩, w, hw, hb⟩ | rfl)
    · rw [hz, Option.some.injEq] at hw
      subst hw
      exact ⟨⟨y, List.mem_append_left _ hy, hj⟩, x, List.getLast?_concat, hb.trans hzx⟩
    · refine ⟨⟨z, List.mem_append_left _ (List.mem_of_getLast? hz), hi⟩, x, List.getLast?_concat, ?_⟩
      by_contra h
      exact hx ⟨hi.1.trans hzx, not_le.mp h⟩

theorem samples_over {g : WinGeom} {p : List (ℚ × ℚ)} {x : ℚ × ℚ} {j : ℤ} (h : g.Over (p ++ [x]) j) :
    g.samples j (p ++ [x]) = g.samples j p := by
  obtain ⟨-, z, hz, hb⟩ := h
  rw [List.getLast?_concat, Option.some.injEq] at hz
  subst hz
  rw [samples_append, if_neg (fun h => absurd h.2 (not_lt.mpr hb)), List.append_nil]

/-- An over window lies before the window of the last sample. -/
theorem over_before {g : WinGeom} {p : List (ℚ × ℚ)} {z : ℚ × ℚ} {i j : ℤ} (hg : g.Tiles) (hz : p.getLast? = some z) (hi : g.In i z.1)
    (h : g.Over p j) : j < i := by
  obtain ⟨-, w, hw, hb⟩ := h
  rw [hz, Option.some.injEq] at hw
  subst hw
  by_contra hn
  have ht : (0 : ℚ) < g.total := by exact_mod_cast hg.pos
  have h1 : (i : ℚ) ≤ j := by exact_mod_cast not_lt.mp hn
  have := hi.2
  nlinarith

theorem WinInv.step {g : WinGeom} (hg : g.Tiles) {p : List (ℚ × ℚ)} {x : ℚ × ℚ} {st : WinSt} {v : Option ℚ}
    (hp : (p ++ [x]).Pairwise (fun x y => x.1 ≤ y.1))
    (hs : ∀ z, p.getLast? = some z → x.1 - z.1 ≤ g.total - g.capture)
    (h : WinInv g p st v) :
    WinInv g (p ++ [x]) (st.step g.capture g.total g.offset (turn720 x.1) x.2).1
      (((st.step g.capture g.total g.offset (turn720 x.1) x.2).2).or v) := by
  have hpp := (List.pairwise_append.mp hp).1
  have hpx := (List.pairwise_append.mp hp).2.2
  have ht : (0 : ℚ) < g.total := by exact_mod_cast hg.pos
  have hc : (g.capture : ℚ) ≤ g.total := by exact_mod_cast hg.fits
  have ht720 : (g.total : ℚ) ≤ 720 := by exact_mod_cast Nat.le_of_dvd (by norm_num) hg.div
  have hin := inCapture_iff hg x.1
  have hlast : ∀ w, (p ++ [x]).getLast? = some w → w = x := by
    intro w hw
    rw [List.getLast?_concat, Option.some.injEq] at hw
    exact hw.symm
  by_cases hz : ∃ z i, p.getLast? = some z ∧ g.In i z.1
  · obtain ⟨z, i, hz, hi⟩ := hz
    obtain ⟨e1, σ, hσ, hσz, e2⟩ := h.opened i z hz hi
    have hzx := hpx z (List.mem_of_getLast? hz) x (by simp)
    have hne : st.samples ≠ [] := by
      rw [e1]
      unfold WinGeom.samples
      intro hh
      have : z ∈ p.filter fun x => (open Classical in decide (g.In i x.1)) := by
        rw [List.mem_filter]; exact ⟨List.mem_of_getLast? hz, by simpa using hi⟩
      rw [List.map_eq_nil_iff] at hh
      rw [hh] at this; cases this
    by_cases hx : g.In i x.1
    · have hI : InCapture g.capture g.total g.offset (turn720 x.1) := hin.mpr ⟨i, hx⟩
      have hnc : ¬ Complete g.capture g.total g.offset st (turn720 x.1) := by
        rintro ⟨-, h1 | h1⟩
        · exact h1 hI
        · rw [e2, turn720_turn] at h1
          rw [turn720_unique (q := x.1 - turn720 σ) (r := x.1 - σ) (m := ⌊σ / 720⌋) (by unfold turn720; ring) (by linarith)
            (by linarith [hσ.1, hx.2])] at h1
          linarith [hσ.1, hx.2]
      unfold WinSt.step
      simp only [hnc, if_false, hI, if_true, hne, Option.none_or]
      have hov := over_same hp (fun w j hw hj => by
        rw [hz, Option.some.injEq] at hw; subst hw
        rw [In_unique hg hj hi]; exact hx)
      refine ⟨fun j w hw hj => ?_, fun hh => absurd hx (hh i x List.getLast?_concat), ?_, ?_⟩
      · rw [hlast w hw] at hj ⊢
        rw [In_unique hg hj hx, samples_append, if_pos hx, e1]
        exact ⟨rfl, σ, hσ, hσz.trans hzx, e2⟩
      · intro j hj hm
        rw [samples_over hj]
        exact h.value.1 j ((hov j).mp hj) (fun j' hj' ho => hm j' hj' ((hov j').mpr ho))
      · intro hn
        exact h.value.2 fun j ho => hn j ((hov j).mpr ho)
    · have hno : ∀ j, ¬ g.In j x.1 := by
        intro j hj
        have hs' := hs z hz
        rcases lt_trichotomy j i with hh | hh | hh
        · have : ((j : ℚ) + 1) ≤ i := by exact_mod_cast hh
          have h1 := hj.2
          have h2 := hi.1
          nlinarith
        · exact hx (hh ▸ hj)
        · have : ((i : ℚ) + 1) ≤ j := by exact_mod_cast hh
          have h1 := hj.1
          have h2 := hi.2
          nlinarith
      have hI : ¬ InCapture g.capture g.total g.offset (turn720 x.1) := fun hh => (hin.mp hh).elim hno
      have hco : Complete g.capture g.total g.offset st (turn720 x.1) := ⟨hne, Or.inl hI⟩
      unfold WinSt.step
      simp only [hco, if_true, hI, if_false, Option.some_or]
      have hov := over_more hg hp hz hi hx
      refine ⟨fun j w hw hj => ?_, fun _ => rfl, ?_, ?_⟩
      · rw [hlast w hw] at hj
        exact absurd hj (hno j)
      · intro j hj hm
        have : j = i := by
          rcases (hov j).mp hj with ho | rfl
          · exact absurd ((hov i).mpr (Or.inr rfl)) (hm i (over_before hg hz hi ho))
          · rfl
        subst this
        rw [samples_over hj, e1]
      · intro hn
        exact absurd ((hov i).mpr (Or.inr rfl)) (hn i)
  · have hz' : ∀ z j, p.getLast? = some z → ¬ g.In j z.1 := fun z j h1 h2 => hz ⟨z, j, h1, h2⟩
    have e1 := h.shut (fun j z => hz' z j)
    have hnc : ¬ Complete g.capture g.total g.offset st (turn720 x.1) := fun hh => hh.1 e1
    have hov := over_same (g := g) hp (fun w j hw hj => absurd hj (hz' w j hw))
    have hval : g.Reports (p ++ [x]) v := by
      refine ⟨?_, ?_⟩
      · intro j hj hm
        rw [samples_over hj]
        exact h.value.1 j ((hov j).mp hj) (fun j' hj' ho => hm j' hj' ((hov j').mpr ho))
      · intro hn
        exact h.value.2 fun j ho => hn j ((hov j).mpr ho)
    by_cases hx : ∃ j, g.In j x.1
    · have hI : InCapture g.capture g.total g.offset (turn720 x.1) := hin.mpr hx
      unfold WinSt.step
      simp only [hnc, if_false, hI, if_true, e1, Option.none_or]
      refine ⟨fun j w hw hj => ?_, fun hh => (hx.elim fun j hj => absurd hj (hh j x List.getLast?_concat)), hval⟩
      rw [hlast w hw] at hj ⊢
      refine ⟨?_, x.1, hj, le_refl _, rfl⟩
      rw [samples_append, if_pos hj]
      have : g.samples j p = [] := by
        unfold WinGeom.samples
        rw [List.map_eq_nil_iff, List.filter_eq_nil_iff]
        intro y hy hyj
        have hyj' : g.In j y.1 := by simpa using hyj
        obtain ⟨z, hz2⟩ : ∃ z, p.getLast? = some z := by
          cases hq : p.getLast? with
          | none => rw [List.getLast?_eq_none_iff] at hq; rw [hq] at hy; cases hy
          | some z => exact ⟨z, rfl⟩
        exact hz' z j hz2 ⟨hyj'.1.trans (last_le hpp hz2 hy),
          lt_of_le_of_lt (hpx z (List.mem_of_getLast? hz2) x (by simp)) hj.2⟩
      rw [this]
    · have hI : ¬ InCapture g.capture g.total g.offset (turn720 x.1) := fun hh => hx (hin.mp hh)
      unfold WinSt.step
      simp only [hnc, if_false, hI, Option.none_or]
      refine ⟨fun j w hw hj => ?_, fun _ => e1, hval⟩
      rw [hlast w hw] at hj
      exact absurd ⟨j, hj⟩ hx

theorem WinInv.run {g : WinGeom} (hg : g.Tiles) (line : ℚ → ℚ) (l : List (ℚ × ℚ)) (hl : SampledEvery (g.total - g.capture) l) :
    WinInv g (l.map fun x => (x.1, line x.2)) ((⟨[], 0⟩ : WinSt).run g.capture g.total g.offset line none (turned l)).1
      ((⟨[], 0⟩ : WinSt).run g.capture g.total g.offset line none (turned l)).2 := by
  induction l using List.reverseRecOn with
  | nil =>
      refine ⟨fun j x h => (nomatch h), fun _ => rfl, fun j h => (nomatch h.2.choose_spec.1), fun _ => rfl⟩
  | append_singleton p x ih =>
      have hp' : SampledEvery (g.total - g.capture) p :=
        ⟨(List.pairwise_append.mp hl.1).1, fun a y z s e => hl.2 a y z (s ++ [x]) (by rw [e]; simp)⟩
      have h := ih hp'
      have e : turned (p ++ [x]) = turned p ++ [(turn720 x.1, x.2)] := by unfold turned; simp
      rw [e, WinSt.run_append]
      simp only [WinSt.run]
      have := WinInv.step (x := (x.1, line x.2)) hg (p := p.map fun x => (x.1, line x.2)) (by
          have h1 := hl.1
          have : (p.map fun x => (x.1, line x.2)) ++ [(x.1, line x.2)] = (p ++ [x]).map fun x => (x.1, line x.2) := by simp
          rw [this, List.pairwise_map]
          exact h1) (by
          intro z hz
          rw [List.getLast?_map] at hz
          obtain ⟨w, hw, rfl⟩ := Option.map_eq_some_iff.mp hz
          obtain ⟨q, rfl⟩ := List.getLast?_eq_some_iff.mp hw
          exact hl.2 q w x [] (by simp)) h
      rw [List.map_append]
      exact this

end Verif
