/-
C57: critical sections nest.
-/
import Verif.Spec.Interrupts
import Mathlib.Tactic.Common

namespace Verif

/-- C57 for a single-processor platform: after any calls in which no section is closed that was not open, the platform has
not failed, and interrupts are enabled exactly when no section is open. -/
def C57_full (p : MaskPlatform) : Prop :=
  ∀ os n, sectionDepth os 0 = some n → ∃ m, Mask.boot.run p os = .ok m ∧ (m.enabled p = true ↔ n = 0)

theorem C57_test : C57_full .test := by
  have key : ∀ os (k n : Nat) (m : Mask), m.count = k → sectionDepth os k = some n →
      ∃ m', m.run .test os = .ok m' ∧ m'.count = n := by
    intro os
    induction os with
    | nil =>
        intro k n m hm h
        exact ⟨m, rfl, by rw [hm]; exact congrArg _ (Option.some.inj h)⟩
    | cons o os ih =>
        intro k n m hm h
        cases o with
        | disable => exact ih (k + 1) n _ (by simp [hm]) h
        | enable =>
            cases k with
            | zero => cases h
            | succ k =>
                obtain ⟨m', h1, h2⟩ := ih k n { m with count := m.count - 1 } (by simp [hm]) h
                refine ⟨m', ?_, h2⟩
                rw [Mask.run, Mask.op]
                simp only [hm]
                rw [decide_eq_true (by push_cast; omega)]
                simpa [hm] using h1
  intro os n h
  obtain ⟨m, h1, h2⟩ := key os 0 n .boot rfl h
  exact ⟨m, h1, by simp [Mask.enabled, h2]⟩

/-- On the microcontrollers it holds for sections that are not nested. -/
theorem C57_flat_partial (p : MaskPlatform) (hp : p = .stm32 ∨ p = .gd32) (os : List MaskOp) (n : Nat) (hf : Flat os false)
    (h : sectionDepth os 0 = some n) : ∃ m, Mask.boot.run p os = .ok m ∧ (m.enabled p = true ↔ n = 0) := by
  have key : ∀ os (b : Bool) n (m : Mask), Flat os b → m.primask = b → m.count = (if p = .stm32 then if b then 1 else 0 else 0) →
      sectionDepth os (if b then 1 else 0) = some n → ∃ m', m.run p os = .ok m' ∧ (m'.enabled p = true ↔ n = 0) := by
    intro os
    induction os with
    | nil =>
        intro b n m _ hm _ h
        refine ⟨m, rfl, ?_⟩
        have hn : (if b then 1 else 0) = n := Option.some.inj h
        rcases hp with rfl | rfl <;> cases b <;> simp_all [Mask.enabled] <;> omega
    | cons o os ih =>
        intro b n m hf hm hc h
        cases o with
        | disable =>
            obtain ⟨rfl, hf⟩ := hf
            rcases hp with rfl | rfl
            · exact ih true n { primask := true, count := m.count + 1 } hf rfl (by simp [hc]) h
            · exact ih true n { m with primask := true } hf rfl (by simpa using hc) h
        | enable =>
            obtain ⟨rfl, hf⟩ := hf
            rcases hp with rfl | rfl
            · obtain ⟨m', h1, h2⟩ := ih false n { primask := false, count := m.count - 1 } hf rfl (by simp [hc]) h
              refine ⟨m', ?_, h2⟩
              rw [Mask.run, Mask.op]
              simp only [hc, if_true] at h1 ⊢
              simpa using h1
            · exact ih false n { m with primask := false } hf rfl (by simpa using hc) h
  exact key os false n .boot hf rfl (by simp [Mask.boot]) h

/-- The calls made by saving the configuration with `armed` outputs to cancel. -/
theorem saveConfig_depth (armed : Nat) : sectionDepth (saveConfigMaskOps armed) 0 = some 1 := by
  have key : ∀ a, sectionDepth (List.replicate a descheduleMaskOps).flatten 1 = some 1 := by
    intro a
    induction a with
    | zero => rfl
    | succ a ih =>
        rw [List.replicate_succ, List.flatten_cons]
        exact ih
  exact key armed

/-- On the gd32, saving the configuration masks interrupts for as long as the flash is written.  If an output is armed at
that time, cancelling it unmasks them. -/
theorem C57_save_config_unmasked (armed : Nat) :
    ∃ m, Mask.boot.run .gd32 (saveConfigMaskOps armed) = .ok m ∧ (m.enabled .gd32 = true ↔ 0 < armed) := by
  have key : ∀ a (b : Bool), ∃ m, ({ primask := b, count := 0 } : Mask).run .gd32
      (List.replicate a descheduleMaskOps).flatten = .ok m ∧ (m.primask = false ↔ 0 < a ∨ b = false) := by
    intro a
    induction a with
    | zero => intro b; exact ⟨_, rfl, by simp⟩
    | succ a ih =>
        intro b
        obtain ⟨m, h1, h2⟩ := ih false
        refine ⟨m, ?_, by simp [h2]⟩
        rw [List.replicate_succ, List.flatten_cons]
        exact h1
  obtain ⟨m, h1, h2⟩ := key armed true
  exact ⟨m, h1, by simpa [Mask.enabled] using h2⟩

theorem C57_gd32_full_false : ¬ C57_full .gd32 := by
  intro h
  obtain ⟨m, h1, h2⟩ := h _ _ (saveConfig_depth 1)
  obtain ⟨m', h3, h4⟩ := C57_save_config_unmasked 1
  rw [h1] at h3
  cases h3
  have := h2.mp (h4.mpr (by decide))
  cases this

theorem C57_stm32_full_false : ¬ C57_full .stm32 := by
  intro h
  obtain ⟨m, h1, h2⟩ := h [.disable, .disable, .enable] 1 rfl
  cases h1
  have := h2.mp rfl
  cases this

/-- What the hosted mutex says about each thread. -/
def HostMask.Agrees (m : HostMask) (d : Nat → Nat) : Prop :=
  (∀ i, d i = if m.owner = some i then m.depth else 0) ∧ (m.owner = none ↔ m.depth = 0) ∧ m.count = m.depth

theorem callsOf_cons (i j : Nat) (o : MaskOp) (os : List (Nat × MaskOp)) :
    callsOf i ((j, o) :: os) = if j = i then o :: callsOf i os else callsOf i os := by
  unfold callsOf
  by_cases h : j = i <;> simp [h]

theorem hostRun_agrees (os : List (Nat × MaskOp)) : ∀ {m m' : HostMask} {d : Nat → Nat}, m.Agrees d →
    m.run os = .ok (some m') → ∃ d', m'.Agrees d' ∧ ∀ i, sectionDepth (callsOf i os) (d i) = some (d' i) := by
  induction os with
  | nil =>
      intro m m' d h hr
      cases hr
      exact ⟨d, h, fun i => rfl⟩
  | cons a os ih =>
      obtain ⟨j, o⟩ := a
      intro m m' d ⟨h1, h2, h3⟩ hr
      rw [HostMask.run, bind_eq_ok] at hr
      obtain ⟨r, hr1, hr⟩ := hr
      cases o with
      | disable =>
          unfold HostMask.op at hr1
          simp only at hr1
          split at hr1
          · rename_i hown
            cases hr1
            obtain ⟨d', g1, g2⟩ := ih (d := fun i => if i = j then d i + 1 else d i) (by
              refine ⟨?_, by simp, by simp [h3]⟩
              intro i
              by_cases hi : i = j
              · subst hi
                rcases hown with hn | hs
                · simp [h1, hn, h2.mp hn]
                · simp [h1, hs]
              · have hd : d i = 0 := by
                  rw [h1]
                  rcases hown with hn | hs
                  · simp [hn]
                  · simp [hs, Ne.symm hi]
                simp [hi, hd, Ne.symm hi]) hr
            refine ⟨d', g1, fun i => ?_⟩
            rw [callsOf_cons]
            have := g2 i
            by_cases hi : i = j
            · subst hi; simpa [sectionDepth] using this
            · rw [if_neg (Ne.symm hi)]; simpa [hi] using this
          · cases hr1; cases hr
      | enable =>
          unfold HostMask.op at hr1
          simp only [bind_eq_ok] at hr1
          obtain ⟨_, hc1, _, hc2, hr1⟩ := hr1
          have hown : m.owner = some j := by
            by_contra hne
            rw [decide_eq_false hne] at hc2
            cases hc2
          have hdep : m.depth ≠ 0 := fun h0 => by rw [h2.mpr h0] at hown; cases hown
          cases hr1
          obtain ⟨d', g1, g2⟩ := ih (d := fun i => if i = j then d i - 1 else d i) (by
            refine ⟨?_, ?_, ?_⟩
            · intro i
              by_cases hi : i = j
              · subst hi
                by_cases hd1 : m.depth = 1 <;> simp [h1, hown, hd1]
              · by_cases hd1 : m.depth = 1 <;> simp [h1, hown, hd1, hi, Ne.symm hi]
            · by_cases hd1 : m.depth = 1 <;> simp [hd1]; omega
            · simp only [h3]; omega) hr
          refine ⟨d', g1, fun i => ?_⟩
          rw [callsOf_cons]
          have := g2 i
          by_cases hi : i = j
          · subst hi
            have hd : d i = (d i - 1) + 1 := by rw [h1, if_pos hown]; omega
            rw [if_pos rfl, hd, sectionDepth]
            simpa using this
          · rw [if_neg (Ne.symm hi)]; simpa [hi] using this

/-- C57 on the hosted platform, for any number of threads and any order of their calls: a thread inside a critical section
keeps all others out until it has left its outermost section, and `interrupts_enabled` is true exactly when no thread is
inside one. -/
theorem C57_hosted {os : List (Nat × MaskOp)} {m : HostMask} (h : HostMask.boot.run os = .ok (some m)) :
    ∃ d : Nat → Nat, (∀ i, sectionDepth (callsOf i os) 0 = some (d i)) ∧ (∀ i j, 0 < d i → 0 < d j → i = j) ∧
      (m.enabled = true ↔ ∀ i, d i = 0) := by
  obtain ⟨d, ⟨h1, h2, h3⟩, h4⟩ := hostRun_agrees os (d := fun _ => 0) ⟨by intro i; simp [HostMask.boot], by simp [HostMask.boot], rfl⟩ h
  refine ⟨d, h4, ?_, ?_⟩
  · intro i j hi hj
    rw [h1] at hi hj
    split at hi
    · rename_i hoi
      split at hj
      · rename_i hoj
        rw [hoi] at hoj
        exact Option.some.inj hoj
      · cases hj
    · cases hi
  · unfold HostMask.enabled
    rw [decide_eq_true_iff, h3]
    constructor
    · intro hd i
      rw [h1, show m.depth = 0 by exact_mod_cast hd, ite_self]
    · intro hd
      cases ho : m.owner with
      | none => exact_mod_cast h2.mp ho
      | some i => have := hd i; rw [h1, if_pos ho] at this; exact_mod_cast this

/-- C57 on the hosted platform, continued: threads that close only what they have opened never make it abort. -/
theorem C57_hosted_no_abort (os : List (Nat × MaskOp)) (h : ∀ i, (sectionDepth (callsOf i os) 0).isSome = true) :
    ∃ r, HostMask.boot.run os = .ok r := by
  have key : ∀ os (m : HostMask) (d : Nat → Nat), m.Agrees d → (∀ i, (sectionDepth (callsOf i os) (d i)).isSome = true) →
      ∃ r, m.run os = .ok r := by
    intro os
    induction os with
    | nil => intro m d _ _; exact ⟨_, rfl⟩
    | cons a os ih =>
        obtain ⟨j, o⟩ := a
        intro m d hA h
        have hA' := hA
        obtain ⟨h1, h2, h3⟩ := hA
        by_cases hop : ∃ m', m.op j o = .ok (some m')
        · obtain ⟨m', hop⟩ := hop
          obtain ⟨d', g1, g2⟩ := hostRun_agrees [(j, o)] (m := m) (m' := m') hA' (by rw [HostMask.run, hop]; rfl)
          rw [HostMask.run, hop, except_bind_ok]
          refine ih m' d' g1 fun i => ?_
          have hi := h i
          have gi := g2 i
          rw [callsOf_cons] at hi gi
          by_cases hj : j = i
          · rw [if_pos hj] at hi gi
            cases o with
            | disable =>
                rw [show callsOf i [] = [] from rfl, sectionDepth, sectionDepth] at gi
                rw [sectionDepth, Option.some.inj gi] at hi
                exact hi
            | enable =>
                cases hd : d i with
                | zero => rw [hd] at gi; cases gi
                | succ k =>
                    rw [hd, show callsOf i [] = [] from rfl, sectionDepth, sectionDepth] at gi
                    rw [hd, sectionDepth, Option.some.inj gi] at hi
                    exact hi
          · rw [if_neg hj] at hi gi
            rw [show callsOf i [] = [] from rfl, sectionDepth] at gi
            rw [Option.some.inj gi] at hi
            exact hi
        · cases o with
          | disable =>
              refine ⟨none, ?_⟩
              rw [HostMask.run, HostMask.op]
              rw [HostMask.op] at hop
              split
              · rename_i hc; rw [if_pos hc] at hop; exact absurd ⟨_, rfl⟩ hop
              · rfl
          | enable =>
              exfalso
              have hj := h j
              rw [callsOf_cons, if_pos rfl] at hj
              cases hd : d j with
              | zero => rw [hd] at hj; cases hj
              | succ k =>
                  have ho : m.owner = some j := by
                    by_contra hne
                    rw [h1, if_neg hne] at hd
                    cases hd
                  rw [h1, if_pos ho] at hd
                  apply hop
                  refine ⟨{ owner := if m.depth = 1 then none else some j, depth := m.depth - 1, count := m.count - 1 }, ?_⟩
                  unfold HostMask.op
                  simp only
                  rw [decide_eq_true (show 0 ≤ m.count - 1 by rw [h3, hd]; push_cast; omega), decide_eq_true ho]
                  rfl
  exact key os _ (fun _ => 0) ⟨by intro i; simp [HostMask.boot], by simp [HostMask.boot], rfl⟩ h

/-- Two threads, the first with nested sections: the second has to wait until the outer one is closed. -/
example : HostMask.boot.run [(0, .disable), (0, .disable), (0, .enable), (1, .disable)] = .ok none ∧
    HostMask.boot.run [(0, .disable), (0, .disable), (0, .enable), (0, .enable), (1, .disable)] =
      .ok (some { owner := some 1, depth := 1, count := 1 }) := by
  decide +kernel

example : sectionDepth [.disable, .disable, .enable] 0 = some 1 ∧ Flat [.disable, .enable, .disable] false ∧
    sectionDepth [.disable, .enable, .disable] 0 = some 1 := by
  refine ⟨rfl, ?_, rfl⟩
  simp [Flat]

end Verif
