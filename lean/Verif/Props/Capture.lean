/-
C54: trigger edges captured together are handed to the decoder in time order.
C63: no trigger edge is forgotten.
-/
import Verif.Spec.Capture
import Verif.Proofs.Time
import Verif.Props.Time

namespace Verif

/-- The order of the hand-over. -/
theorem deliverCaptures_order (f : Bool → Bool) (T : Bool → ℤ) (h : |T true - T false| < 2 ^ 31) :
    ∃ l : List (Bool × ℤ), l.Perm (([false, true].filter f).map fun k => (k, T k)) ∧ InCaptureOrder l ∧
      deliverCaptures (if f false then some (stamp (T false)) else none) (if f true then some (stamp (T true)) else none) =
        l.map fun e => .deliver (inputNo e.1) (stamp e.2) := by
  unfold InCaptureOrder deliverCaptures
  cases h0 : f false <;> cases h1 : f true
  · exact ⟨[], by simp [h0, h1], by simp, by simp⟩
  · exact ⟨[(true, T true)], by simp [h0, h1], by simp, by simp [inputNo]⟩
  · exact ⟨[(false, T false)], by simp [h0, h1], by simp, by simp [inputNo]⟩
  · by_cases hb : timeBefore (stamp (T true)) (stamp (T false)) = true
    · have hlt := (C01_time_before _ _ h).mp hb
      exact ⟨[(true, T true), (false, T false)], by simpa [h0, h1] using List.Perm.swap _ _ _, by simp [hlt],
        by simp [hb, inputNo]⟩
    · have hle : ¬ T true < T false := fun hc => hb ((C01_time_before _ _ h).mpr hc)
      refine ⟨[(false, T false), (true, T true)], by simp [h0, h1], ?_, by simp [hb, inputNo]⟩
      simp; omega

/-- C54.  The interrupt is taken with captures pending on any of the two inputs, less than half a wrap apart.  On both
platforms, one run of the handler hands each pending edge to the decoder exactly once, by time, the primary input first on a
tie, and leaves nothing pending. -/
theorem C54_order (p : CapPlatform) (s : CapSys) (T : Bool → ℤ) (hT : |T true - T false| < 2 ^ 31) (hi : s.pc = .idle)
    (ho : ∀ k, (s.ch k).over = false) (hr : ∀ k, (s.ch k).flag = true → (s.ch k).reg = stamp (T k)) :
    ∃ n l, List.Perm l (([false, true].filter fun k => (s.ch k).flag).map fun k => (k, T k)) ∧ InCaptureOrder l ∧
      (s.run p (.enter :: List.replicate n .step)).trace =
        s.trace ++ l.map (fun e => .out (.deliver (inputNo e.1) (stamp e.2))) ∧
      (s.run p (.enter :: List.replicate n .step)).Quiet := by
  obtain ⟨l, h1, h2, h3⟩ := deliverCaptures_order (fun k => (s.ch k).flag) T hT
  have hr0 := hr false
  have hr1 := hr true
  have ho0 := ho false
  have ho1 := ho true
  have hm : l.map (fun e => CapEv.out (.deliver (inputNo e.1) (stamp e.2))) =
      (l.map fun e => CapOut.deliver (inputNo e.1) (stamp e.2)).map .out := by
    rw [List.map_map]; rfl
  refine ⟨8, l, h1, h2, ?_, ?_⟩
  · rw [hm, ← h3]
    cases hf0 : (s.ch false).flag <;> cases hf1 : (s.ch true).flag <;> cases p <;>
      simp_all [CapSys.run, CapSys.act, CapSys.step, CapSys.setCh, capAfter, List.replicate]
  · unfold CapSys.Quiet
    cases hf0 : (s.ch false).flag <;> cases hf1 : (s.ch true).flag <;> cases p <;>
      simp_all [CapSys.run, CapSys.act, CapSys.step, CapSys.setCh, capAfter, List.replicate]

/-- The hypotheses of C54 are met by two captures on either side of a wrap of the counter: input 1 was first. -/
example :
    let s := (CapSys.boot.act .gd32 (.edge true (stamp (2 ^ 32 - 3)))).act .gd32 (.edge false (stamp (2 ^ 32 + 4)))
    s.pc = .idle ∧ (∀ k, (s.ch k).over = false) ∧
      (s.run .gd32 (.enter :: List.replicate 8 .step)).trace.drop 2 =
        [.out (.deliver 1 (stamp (2 ^ 32 - 3))), .out (.deliver 0 (stamp (2 ^ 32 + 4)))] := by
  decide +kernel

/-- What C63 rests on, for the stm32 handler: where an edge can be that is not yet accounted for. -/
structure CapInv (s : CapSys) : Prop where
  edges : ∀ a k t b, s.trace = a ++ .edge k t :: b → Accounted k t b ∨
    ((s.ch k).flag = true ∧ (s.ch k).reg = t) ∨ (s.pc ≠ .idle ∧ s.got k = some t) ∨
    ((s.ch k).flag = true ∧ (s.ch k).over = true) ∨ (s.pc ≠ .idle ∧ s.pc ≠ .hand ∧ (s.ch k).over = true) ∨
    s.pc = .clearOver false ∨ s.pc = .clearOver true ∨ s.pc = .lose
  first : s.pc = .test false ∨ s.pc = .read false → s.got false = none
  second : s.pc = .test false ∨ s.pc = .read false ∨ s.pc = .clear false ∨ s.pc = .test true ∨ s.pc = .read true →
    s.got true = none
  clear : ∀ k, s.pc = .clear k → (s.ch k).flag = false

/-- Where an edge is in a trace that has grown by reports only. -/
theorem edge_before_outs {x a b : List CapEv} {c : List CapOut} {k : Bool} {t : Time}
    (h : x ++ c.map .out = a ++ .edge k t :: b) : ∃ b', b = b' ++ c.map .out ∧ x = a ++ .edge k t :: b' := by
  rcases List.append_eq_append_iff.mp h with ⟨d, h1, h2⟩ | ⟨d, h1, h2⟩
  · have hm : CapEv.edge k t ∈ c.map CapEv.out := by rw [h2]; simp
    simp at hm
  · cases d with
    | nil =>
        rw [List.nil_append] at h2
        have hm : CapEv.edge k t ∈ c.map CapEv.out := by rw [← h2]; simp
        simp at hm
    | cons e d =>
        rw [List.cons_append, List.cons.injEq] at h2
        exact ⟨d, h2.2, by rw [h1, ← h2.1]⟩

theorem edge_before_edge {x a b : List CapEv} {k k' : Bool} {t t' : Time}
    (h : x ++ [.edge k' t'] = a ++ .edge k t :: b) :
    (k = k' ∧ t = t') ∨ ∃ b', b = b' ++ [.edge k' t'] ∧ x = a ++ .edge k t :: b' := by
  rcases List.eq_nil_or_concat b with rfl | ⟨b', e, rfl⟩
  · have := (List.append_inj' h rfl).2
    simp at this
    exact .inl ⟨this.1.symm, this.2.symm⟩
  · rw [List.concat_eq_append, ← List.cons_append, ← List.append_assoc] at h
    obtain ⟨h1, h2⟩ := List.append_inj' h rfl
    exact .inr ⟨b', by rw [List.concat_eq_append, ← h2], h1⟩

theorem Accounted.mono {k : Bool} {t : Time} {b c : List CapEv} (h : Accounted k t b) : Accounted k t (b ++ c) := by
  unfold Accounted at *
  rcases h with h | h
  · exact .inl (List.mem_append_left _ h)
  · exact .inr (List.mem_append_left _ h)

theorem deliver_mem {g : Bool → Option Time} {k : Bool} {t : Time} (h : g k = some t) :
    CapOut.deliver (inputNo k) t ∈ deliverCaptures (g false) (g true) := by
  unfold deliverCaptures inputNo
  cases k
  · rw [h]; cases h1 : g true <;> simp
    split <;> simp
  · rw [h]; cases h1 : g false <;> simp
    split <;> simp

/-- An edge on an input may come at any time, except between the two instructions that read the input's capture register and
clear its flag. -/
def notWhileClearing (s : CapSys) : CapAct → Prop
  | .edge k _ => s.pc ≠ .clear k
  | _ => True

theorem capInv_edge {p : CapPlatform} {s : CapSys} (h : CapInv s) {k : Bool} {t : Time} (hk : s.pc ≠ .clear k) :
    CapInv (s.act p (.edge k t)) := by
  refine ⟨?_, h.first, h.second, ?_⟩
  · intro a j u b hs
    rcases edge_before_edge hs with ⟨rfl, rfl⟩ | ⟨b', rfl, hb⟩
    · right; left
      simp [CapSys.act, CapSys.setCh, CapChan.capture]
    · by_cases hj : j = k
      · subst hj
        rcases h.edges a j u b' hb with h1 | ⟨h1, h2⟩ | h1 | ⟨h1, h2⟩ | ⟨h1, h2, h3⟩ | h1
        · exact .inl h1.mono
        · right; right; right; left
          simp [CapSys.act, CapSys.setCh, CapChan.capture, h1]
        · exact .inr (.inr (.inl h1))
        · right; right; right; left
          simp [CapSys.act, CapSys.setCh, CapChan.capture, h1]
        · right; right; right; left
          simp [CapSys.act, CapSys.setCh, CapChan.capture, h3]
        · exact .inr (.inr (.inr (.inr (.inr h1))))
      · rcases h.edges a j u b' hb with h1 | h1
        · exact .inl h1.mono
        · right
          simpa [CapSys.act, CapSys.setCh, hj] using h1
  · intro j hj
    have hjk : j ≠ k := fun hc => hk (hc ▸ hj)
    simpa [CapSys.act, CapSys.setCh, hjk] using h.clear j hj

theorem capInv_step {s : CapSys} (h : CapInv s) : CapInv (s.step .stm32) := by
  obtain ⟨he, h1, h2, h3⟩ := h
  unfold CapSys.step
  cases hpc : s.pc with
  | idle => simp only; exact ⟨he, h1, h2, h3⟩
  | test k =>
      simp only
      split
      · refine ⟨?_, ?_, ?_, ?_⟩
        · intro a j t b hs
          have := he a j t b hs
          simp_all
        · cases k <;> simp_all
        · cases k <;> simp_all
        · simp
      · refine ⟨?_, ?_, ?_, ?_⟩
        · intro a j t b hs
          have := he a j t b hs
          cases k <;> simp_all [capAfter]
        · cases k <;> simp_all [capAfter]
        · cases k <;> simp_all [capAfter]
        · cases k <;> simp [capAfter]
  | read k =>
      simp only [if_true]
      refine ⟨?_, ?_, ?_, ?_⟩
      · intro a j t b hs
        have := he a j t b hs
        by_cases hj : j = k
        · subst hj
          have hg : s.got j = none := by cases j <;> simp_all
          simp_all [CapSys.setCh]
          tauto
        · simp_all [CapSys.setCh]
      · cases k <;> simp_all [CapSys.setCh]
      · cases k <;> simp_all [CapSys.setCh]
      · cases k <;> simp_all [CapSys.setCh]
  | clear k =>
      simp only
      have h3 := h3 k hpc
      refine ⟨?_, ?_, ?_, ?_⟩
      · intro a j t b hs
        have := he a j t b hs
        by_cases hj : j = k
        · subst hj
          cases j <;> simp_all [CapSys.setCh, capAfter]
        · cases k <;> simp_all [CapSys.setCh, capAfter]
      · cases k <;> simp_all [CapSys.setCh, capAfter]
      · cases k <;> simp_all [CapSys.setCh, capAfter]
      · cases k <;> simp_all [CapSys.setCh, capAfter]
  | testOver =>
      simp only
      split
      · refine ⟨?_, by simp, by simp, by simp⟩
        intro a j t b hs
        have := he a j t b hs
        simp_all
      · rename_i hno
        refine ⟨?_, by simp, by simp, by simp⟩
        intro a j t b hs
        have := he a j t b hs
        have hj : (s.ch j).over = false := by cases j <;> simp_all
        simp_all
  | clearOver k =>
      simp only
      cases k <;> refine ⟨?_, by simp, by simp, by simp⟩ <;>
      · intro a j t b hs
        simp
  | hand =>
      simp only
      refine ⟨?_, by simp, by simp, by simp⟩
      intro a j t b hs
      obtain ⟨b', rfl, hb⟩ := edge_before_outs hs
      rcases he a j t b' hb with h4 | h4 | ⟨-, h4⟩ | h4 | h4 | h4
      · exact .inl h4.mono
      · exact .inr (.inl h4)
      · exact .inl (.inl (List.mem_append_right _ (List.mem_map_of_mem (deliver_mem h4))))
      · exact .inr (.inr (.inr (.inl h4)))
      · simp_all
      · simp_all
  | lose =>
      simp only
      refine ⟨?_, by simp, by simp, by simp⟩
      intro a j t b hs
      obtain ⟨b', rfl, hb⟩ := edge_before_outs (c := [.desync]) hs
      exact .inl (.inr (List.mem_append_right _ (by simp)))

/-- C63 on the stm32.  Whatever edges come and whenever the interrupt is taken, once the handler has nothing left to do every
edge has been handed to the decoder or the decoder has afterwards been told that edges were lost. -/
theorem C63_stm32_partial {s : CapSys} (h : CapRun .stm32 notWhileClearing s) (hq : s.Quiet) : NoneForgotten s.trace := by
  have hi : CapInv s := by
    clear hq
    induction h with
    | boot => exact ⟨by intro a k t b h; simp [CapSys.boot] at h, by simp [CapSys.boot], by simp [CapSys.boot], by simp [CapSys.boot]⟩
    | @act s a _ hok ih =>
        cases a with
        | edge k t => exact capInv_edge ih hok
        | step => exact capInv_step ih
        | enter =>
            show CapInv (if s.pc = .idle then { s with pc := .test false, got := fun _ => none } else s)
            split
            · rename_i hpc
              refine ⟨?_, by simp, by simp, by simp⟩
              intro a j t b hs
              have := ih.edges a j t b hs
              simp_all
              tauto
            · exact ih
  intro a k t b hs
  obtain ⟨hpc, hf⟩ := hq
  have := hi.edges a k t b hs
  have hf := hf k
  simp_all

/-- An edge on an input comes only when the capture before it on that input has been read. -/
def notWhilePending (s : CapSys) : CapAct → Prop
  | .edge k _ => (s.ch k).flag = false
  | _ => True

/-- C63 on the gd32, which does not look at the overcapture flags: it holds only if no edge comes before the capture of the
one before it on the same input has been read. -/
theorem C63_gd32_partial {s : CapSys} (h : CapRun .gd32 notWhilePending s) (hq : s.Quiet) :
    ∀ a k t b, s.trace = a ++ .edge k t :: b → CapEv.out (.deliver (inputNo k) t) ∈ b := by
  have hi : (∀ a k t b, s.trace = a ++ .edge k t :: b → CapEv.out (.deliver (inputNo k) t) ∈ b ∨
      ((s.ch k).flag = true ∧ (s.ch k).reg = t) ∨ (s.pc ≠ .idle ∧ s.got k = some t)) ∧
      (s.pc = .test false ∨ s.pc = .read false → s.got false = none) ∧
      (s.pc = .test false ∨ s.pc = .read false ∨ s.pc = .test true ∨ s.pc = .read true → s.got true = none) ∧
      (s.pc = .idle ∨ s.pc = .hand ∨ ∃ k, s.pc = .test k ∨ s.pc = .read k) := by
    clear hq
    induction h with
    | boot => exact ⟨by intro a k t b h; simp [CapSys.boot] at h, by simp [CapSys.boot], by simp [CapSys.boot], .inl rfl⟩
    | @act s a _ hok ih =>
        obtain ⟨he, h1, h2, h3⟩ := ih
        cases a with
        | edge k t =>
            refine ⟨?_, h1, h2, h3⟩
            intro a j u b hs
            rcases edge_before_edge hs with ⟨rfl, rfl⟩ | ⟨b', rfl, hb⟩
            · right; left
              simp [CapSys.act, CapSys.setCh, CapChan.capture]
            · rcases he a j u b' hb with h4 | h4 | h4
              · exact .inl (List.mem_append_left _ h4)
              · have hj : j ≠ k := by
                  rintro rfl
                  have : (s.ch j).flag = false := hok
                  simp_all
                right; left
                simpa [CapSys.act, CapSys.setCh, hj] using h4
              · exact .inr (.inr h4)
        | enter =>
            show (∀ a k t b, (if s.pc = .idle then { s with pc := .test false, got := fun _ => none } else s).trace = _ → _) ∧ _
            unfold CapSys.act
            simp only
            split
            · rename_i hpc
              refine ⟨?_, by simp, by simp, by simp⟩
              intro a j t b hs
              have := he a j t b hs
              simp_all
            · exact ⟨he, h1, h2, h3⟩
        | step =>
            show (∀ a k t b, (s.step .gd32).trace = _ → _) ∧ _
            simp only [CapSys.act]
            unfold CapSys.step
            cases hpc : s.pc with
            | idle => simp only; exact ⟨he, h1, h2, h3⟩
            | test k =>
                simp only
                split <;> refine ⟨?_, ?_, ?_, ?_⟩ <;> (try intro a j t b hs; have := he a j t b hs) <;>
                  cases k <;> simp_all [capAfter]
            | read k =>
                simp only
                refine ⟨?_, ?_, ?_, ?_⟩
                · intro a j t b hs
                  have := he a j t b hs
                  by_cases hj : j = k
                  · subst hj
                    have hg : s.got j = none := by cases j <;> simp_all
                    rcases this with h4 | ⟨h4, h5⟩ | ⟨-, h4⟩
                    · exact .inl h4
                    · exact .inr (.inr (by cases j <;> simp_all [CapSys.setCh, capAfter]))
                    · rw [hg] at h4; cases h4
                  · cases k <;> simp_all [CapSys.setCh, capAfter]
                all_goals cases k <;> simp_all [CapSys.setCh, capAfter]
            | hand =>
                simp only
                refine ⟨?_, by simp, by simp, by simp⟩
                intro a j t b hs
                obtain ⟨b', rfl, hb⟩ := edge_before_outs hs
                rcases he a j t b' hb with h4 | h4 | ⟨-, h4⟩
                · exact .inl (List.mem_append_left _ h4)
                · exact .inr (.inl h4)
                · exact .inl (List.mem_append_right _ (List.mem_map_of_mem (deliver_mem h4)))
            | clear k => simp_all
            | testOver => simp_all
            | clearOver k => simp_all
            | lose => simp_all
  intro a k t b hs
  obtain ⟨hpc, hf⟩ := hq
  have := hi.1 a k t b hs
  have hf := hf k
  simp_all

/-- C63 in full: on both platforms, whatever edges come and whenever the interrupt is taken. -/
def C63_full (p : CapPlatform) : Prop := ∀ s, CapRun p (fun _ _ => True) s → s.Quiet → NoneForgotten s.trace

theorem capRun_run {p : CapPlatform} {s : CapSys} (as : List CapAct) (h : CapRun p (fun _ _ => True) s) :
    CapRun p (fun _ _ => True) (s.run p as) := by
  induction as generalizing s with
  | nil => exact h
  | cons a as ih => exact ih (.act h trivial)

/-- On the gd32 two edges of one input before the interrupt is taken: the first is forgotten, and the decoder is told
nothing. -/
theorem C63_gd32_full_false : ¬ C63_full .gd32 := by
  intro h
  have := h _ (capRun_run [.edge false 100, .edge false 200, .enter, .step, .step, .step, .step] .boot)
    (by unfold CapSys.Quiet; decide +kernel) [] false 100 [.edge false 200, .out (.deliver 0 200)] (by decide +kernel)
  unfold Accounted at this
  revert this
  decide +kernel

/-- On the stm32 an edge that comes between the reading of the capture register (which clears the flag) and the clearing of
the flag is forgotten, and the overcapture flag does not show it. -/
theorem C63_stm32_full_false : ¬ C63_full .stm32 := by
  intro h
  have := h _ (capRun_run [.edge false 100, .enter, .step, .step, .edge false 200, .step, .step, .step, .step] .boot)
    (by unfold CapSys.Quiet; decide +kernel) [.edge false 100] false 200 [.out (.deliver 0 100)] (by decide +kernel)
  unfold Accounted at this
  revert this
  decide +kernel

/-- The hypotheses of the partial theorem for the stm32 are met by a run in which an edge is overrun: the decoder is told. -/
example : ∃ s, CapRun .stm32 notWhileClearing s ∧ s.Quiet ∧
    s.trace = [.edge false 100, .edge false 200, .edge true 250, .out .desync] := by
  refine ⟨CapSys.boot.run .stm32 [.edge false 100, .edge false 200, .enter, .step, .step, .step, .edge true 250, .step, .step,
    .step, .step, .step, .step, .step], ?_, by unfold CapSys.Quiet; decide +kernel, by decide +kernel⟩
  simp only [CapSys.run, List.foldl]
  repeat' first
    | exact CapRun.boot
    | refine CapRun.act ?_ ?_
    | trivial
    | (show _ ≠ _; decide +kernel)

/-- And those for the gd32, with edges coming while the handler runs. -/
example : ∃ s, CapRun .gd32 notWhilePending s ∧ s.Quiet ∧
    s.trace = [.edge false 100, .edge false 200, .out (.deliver 0 100), .out (.deliver 0 200)] := by
  refine ⟨CapSys.boot.run .gd32 [.edge false 100, .enter, .step, .step, .edge false 200, .step, .step, .enter, .step, .step,
    .step, .step], ?_, by unfold CapSys.Quiet; decide +kernel, by decide +kernel⟩
  simp only [CapSys.run, List.foldl]
  repeat' first
    | exact CapRun.boot
    | refine CapRun.act ?_ ?_
    | trivial
    | (show _ = _; decide +kernel)

end Verif
