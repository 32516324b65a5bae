/-
C42: a second cam pulse within two revolutions.
-/
import Verif.Props.Decoder

namespace Verif

variable [FloatFmt]

/-- Crank teeth from `d` on, with the decoder valid after each; the number counts the teeth that begin a revolution. -/
inductive TeethSince (d : Decoder) : ℕ → Decoder → Prop
  | refl : TeethSince d 0 d
  | tooth {c : ℕ} {x : Decoder} {t : Time} {o : DecOut} : TeethSince d c x → decode x 0 t = .ok o → o.d.valid = true →
      TeethSince d (if o.d.triggersSinceLastSync = 0 then c + 1 else c) o.d

omit [FloatFmt] in
/-- A decoder that stays valid: nothing is changed at the end. -/
theorem camFinish_stays {d : Decoder} {ex : Option Time} [FloatFmt] (h : (camFinish true d ex).d.valid = true) :
    (camFinish true d ex).d = d ∧ d.state = .sync ∧ d.valid = true := by
  unfold camFinish at h ⊢
  by_cases hs : d.state = .sync
  · simp only [hs, ne_eq, not_true_eq_false, if_false, Bool.not_true, Bool.false_and, Bool.false_eq_true, Bool.true_and] at h ⊢
    cases hv : d.valid
    · rw [hv] at h
      simp only [Bool.not_false, if_true] at h
      unfold invalidateDecoder at h
      cases h
    · simp
  · simp only [hs, ne_eq, not_false_eq_true, if_true, Bool.true_and, Bool.not_false] at h
    unfold invalidateDecoder at h
    cases h

omit [FloatFmt] in
theorem camFinish_drops {d : Decoder} {ex : Option Time} [FloatFmt] (h : d.valid = false) :
    (camFinish true d ex).d.valid = false ∧ (camFinish true d ex).lost = true := by
  unfold camFinish
  by_cases hs : d.state = .sync
  · simp only [hs, ne_eq, not_true_eq_false, if_false, Bool.not_true, Bool.false_and, Bool.false_eq_true, Bool.true_and, h,
      Bool.not_false, if_true]
    exact ⟨rfl, trivial⟩
  · simp only [hs, ne_eq, not_false_eq_true, if_true, Bool.true_and, Bool.not_false]
    exact ⟨rfl, trivial⟩

theorem pulse_stays {d : Decoder} {t : Time} {o : DecOut} (ht : d.type = .missingCamsync) (hv : d.valid = true)
    (h : decode d 1 t = .ok o) (hv' : o.d.valid = true) : o.d.camThis = true ∧ o.d.type = .missingCamsync ∧ o.d.state = .sync := by
  unfold decode at h
  simp only [ht] at h
  unfold decodeMissingCamsync at h
  simp only [show ¬ ((1 : Int) = 0) by decide, if_false, if_true] at h
  rw [bind_eq_ok] at h; obtain ⟨d1, h1, h⟩ := h
  simp only [except_pure, Except.ok.injEq] at h
  subst h
  rw [hv] at hv' ⊢
  obtain ⟨e1, e2, e3⟩ := camFinish_stays hv'
  rw [e1]
  obtain ⟨tr, r, rfl⟩ := missingRpms_frame h1
  change (camPulse d).state = .sync at e2
  change (camPulse d).valid = true at e3
  show (camPulse d).camThis = true ∧ (camPulse d).type = _ ∧ (camPulse d).state = _
  refine ⟨?_, ?_, e2⟩
  · have hs : d.state = .sync := by
      obtain ⟨v, a, hp, -⟩ := camPulse_frame d
      rw [hp] at e2
      exact e2
    unfold camPulse at e3 ⊢
    rw [if_pos hs] at e3 ⊢
    split_ifs at e3 ⊢
    rfl
  · obtain ⟨v, a, hp, -⟩ := camPulse_frame d
    rw [hp]; exact ht

theorem tooth_stays {d : Decoder} {t : Time} {o : DecOut} (ht : d.type = .missingCamsync) (hv : d.valid = true)
    (h : decode d 0 t = .ok o) (hv' : o.d.valid = true) : o.d.type = .missingCamsync ∧ o.d.state = .sync ∧
      (o.d.triggersSinceLastSync ≠ 0 → o.d.camThis = d.camThis ∧ o.d.camLast = d.camLast) ∧
      (o.d.triggersSinceLastSync = 0 → o.d.camLast = d.camThis) := by
  unfold decode at h
  simp only [ht] at h
  unfold decodeMissingCamsync at h
  simp only [if_true] at h
  rw [bind_eq_ok] at h; obtain ⟨⟨d1, b⟩, h1, h⟩ := h
  simp only at h
  rw [bind_eq_ok] at h; obtain ⟨d2, h2, h⟩ := h
  simp only [except_pure, Except.ok.injEq] at h
  subst h
  rw [hv] at hv' ⊢
  obtain ⟨e1, e2, e3⟩ := camFinish_stays hv'
  rw [e1]
  obtain ⟨tr, r, rfl⟩ := missingRpms_frame h2
  obtain ⟨c, s, cc, k, a, lt, e, l, hx, -⟩ := missingTriggerUpdate_frame h1
  have x1 : d1.camThis = d.camThis := by rw [hx]; rfl
  have x2 : d1.camLast = d.camLast := by rw [hx]; rfl
  have x3 : d1.type = d.type := by rw [hx]; rfl
  clear hx h1 h2
  generalize d1 = x at *
  change (camRotation x).state = .sync at e2
  show (camRotation x).type = _ ∧ (camRotation x).state = _ ∧ ((camRotation x).triggersSinceLastSync ≠ 0 →
    (camRotation x).camThis = _ ∧ (camRotation x).camLast = _) ∧ ((camRotation x).triggersSinceLastSync = 0 →
    (camRotation x).camLast = _)
  have hs : x.state = .sync := by
    obtain ⟨v, a, b, hp, -⟩ := camRotation_frame x
    rw [hp] at e2
    exact e2
  refine ⟨?_, e2, ?_⟩
  · obtain ⟨v, a, b, hp, -⟩ := camRotation_frame x
    rw [hp]; exact x3.trans ht
  · unfold camRotation
    simp only [hs, true_and]
    by_cases hk : x.triggersSinceLastSync = 0
    · rw [if_pos hk]
      refine ⟨fun hne => ?_, fun _ => ?_⟩
      · exfalso; apply hne
        show (if _ then _ else _ : Decoder).triggersSinceLastSync = 0
        split_ifs <;> exact hk
      · show (if _ then _ else _ : Decoder).camThis = _
        split_ifs <;> exact x1
    · rw [if_neg hk]
      exact ⟨fun _ => ⟨x1, x2⟩, fun h => absurd h hk⟩

/-- C42: a cam pulse that a valid decoder accepts, and then, with the decoder valid throughout and at most one revolution
begun in between, another: the decoder reports the position lost, and the outputs are cancelled. -/
theorem C42_second_pulse {d x : Decoder} {t t' : Time} {o o' : DecOut} {c : ℕ} (ht : d.type = .missingCamsync)
    (hv : d.valid = true) (h : decode d 1 t = .ok o) (hv' : o.d.valid = true) (hT : TeethSince o.d c x) (hc : c ≤ 1)
    (h' : decode x 1 t' = .ok o') : o'.d.valid = false ∧ o'.lost = true := by
  obtain ⟨a1, a2, a3⟩ := pulse_stays ht hv h hv'
  have key : x.type = .missingCamsync ∧ x.valid = true ∧ x.state = .sync ∧ (c = 0 → x.camThis = true) ∧
      (c = 1 → x.camLast = true) := by
    clear h'
    induction hT with
    | refl => exact ⟨a2, hv', a3, fun _ => a1, fun h => by cases h⟩
    | @tooth c x t o1 _ hd hvd ih =>
        have hc' : c ≤ 1 := by split_ifs at hc <;> omega
        obtain ⟨b1, b2, -, b4, b5⟩ := ih hc'
        obtain ⟨f1, f2, f3, f4⟩ := tooth_stays b1 b2 hd hvd
        refine ⟨f1, hvd, f2, fun h => ?_, fun h => ?_⟩
        · split_ifs at h with hk
          rw [(f3 hk).1]; exact b4 h
        · split_ifs at h with hk
          · rw [f4 hk]; exact b4 (by omega)
          · rw [(f3 hk).2]; exact b5 h
  obtain ⟨b1, b2, b3, b4, b5⟩ := key
  have hcam : (x.camThis || x.camLast) = true := by
    rw [Bool.or_eq_true]
    rcases Nat.le_one_iff_eq_zero_or_eq_one.mp hc with h | h
    · exact .inl (b4 h)
    · exact .inr (b5 h)
  unfold decode at h'
  simp only [b1] at h'
  unfold decodeMissingCamsync at h'
  simp only [show ¬ ((1 : Int) = 0) by decide, if_false, if_true] at h'
  rw [bind_eq_ok] at h'; obtain ⟨d1, h1, h'⟩ := h'
  simp only [except_pure, Except.ok.injEq] at h'
  subst h'
  rw [b2]
  refine camFinish_drops ?_
  obtain ⟨tr, r, rfl⟩ := missingRpms_frame h1
  show (camPulse x).valid = false
  unfold camPulse
  rw [if_pos b3, if_pos hcam]

/-- The hypotheses are met: valid from the first cam pulse, one accepted two revolutions later, another one revolution after
that. -/
example : ∃ d o x o', d.type = .missingCamsync ∧ d.valid = true ∧ @decode binary32 d 1 530000 = .ok o ∧ o.d.valid = true ∧
    @TeethSince binary32 o.d 1 x ∧ @decode binary32 x 1 690000 = .ok o' := by
  let _ := binary32
  obtain ⟨d, -, h⟩ := okAnd_ok (x := (decoderInit (demoDecoder .missingCamsync)).run
      (teeth [40000, 80000, 120000, 200000] ++ [.trigger 1 210000] ++ teeth [240000, 280000, 360000, 400000, 440000, 520000]))
    (p := fun d => d.valid && (decide (d.type = .missingCamsync) && okAnd (decode d 1 530000) fun o => o.d.valid &&
      okAnd (decode o.d 0 560000) fun a => a.d.valid && (decide (a.d.triggersSinceLastSync ≠ 0) &&
      okAnd (decode a.d 0 600000) fun b => b.d.valid && (decide (b.d.triggersSinceLastSync ≠ 0) &&
      okAnd (decode b.d 0 680000) fun c => c.d.valid && (decide (c.d.triggersSinceLastSync = 0) &&
      okAnd (decode c.d 1 690000) fun _ => true))))) (by decide +kernel)
  rw [Bool.and_eq_true, Bool.and_eq_true] at h
  obtain ⟨o, ho, h1⟩ := okAnd_ok h.2.2
  rw [Bool.and_eq_true] at h1
  obtain ⟨a, ha, h2⟩ := okAnd_ok h1.2
  rw [Bool.and_eq_true, Bool.and_eq_true, decide_eq_true_eq] at h2
  obtain ⟨b, hb, h3⟩ := okAnd_ok h2.2.2
  rw [Bool.and_eq_true, Bool.and_eq_true, decide_eq_true_eq] at h3
  obtain ⟨c, hc, h4⟩ := okAnd_ok h3.2.2
  rw [Bool.and_eq_true, Bool.and_eq_true, decide_eq_true_eq] at h4
  obtain ⟨o', ho', -⟩ := okAnd_ok h4.2.2
  have t1 := TeethSince.tooth .refl ha h2.1
  rw [if_neg h2.2.1] at t1
  have t2 := TeethSince.tooth t1 hb h3.1
  rw [if_neg h3.2.1] at t2
  have t3 := TeethSince.tooth t2 hc h4.1
  rw [if_pos h4.2.1] at t3
  exact ⟨d, o, c.d, o', of_decide_eq_true h.2.1, h.1, ho, h1.1, t3, ho'⟩

end Verif
