/-
The concrete CBOR recogniser meets the contract.
-/
import Verif.Spec.Cbor

namespace Verif

theorem cborHead_append {l r : List Byte} (h : cborHead l ≠ .short) : cborHead (l ++ r) = cborHead l := by
  cases l with
  | nil => exact absurd rfl h
  | cons b t =>
    rw [List.cons_append]
    unfold cborHead at h ⊢
    simp only at h ⊢
    split
    · rfl
    · split
      · rename_i h1 h2
        rw [if_neg h1, if_pos h2] at h
        by_cases h3 : t.length < 2 ^ (b.toNat % 32 - 24)
        · rw [if_pos h3] at h; exact absurd rfl h
        · have h4 : ¬ (t ++ r).length < 2 ^ (b.toNat % 32 - 24) := by rw [List.length_append]; omega
          rw [if_neg h3, if_neg h4, List.take_append_of_le_length (by omega)]
      · rfl

theorem Verdict.add_short {k : Nat} {v : Verdict} : v.add k = .short ↔ v = .short := by
  cases v <;> simp [Verdict.add]

theorem cborScan_append (fs : List Frame) (l r : List Byte) (h : cborScan fs l ≠ .short) :
    cborScan fs (l ++ r) = cborScan fs l := by
  fun_induction cborScan fs l with
  | case1 l => rw [cborScan, if_pos rfl]
  | case2 => exact absurd rfl h
  | case3 fs l hf hh =>
    have := @cborHead_append l r (by rw [hh]; exact fun h => nomatch h)
    rw [cborScan, if_neg hf]
    split <;> simp_all
  | case4 fs l hf hd hh hs =>
    have := @cborHead_append l r (by rw [hh]; exact fun h => nomatch h)
    rw [cborScan, if_neg hf]
    split <;> simp_all
  | case5 => exact absurd rfl h
  | case6 fs l hf hd hh fs' n hs hlen ih =>
    have ha := @cborHead_append l r (by rw [hh]; exact fun h => nomatch h)
    rw [hh] at ha
    rw [cborScan, if_neg hf]
    split
    · simp_all
    · simp_all
    · rename_i h' heq
      obtain rfl : hd = h' := by rw [ha] at heq; injection heq
      rw [hs]
      have h4 : ¬ (l ++ r).length < hd.size + n := by rw [List.length_append]; omega
      simp only [if_neg h4]
      rw [List.drop_append_of_le_length (by omega)]
      rw [ih (fun h' => h (Verdict.add_short.2 h'))]

theorem cborScan_within (fs : List Frame) (l : List Byte) (n : Nat) (h : cborScan fs l = .complete n) :
    n ≤ l.length ∧ (fs ≠ [] → 0 < n) := by
  fun_induction cborScan fs l generalizing n with
  | case1 l => cases h; exact ⟨Nat.zero_le _, fun h => absurd rfl h⟩
  | case2 => cases h
  | case3 => cases h
  | case4 => cases h
  | case5 => cases h
  | case6 fs l hf hd hh fs' k hs hlen ih =>
    have hz := cborHead_size hh
    cases hv : cborScan fs' (l.drop (hd.size + k)) with
    | complete m =>
      rw [hv] at h
      obtain rfl : hd.size + k + m = n := by injection h
      have := (ih m hv).1
      rw [List.length_drop] at this
      exact ⟨by omega, fun _ => by omega⟩
    | short => rw [hv] at h; cases h
    | bad => rw [hv] at h; cases h

/-- A complete item is complete by itself. -/
theorem cborScan_alone (fs : List Frame) (l r : List Byte) (h : cborScan fs (l ++ r) = .complete l.length) :
    cborScan fs l = .complete l.length := by
  by_cases hs : cborScan fs l = .short
  · exfalso
    generalize hw : l ++ r = w at h
    fun_induction cborScan fs w generalizing l r with
    | case1 w => rw [cborScan, if_pos rfl] at hs; cases hs
    | case2 => cases h
    | case3 => cases h
    | case4 => cases h
    | case5 => cases h
    | case6 fs w hf hd hh fs' k hst hlen ih =>
      subst hw
      cases hv : cborScan fs' ((l ++ r).drop (hd.size + k)) with
      | short => rw [hv] at h; cases h
      | bad => rw [hv] at h; cases h
      | complete m =>
        rw [hv] at h
        have hm : hd.size + k + m = l.length := by injection h
        have hz := cborHead_size hh
        rw [cborScan, if_neg hf] at hs
        have hl : cborHead l = .head hd := by
          by_cases hsl : cborHead l = .short
          · exfalso
            -- a head that needs more than `l` has
            cases l with
            | nil => simp at hm; omega
            | cons b t =>
              rw [List.cons_append] at hh
              unfold cborHead at hsl hh
              simp only at hsl hh
              split at hsl
              · cases hsl
              · rename_i h1
                split at hsl
                · rename_i h2
                  split at hsl
                  · rename_i h3
                    rw [if_neg h1, if_pos h2] at hh
                    split at hh
                    · cases hh
                    · injection hh with hh
                      subst hh
                      simp only [List.length_cons] at hm
                      generalize 2 ^ (b.toNat % 32 - 24) = p at *
                      omega
                  · cases hsl
                · split at hsl
                  · split at hsl <;> cases hsl
                  · cases hsl
          · rw [← hh]; exact (cborHead_append hsl).symm
        split at hs
        · rename_i heq; rw [hl] at heq; cases heq
        · cases hs
        · rename_i h' heq
          obtain rfl : hd = h' := by rw [hl] at heq; injection heq
          rw [hst] at hs
          have h4 : ¬ l.length < hd.size + k := by omega
          simp only [if_neg h4] at hs
          refine ih (l.drop (hd.size + k)) r (Verdict.add_short.1 hs) ?_ ?_
          · rw [List.drop_append_of_le_length (by omega)]
          · rw [hv, List.length_drop]; congr 1; omega
  · rw [← cborScan_append fs l r hs]; exact h

theorem cbor_isMap_alone (l r : List Byte) (h : cbor.isMap (l ++ r) = true) (hs : cbor.check l ≠ .short) :
    cbor.isMap l = true := by
  have hl : cborHead l ≠ .short := by
    intro hsl
    apply hs
    show cborScan _ l = _
    rw [cborScan, if_neg (by simp)]
    split <;> simp_all
  simp only [cbor] at h ⊢
  rw [cborHead_append hl] at h
  exact h

/-- CBOR well-formedness meets the contract of the receive code. -/
theorem cbor_ok : cbor.Ok where
  stable l r h := cborScan_append _ l r h
  within l n h := ⟨(cborScan_within _ l n h).2 (by simp), (cborScan_within _ l n h).1⟩
  mapStable l r h := by
    have hl : cborHead l ≠ .short := by
      intro hsl
      simp only [cbor, hsl] at h
      cases h
    simp only [cbor] at h ⊢
    rw [cborHead_append hl]; exact h
  alone l r hm h := by
    have h' := cborScan_alone _ l r h
    refine ⟨cbor_isMap_alone l r hm ?_, h'⟩
    show cborScan _ l ≠ _
    rw [h']; exact fun h => nomatch h

/-- A map with a one-byte head is recognised from the first byte on. -/
theorem cbor_early (b : Byte) (t : List Byte) (h : 0xa0 ≤ b.toNat ∧ b.toNat ≤ 0xb7 ∨ b = 0xbf) : EarlyMap cbor (b :: t) := by
  intro p hp hpre
  cases p with
  | nil => exact absurd rfl hp
  | cons c q =>
    obtain ⟨s, hs⟩ := hpre
    injection hs with hc _
    subst hc
    simp only [cbor]
    unfold cborHead
    dsimp only
    rcases h with h | rfl
    · rw [if_pos (by omega)]
      simp only [decide_eq_true_eq]; omega
    · rfl

end Verif
