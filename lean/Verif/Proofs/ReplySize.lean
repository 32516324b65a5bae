/-
How long the answer to a get or a set can be.
-/
import Verif.Proofs.Wire
import Verif.Proofs.Request

namespace Verif

section
variable [FloatFmt] {σ : Type}

/-- Rendering `n` keeps `I` and writes one item of at most `k` bytes. -/
def Small (isSet : Bool) (I : σ → Prop) (n : Node σ) (k : Nat) : Prop :=
  ∀ filtered value st st', I st.s → render n isSet filtered value st = .ok st' →
    I st'.s ∧ ∃ x, st'.out = st.out ++ [x] ∧ x.size ≤ k

theorem Small.mono {b : Bool} {I : σ → Prop} {n : Node σ} {k k' : Nat} (h : Small b I n k) (hk : k ≤ k') :
    Small b I n k' := fun f v st st' hi hr =>
  have ⟨h1, x, h2, h3⟩ := h f v st st' hi hr
  ⟨h1, x, h2, h3.trans hk⟩

/-- Writing the member `l` keeps `I`. -/
def Lens.Free {α : Type} (I : σ → Prop) (l : Lens σ α) : Prop := ∀ v s, I s → I (l.set v s)

omit [FloatFmt] in
theorem free_setOpt {α : Type} {I : σ → Prop} {l : Lens σ α} (h : l.Free I) (b : Bool) (v : Option α) (s : σ)
    (hs : I s) : I (if b = true then setOpt l v s else s) := by
  split
  · cases v with
    | none => exact hs
    | some v => exact h v s hs
  · exact hs

omit [FloatFmt] in
theorem headSize_le {n : Nat} (h : n < 2 ^ 32) : headSize n ≤ 5 := by
  unfold headSize
  repeat' split
  all_goals omega

theorem small_u32 {b : Bool} {I : σ → Prop} {l : Lens σ (BitVec 32)} (h : l.Free I) : Small b I (.u32 l) 5 := by
  intro f v st st' hi hr
  cases hr
  refine ⟨free_setOpt h b _ _ hi, _, rfl, ?_⟩
  simp only [Item.size, Int.natCast_nonneg, if_true, Int.toNat_natCast]
  exact headSize_le (BitVec.isLt _)

theorem small_flt {b : Bool} {I : σ → Prop} {l : Lens σ Fl} (h : l.Free I) : Small b I (.flt l) 5 := by
  intro f v st st' hi hr
  cases hr
  exact ⟨free_setOpt h b _ _ hi, _, rfl, le_refl _⟩

theorem small_bool {b : Bool} {I : σ → Prop} {l : Lens σ Bool} (h : l.Free I) : Small b I (.bool l) 1 := by
  intro f v st st' hi hr
  cases hr
  exact ⟨free_setOpt h b _ _ hi, _, rfl, le_refl _⟩

theorem small_const {b : Bool} {I : σ → Prop} {t : String} : Small b I (.const t) (Item.text t).size := by
  intro f v st st' hi hr
  cases hr
  exact ⟨hi, _, rfl, le_refl _⟩

omit [FloatFmt] in
/-- Bytes of a text of at most `n` bytes. -/
theorem text_size {t : String} {n : Nat} (h : t.utf8ByteSize ≤ n) : (Item.text t).size ≤ headSize n + n := by
  have : headSize t.utf8ByteSize ≤ headSize n := by
    unfold headSize
    repeat' split
    all_goals omega
  simp only [Item.size]
  omega

omit [FloatFmt] in
theorem cString_size (s : String) : (cString s).utf8ByteSize ≤ s.utf8ByteSize := by
  have h1 : s.toList = s.toList.takeWhile (· ≠ '\x00') ++ s.toList.dropWhile (· ≠ '\x00') :=
    (List.takeWhile_append_dropWhile).symm
  have h2 : s = cString s ++ String.ofList (s.toList.dropWhile (· ≠ '\x00')) := by
    unfold cString
    rw [← String.ofList_append, ← h1, String.ofList_toList]
  rw [congrArg String.utf8ByteSize h2, String.utf8ByteSize_append]
  omega

theorem small_text {b : Bool} {I : σ → Prop} {l : Lens σ String} (hg : ∀ s, I s → (l.get s).utf8ByteSize ≤ maxTitle)
    (hs : ∀ v s, v.utf8ByteSize ≤ maxTitle → I s → I (l.set v s)) : Small b I (.text l) 26 := by
  intro f v st st' hi hr
  have h1 : I (if b = true then setOpt l (titleOf v) st.s else st.s) := by
    split
    · cases ht : titleOf v with
      | none => exact hi
      | some t =>
        refine hs t _ ?_ hi
        unfold titleOf at ht
        split at ht
        · split at ht
          · rename_i s hs'
            cases ht
            exact (cString_size s).trans hs'
          · cases ht
        · cases ht
    · exact hi
  cases hr
  exact ⟨h1, _, rfl, text_size (hg _ h1)⟩

theorem small_enum {b : Bool} {I : σ → Prop} {cs : List (Int × String)} {l : Lens σ Int} {k : Nat} (h : l.Free I)
    (hn : (cs.map Prod.fst).Nodup) (hk : ∀ m ∈ cs, (Item.text m.2).size ≤ k) (h1 : 1 ≤ k) :
    Small b I (.enum cs l) k := by
  intro f v st st' hi hr
  cases hr
  refine ⟨h _ _ hi, _, by rw [← enumOut_nodup hn], ?_⟩
  generalize (if b = true then enumSet cs v (l.get st.s) else l.get st.s) = c
  unfold enumOut
  dsimp only
  split
  · exact h1
  · rename_i hne
    cases hm : cs.filter (fun m => decide (m.1 = c)) with
    | nil => simp [hm] at hne
    | cons m ms =>
      simp only [List.map_cons, List.headD_cons]
      refine hk m ?_
      have : m ∈ cs.filter (fun m => decide (m.1 = c)) := by rw [hm]; exact List.mem_cons_self
      exact (List.mem_filter.mp this).1

theorem small_deref {b : Bool} {I : σ → Prop} {null : σ → Bool} {n : Node σ} {k : Nat} (h : Small b I n k) :
    Small b I (.deref null n) k := by
  intro f v st st' hi hr
  rw [render] at hr
  split at hr
  · cases hr
  · exact h f v st st' hi hr

theorem small_oob {b : Bool} {I : σ → Prop} {k : Nat} : Small b I (.oob) k := by
  intro f v st st' hi hr
  cases hr

omit [FloatFmt] in
/-- A request with a path renders the one field that matches. -/
theorem loop_filtered {desc : Nat → RSt σ → Option (Bool × Option Item × RSt σ)}
    {body : Nat → Bool → Option Item → RSt σ → Except Fault (RSt σ)} :
    ∀ is st c st', fieldLoop desc true body is false st = .ok (c, st') →
      (c = false ∧ st' = st) ∨
      (c = true ∧ ∃ i ∈ is, ∃ f v st1, desc i st = some (f, v, st1) ∧ body i f v st1 = .ok st')
  | [], st, c, st', h => by cases h; exact .inl ⟨rfl, rfl⟩
  | i :: is, st, c, st', h => by
    rw [fieldLoop, if_neg (by decide)] at h
    cases hi : desc i st with
    | none =>
      rw [hi] at h
      rcases loop_filtered is st c st' h with h1 | ⟨h1, j, hj, h2⟩
      · exact .inl h1
      · exact .inr ⟨h1, j, List.mem_cons_of_mem i hj, h2⟩
    | some t =>
      obtain ⟨f, v, st1⟩ := t
      rw [hi] at h
      dsimp only at h
      cases hbi : body i f v st1 with
      | error e => rw [hbi] at h; cases h
      | ok st2 =>
        rw [hbi] at h
        have hskip : ∀ js, fieldLoop desc true body js true st2 = .ok (true, st2) := by
          intro js
          induction js with
          | nil => rfl
          | cons j js ih => rw [fieldLoop, if_pos rfl, ih]
        dsimp only at h
        rw [hskip] at h
        cases h
        exact .inr ⟨rfl, i, List.mem_cons_self, f, v, st1, hi, hbi⟩

omit [FloatFmt] in
/-- A request without a path renders all fields. -/
theorem loop_unfiltered {I : σ → Prop} {desc : Nat → RSt σ → Option (Bool × Option Item × RSt σ)}
    {body : Nat → Bool → Option Item → RSt σ → Except Fault (RSt σ)} {key : Nat → List Item} {k : Nat → Nat}
    (hd : ∀ i st f v st1, desc i st = some (f, v, st1) → st1.s = st.s ∧ st1.out = st.out ++ key i) :
    ∀ is st c st', (∀ i ∈ is, ∀ f v a a', I a.s → body i f v a = .ok a' →
        I a'.s ∧ ∃ x, a'.out = a.out ++ [x] ∧ x.size ≤ k i) →
      I st.s → fieldLoop desc false body is false st = .ok (c, st') →
      I st'.s ∧ Item.sizes st'.out ≤ Item.sizes st.out + (is.map fun i => Item.sizes (key i) + k i).sum
  | [], st, c, st', _, hi, h => by cases h; exact ⟨hi, by simp⟩
  | i :: is, st, c, st', hb, hi, h => by
    have hb' := fun j hj => hb j (List.mem_cons_of_mem i hj)
    rw [fieldLoop, if_neg (by decide)] at h
    cases hdi : desc i st with
    | none =>
      rw [hdi] at h
      obtain ⟨h1, h2⟩ := loop_unfiltered hd is st c st' hb' hi h
      refine ⟨h1, ?_⟩
      simp only [List.map_cons, List.sum_cons]
      omega
    | some t =>
      obtain ⟨f, v, st1⟩ := t
      rw [hdi] at h
      dsimp only at h
      obtain ⟨hs1, ho1⟩ := hd _ _ _ _ _ hdi
      cases hbi : body i f v st1 with
      | error e => rw [hbi] at h; cases h
      | ok st2 =>
        rw [hbi] at h
        obtain ⟨h3, x, hx, hxk⟩ := hb i List.mem_cons_self f v st1 st2 (by rw [hs1]; exact hi) hbi
        obtain ⟨h1, h2⟩ := loop_unfiltered hd is st2 c st' hb' h3 h
        refine ⟨h1, ?_⟩
        rw [hx, ho1, sizes_append, sizes_append] at h2
        simp only [Item.sizes] at h2
        simp only [List.map_cons, List.sum_cons]
        omega

omit [FloatFmt] in
theorem descend_open {hit : Bool} {w : Option (Option Item)} {key : List Item} {st st' : RSt σ} {f : Bool}
    {v : Option Item} (h : descend hit false w key st = some (f, v, st')) :
    st'.s = st.s ∧ st'.out = st.out ++ key := by
  unfold descend at h
  cases w with
  | none => cases h
  | some w =>
    simp only [Bool.false_eq_true, if_false, Option.some.injEq, Prod.mk.injEq] at h
    obtain ⟨-, -, rfl⟩ := h
    exact ⟨rfl, rfl⟩

omit [FloatFmt] in
theorem descend_hit {hit : Bool} {w : Option (Option Item)} {key : List Item} {st st' : RSt σ} {f : Bool}
    {v : Option Item} (h : descend hit true w key st = some (f, v, st')) :
    hit = true ∧ st' = { st with path := st.path.tail } ∧ f = !st.path.tail.isEmpty := by
  unfold descend at h
  cases w with
  | none => cases h
  | some w =>
    cases hit
    · simp at h
    · simp only [if_true, Option.some.injEq, Prod.mk.injEq] at h
      obtain ⟨rfl, -, rfl⟩ := h
      exact ⟨rfl, rfl, rfl⟩

/-- A map addressed by a path answers with the field the path names, or with null. -/
theorem map_filtered {b : Bool} {ids : List String} {child : Nat → Node σ} {post} {v : Option Item}
    {st st' : RSt σ} (h : render (.map ids child post) b true v st = .ok st') :
    (st'.out = st.out ++ [.null] ∧ (st'.s = st.s ∨ post st.s = .ok st'.s)) ∨
      ∃ i < ids.length, pathMatchStr st.path (ids.getD i "") = true ∧ ∃ w st1,
        render (child i) b (!st.path.tail.isEmpty) w { st with path := st.path.tail } = .ok st1 ∧
        st'.out = st1.out ∧ (st'.s = st1.s ∨ post st1.s = .ok st'.s) := by
  rw [render] at h
  split at h
  · cases h
  · rename_i completed st1 hl
    split at h
    · cases h
    · rename_i s2 hs2
      cases h
      have hpost : ∀ a : RSt σ, st1 = a → s2 = a.s ∨ post a.s = .ok s2 := by
        rintro a rfl
        split at hs2
        · exact .inr hs2
        · cases hs2; exact .inl rfl
      rcases loop_filtered _ _ _ _ hl with ⟨h1, h2⟩ | ⟨h1, i, hi, f, w, st2, h3, h4⟩
      · subst h1
        left
        refine ⟨by simp [wrap, addNull, h2, openOut], ?_⟩
        exact hpost st h2
      · subst h1
        right
        obtain ⟨h5, h6, h7⟩ := descend_hit h3
        subst h6 h7
        exact ⟨i, List.mem_range.mp hi, h5, w, st1, h4, by simp [wrap, addNull], hpost st1 rfl⟩

/-- What the fields of a map take. -/
def fieldsSize (ids : List String) (k : Nat → Nat) : Nat :=
  2 + ((List.range ids.length).map fun i => (Item.text (ids.getD i "")).size + k i).sum

omit [FloatFmt] in
theorem le_sum_map {α : Type} {f : α → Nat} {l : List α} {a : α} (h : a ∈ l) : f a ≤ (l.map f).sum := by
  induction l with
  | nil => cases h
  | cons b l ih =>
    simp only [List.map_cons, List.sum_cons]
    rcases List.mem_cons.mp h with rfl | h
    · omega
    · have := ih h; omega

theorem small_map {b : Bool} {I : σ → Prop} {ids : List String} {child : Nat → Node σ} {post} {k : Nat → Nat}
    (hc : ∀ i < ids.length, Small b I (child i) (k i)) (hp : ∀ s s', I s → post s = .ok s' → I s') :
    Small b I (.map ids child post) (fieldsSize ids k) := by
  intro f v st st' hi hr
  cases f with
  | true =>
    rcases map_filtered hr with ⟨h1, h2⟩ | ⟨i, hil, -, w, st1, h3, h4, h5⟩
    · refine ⟨?_, .null, h1, by simp [Item.size, fieldsSize]; omega⟩
      rcases h2 with h2 | h2
      · rw [h2]; exact hi
      · exact hp _ _ hi h2
    · obtain ⟨h6, x, h7, h8⟩ := hc i hil _ _ { st with path := st.path.tail } _ hi h3
      refine ⟨?_, x, by rw [h4, h7], ?_⟩
      · rcases h5 with h5 | h5
        · rw [h5]; exact h6
        · exact hp _ _ h6 h5
      · have := le_sum_map (f := fun i => (Item.text (ids.getD i "")).size + k i) (List.mem_range.mpr hil)
        simp only [fieldsSize]
        omega
  | false =>
    rw [render] at hr
    split at hr
    · cases hr
    · rename_i completed st1 hl
      split at hr
      · cases hr
      · rename_i s2 hs2
        cases hr
        obtain ⟨h1, h2⟩ := loop_unfiltered (I := I) (key := fun i => [.text (ids.getD i "")]) (k := k)
          (fun i a f v a1 hd => descend_open hd) _ _ _ _
          (fun i him f v a a' ha hb => hc i (List.mem_range.mp him) f v a a' ha hb)
          (by exact hi) hl
        refine ⟨?_, _, rfl, ?_⟩
        · show I s2
          split at hs2
          · exact hp _ _ h1 hs2
          · cases hs2; exact h1
        · simp only [Item.sizes, openOut, Bool.false_eq_true, if_false, Nat.add_zero, Nat.zero_add] at h2
          simp only [addNull, Bool.false_and, Bool.false_eq_true, if_false]
          rw [Item.size]
          unfold fieldsSize
          omega

theorem small_arr {b : Bool} {I : σ → Prop} {resize : Option (Lens σ Nat)} {count : σ → Nat} {elem : Nat → Node σ}
    {m k : Nat} (hr : ∀ l, resize = some l → b = true → ∀ j s, j ≤ 24 → I s → I (l.set j s))
    (hcount : ∀ s, I s → count s ≤ m) (hc : ∀ i < m, Small b I (elem i) k) :
    Small b I (.arr resize count elem) (2 + m * k) := by
  intro f v st st' hi hrun
  rw [render] at hrun
  have hi0 : I (resizeTo b v resize st.s) := by
    unfold resizeTo
    split
    · rename_i l items
      split
      · rename_i hb
        exact hr _ rfl hb _ _ (Nat.min_le_right _ _) hi
      · exact hi
    · exact hi
  generalize hs0 : resizeTo b v resize st.s = s0 at hrun hi0
  split at hrun
  · cases hrun
  · rename_i completed st1 hl
    cases hrun
    have hcnt : ∀ f, count (openOut f ({ st with s := s0 } : RSt σ)).s ≤ m := by
      intro f; cases f <;> exact hcount _ hi0
    cases f with
    | true =>
      rcases loop_filtered _ _ _ _ hl with ⟨h1, h2⟩ | ⟨h1, i, him, f, w, st2, h3, h4⟩
      · subst h1 h2
        exact ⟨hi0, .null, by simp [wrap, addNull, openOut], by simp [Item.size]; omega⟩
      · subst h1
        obtain ⟨h5, h6, h7⟩ := descend_hit h3
        have him' := Nat.lt_of_lt_of_le (List.mem_range.mp him) (hcnt true)
        obtain ⟨h8, x, h9, h10⟩ := hc i him' _ _ _ _ (by rw [h6]; exact hi0) h4
        refine ⟨by simpa [wrap, addNull] using h8, x, ?_, ?_⟩
        · simp [wrap, addNull, h9, h6, openOut]
        · have : 1 * k ≤ m * k := Nat.mul_le_mul_right k (by omega)
          omega
    | false =>
      obtain ⟨h1, h2⟩ := loop_unfiltered (I := I) (key := fun _ => []) (k := fun _ => k)
        (fun i a f v a1 hd => descend_open hd) _ _ _ _
        (fun i him f v a a' ha hb => hc i (Nat.lt_of_lt_of_le (List.mem_range.mp him) (hcnt false)) f v a a' ha hb)
        (by exact hi0) hl
      refine ⟨by simpa [wrap, addNull] using h1, _, rfl, ?_⟩
      simp only [Item.sizes, openOut, Bool.false_eq_true, if_false, List.map_const', List.sum_replicate_nat,
        List.length_range, Nat.zero_add] at h2
      simp only [addNull, Bool.false_and, Bool.false_eq_true, if_false, Item.size]
      have h3 := Nat.mul_le_mul_right k (hcount _ hi0)
      omega

end
end Verif
