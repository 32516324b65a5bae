/-
Sending back what the console answered, for any tree of settings.
-/
import Verif.Spec.Restore
import Verif.Proofs.Resize

namespace Verif

theorem sizedAll_eq : ∀ l : List Item, Item.sizedAll l = l.map Item.sized
  | [] => by rw [Item.sizedAll]; rfl
  | x :: l => by rw [Item.sizedAll, sizedAll_eq l]; rfl

theorem smallAll_mem : ∀ {l : List Item}, Item.SmallAll l → ∀ x ∈ l, x.Small
  | [], _ => by simp
  | y :: l, h => by
    rw [Item.SmallAll] at h
    intro x hx
    rcases List.mem_cons.mp hx with rfl | hx
    · exact h.1
    · exact smallAll_mem h.2 x hx

theorem mapFind_sized (t : String) : ∀ l : List Item,
    mapFind t (l.map Item.sized) = (lookupKey t l).map Item.sized
  | [] => rfl
  | [a] => by cases a <;> simp [mapFind, lookupKey, Item.sized]
  | a :: v :: rest => by
    have ih := mapFind_sized t rest
    cases a with
    | text s =>
      simp only [List.map_cons, Item.sized, mapFind, lookupKey]
      split
      · rfl
      · exact ih
    | _ => simpa only [List.map_cons, Item.sized, mapFind, lookupKey] using ih

section
variable {σ : Type}

/-- The lists whose size a set does not change have the same number of entries in `s` as in `s0`. -/
def Takes : Node σ → σ → σ → Prop
  | .arr none count elem, s0, s => count s = count s0 ∧ ∀ i, Takes (elem i) s0 s
  | .deref _ n, s0, s => Takes n s0 s
  | _, _, _ => True

/-- What is needed of a tree for its settings to be sent back.  `J` holds of the memory that was read, `I`
and `K` of the memory that is written. -/
def Back (I J K : σ → Prop) : Node σ → Prop
  | .u32 l => ∀ s0 s, J s0 → K s → K (l.set (l.get s0) s)
  | .flt l => ∀ s0 s, J s0 → K s → K (l.set (l.get s0) s)
  | .bool l => ∀ s0 s, J s0 → K s → K (l.set (l.get s0) s)
  | .enum c l => (∀ s0, J s0 → l.get s0 ∈ c.map Prod.fst) ∧ ∀ s0 s, J s0 → K s → K (l.set (l.get s0) s)
  | .text l => (∀ s0, J s0 → IsTitle (l.get s0)) ∧ ∀ s0 s, J s0 → K s → K (l.set (l.get s0) s)
  | .const _ => True
  | .map ids child post => (∀ i < ids.length, Back I J K (child i)) ∧ ids.Nodup ∧
      (∀ i j, i < j → j < ids.length → ∀ s s', I s → Resizes (child j) s s' →
        dump (child i) s' = dump (child i) s) ∧
      (∀ j < ids.length, ∀ s0 s, J s0 → I s → (∀ i < j, dump (child i) s = dump (child i) s0) →
        Takes (child j) s0 s) ∧
      (∀ s, I s → K s → ∃ s', post s = .ok s' ∧ K s')
  | .arr resize count elem => (∀ i, Back I J K (elem i)) ∧ (∀ i s s', ¬Resizes (elem i) s s') ∧
      (∀ i j s0 s s', I s → Writes (elem j) s s' → Takes (elem i) s0 s → Takes (elem i) s0 s') ∧
      (∀ l, resize = some l → (∀ s k, I s → k ≤ maxAxis → I (l.set k s) ∧ count (l.set k s) = k ∧
          (K s → K (l.set k s))) ∧ (∀ s, I s → count s ≤ maxAxis) ∧ ∀ i s0 s, Takes (elem i) s0 s)
  | .deref null n => Back I J K n ∧ ∀ s, I s → null s = false
  | .oob => True

theorem steps_dump {I : σ → Prop} {n m : Node σ} (hi : Indep I n m)
    (hr : ∀ s s', I s → Resizes n s s' → dump m s' = dump m s) {s s' : σ} (h : Steps I n s s') :
    dump m s' = dump m s :=
  steps_keep (r := dump m) hi hr h

/-- Where every field descends unfiltered to the value that was read. -/
theorem fieldLoop_back {desc : Nat → RSt σ → Option (Bool × Option Item × RSt σ)} {body} {key : Nat → List Item}
    {f : Nat → Except Fault Item} (Q : Nat → σ → Prop) {N : Nat}
    (hd : ∀ i < N, ∀ d, f i = .ok d → ∀ st, desc i st = some (false, some d.sized, { st with out := st.out ++ key i }))
    (hb : ∀ i < N, ∀ d, f i = .ok d → ∀ st, Q i st.s →
      ∃ s', body i false (some d.sized) st = .ok { st with s := s', out := st.out ++ [d] } ∧ Q (i + 1) s') :
    ∀ m k, k + m = N → ∀ l, collect key f (List.range' k m) = .ok l → ∀ st, Q k st.s →
      ∃ s', fieldLoop desc false body (List.range' k m) false st =
        .ok (false, { st with s := s', out := st.out ++ l }) ∧ Q N s'
  | 0, k, hk, l, hl, st, hq => by
    cases hl
    obtain rfl : k = N := by omega
    exact ⟨st.s, by simp [fieldLoop], hq⟩
  | m + 1, k, hk, l, hl, st, hq => by
    rw [List.range'_succ] at hl ⊢
    simp only [collect] at hl
    cases hf : f k with
    | error e => rw [hf] at hl; cases hl
    | ok d =>
      rw [hf] at hl
      dsimp only at hl
      cases hc : collect key f (List.range' (k + 1) m) with
      | error e => rw [hc] at hl; cases hl
      | ok l' =>
        rw [hc] at hl
        cases hl
        obtain ⟨s', h1, h2⟩ := hb k (by omega) d hf { st with out := st.out ++ key k } hq
        obtain ⟨s'', h3, h4⟩ := fieldLoop_back Q hd hb m (k + 1) (by omega) l' hc
          { s := s', path := st.path, out := st.out ++ key k ++ [d] } h2
        refine ⟨s'', ?_, h4⟩
        rw [fieldLoop]
        simp only [Bool.false_eq_true, if_false]
        rw [hd k (by omega) d hf st]
        dsimp only
        rw [h1]
        dsimp only
        rw [h3]
        simp

theorem enumOut_in {c : List (Int × String)} (h : (c.map Prod.fst).Nodup) {m : Int × String} (hm : m ∈ c) :
    enumOut c m.1 = [.text m.2] := by
  have : c.filter (fun x => decide (x.1 = m.1)) = [m] := by
    induction c with
    | nil => cases hm
    | cons a as ih =>
      rw [List.map_cons, List.nodup_cons] at h
      rw [List.filter_cons]
      rcases List.mem_cons.mp hm with rfl | hm'
      · have : as.filter (fun x => decide (x.1 = m.1)) = [] := by
          rw [List.filter_eq_nil_iff]
          intro x hx hxm
          exact h.1 (List.mem_map.mpr ⟨x, hx, by simpa using hxm⟩)
        simp [this]
      · have : ¬a.1 = m.1 := fun he => h.1 (List.mem_map.mpr ⟨m, hm', he.symm⟩)
        simp only [this, decide_false, Bool.false_eq_true, if_false]
        exact ih h.2 hm'
  unfold enumOut
  rw [this]
  rfl

theorem enumSet_in {c : List (Int × String)} (h : (c.map Prod.snd).Nodup) {m : Int × String} (hm : m ∈ c)
    (x : Int) : enumSet c (some (.text m.2)) x = m.1 := by
  unfold enumSet
  dsimp only
  induction c generalizing x with
  | nil => cases hm
  | cons a as ih =>
    rw [List.map_cons, List.nodup_cons] at h
    rw [List.foldl_cons]
    rcases List.mem_cons.mp hm with rfl | hm'
    · have : ∀ y, as.foldl (fun c m' => if m.2 = m'.2 then m'.1 else c) y = y := by
        have h1 := h.1
        clear ih hm h
        induction as with
        | nil => intro y; rfl
        | cons b bs ih =>
          intro y
          simp only [List.map_cons, List.mem_cons, not_or] at h1
          rw [List.foldl_cons, if_neg h1.1]
          exact ih h1.2 y
      rw [this, if_pos rfl]
    · exact ih h.2 hm' _

theorem takeWhile_all {α : Type} {p : α → Bool} {l : List α} (h : ∀ x ∈ l, p x = true) : l.takeWhile p = l := by
  induction l with
  | nil => rfl
  | cons a as ih => rw [List.takeWhile_cons, h a (by simp)]; simp [ih fun x hx => h x (by simp [hx])]

variable [FloatFmt]

omit [FloatFmt] in
theorem titleOf_title {t : String} (h : IsTitle t) : titleOf (some (.text t)) = some t := by
  unfold titleOf
  dsimp only
  rw [if_pos h.1]
  unfold cString
  rw [takeWhile_all, String.ofList_toList]
  intro x hx
  simp only [decide_eq_true_eq]
  rintro rfl
  exact h.2 hx

omit [FloatFmt] in
theorem u32Of_small {v : BitVec 32} (h : (Item.int (v.toNat : Int)).Small) : u32Of (some (Item.int (v.toNat : Int))) = some v := by
  have h1 : getIntChecked (v.toNat : Int) = some (v.toNat : Int) := by
    unfold getIntChecked
    rw [Item.Small] at h
    exact if_pos ⟨by omega, by omega⟩
  show (getIntChecked (v.toNat : Int)).map (BitVec.ofInt 32) = some v
  rw [h1, Option.map_some, BitVec.ofInt_natCast, BitVec.ofNat_toNat, BitVec.setWidth_eq]

theorem render_u32 {I : σ → Prop} (l : Lens σ (BitVec 32)) (st : RSt σ) (v : BitVec 32) (f : Bool) (hh : ∀ s, I s → l.get (l.set v s) = v)
    (hi : I st.s) (x : Item) (h1 : u32Of (some x) = some v) :
    render (.u32 l) true f (some x) st =
      .ok { st with s := l.set v st.s, out := st.out ++ [Item.int (v.toNat : Int)] } := by
  rw [render]
  simp only [if_true, h1, setOpt, hh _ hi]

/-- The whole of a node is sent back. -/
theorem render_back {I J K : σ → Prop} (n : Node σ) (hw : WF I n) (hb : Back I J K n) {s0 : σ} (hj : J s0) (hi0 : I s0)
    {d : Item} (hd : dump n s0 = .ok d) (hs : d.Small) (st : RSt σ) (hi : I st.s) (hk : K st.s)
    (hf : Takes n s0 st.s) :
    ∃ s', render n true false (some d.sized) st = .ok { st with s := s', out := st.out ++ [d] } ∧
      I s' ∧ K s' ∧ dump n s' = .ok d ∧ Steps I n st.s s' := by
  induction n generalizing d st with
  | u32 l =>
    rw [dump] at hd
    cases hd
    refine ⟨l.set (l.get s0) st.s, ?_, (hw _ _ hi).2, hb _ _ hj hk, by rw [dump, (hw _ _ hi).1],
      .single ⟨hi, .inl (.u32 l _ _)⟩⟩
    exact render_u32 l st _ _ (fun s hs => (hw s _ hs).1) hi _ (u32Of_small hs)
  | flt l =>
    rw [dump] at hd
    cases hd
    refine ⟨l.set (l.get s0) st.s, ?_, (hw _ _ hi).2, hb _ _ hj hk, by rw [dump, (hw _ _ hi).1],
      .single ⟨hi, .inl (.flt l _ _)⟩⟩
    rw [render]
    simp only [Item.sized, if_true, floatOf, setOpt, (hw _ _ hi).1]
  | bool l =>
    rw [dump] at hd
    cases hd
    refine ⟨l.set (l.get s0) st.s, ?_, (hw _ _ hi).2, hb _ _ hj hk, by rw [dump, (hw _ _ hi).1],
      .single ⟨hi, .inl (.bool l _ _)⟩⟩
    rw [render]
    simp only [Item.sized, if_true, boolOf, setOpt, (hw _ _ hi).1]
  | text l =>
    rw [dump] at hd
    cases hd
    refine ⟨l.set (l.get s0) st.s, ?_, (hw _ _ hi).2, hb.2 _ _ hj hk, by rw [dump, (hw _ _ hi).1],
      .single ⟨hi, .inl (.text l _ _)⟩⟩
    rw [render]
    simp only [Item.sized, if_true, titleOf_title (hb.1 s0 hj), setOpt, (hw _ _ hi).1]
  | enum c l =>
    rw [dump] at hd
    cases hd
    obtain ⟨hw1, hw2, hw3, hw4, hw5⟩ := hw
    obtain ⟨m, hm, hml⟩ := List.mem_map.mp (hb.1 s0 hj)
    have h1 : enumOut c (l.get s0) = [.text m.2] := by rw [← hml]; exact enumOut_in hw4 hm
    refine ⟨l.set (l.get s0) st.s, ?_, hw1 _ _ hi, hb.2 _ _ hj hk, ?_, .single ⟨hi, .inl (.enum c l _ _)⟩⟩
    · rw [h1, render]
      simp only [Item.sized, List.headD_cons, if_true, enumSet_in hw5 hm]
      rw [hml, h1]
    · rw [dump, ← hml, hw3 _ _ hi hm, hml]
  | const t =>
    rw [dump] at hd
    cases hd
    exact ⟨st.s, rfl, hi, hk, rfl, .refl⟩
  | map ids child post ih =>
    obtain ⟨hw1, hw2, hw3⟩ := hw
    obtain ⟨hb1, hb2, hb3, hb4, hb5⟩ := hb
    rw [dump] at hd
    cases hc : collect (fun i => [.text (ids.getD i "")]) (fun i => dump (child i) s0)
      (List.range ids.length) with
    | error e => rw [hc] at hd; cases hd
    | ok l =>
      rw [hc] at hd
      cases hd
      have hval : ∀ i < ids.length, ∀ x, dump (child i) s0 = .ok x → lookupKey (ids.getD i "") l = some x := by
        intro i hil x hx
        have h := collect_lookup (t := ids.getD i "") hc
        cases hfd : (List.range ids.length).find? (fun j => decide (ids.getD j "" = ids.getD i "")) with
        | none =>
          rw [List.find?_eq_none] at hfd
          have := hfd i (List.mem_range.mpr hil)
          simp at this
        | some j =>
          rw [hfd] at h
          obtain ⟨y, h1, h2⟩ := h
          have hjl := List.mem_range.mp (List.mem_of_find?_eq_some hfd)
          have hji := List.find?_some hfd
          simp only [List.getD_eq_getElem?_getD, List.getElem?_eq_getElem hil, List.getElem?_eq_getElem hjl,
            Option.getD_some, decide_eq_true_eq] at hji
          obtain rfl : j = i := (List.Nodup.getElem_inj_iff hb2).mp hji
          rw [hx] at h1
          cases h1
          exact h2
      have hsm : ∀ i < ids.length, ∀ x, dump (child i) s0 = .ok x → x.Small := by
        intro i hil x hx
        have h1 := hval i hil x hx
        rw [Item.Small] at hs
        have : ∀ (l : List Item), lookupKey (ids.getD i "") l = some x → x ∈ l := by
          intro l
          induction l using List.twoStepInduction with
          | nil => intro h; cases h
          | singleton a => intro h; cases a <;> cases h
          | cons_cons a v rest ih1 _ =>
            intro h
            cases a with
            | text t =>
              simp only [lookupKey] at h
              split at h
              · cases h; simp
              · have := ih1 h; simp [this]
            | _ =>
              have := ih1 h; simp [this]
        exact smallAll_mem hs x (this l h1)
      have hloop := fieldLoop_back (desc := fun i => descendMap true false (some (Item.map l).sized) (ids.getD i ""))
        (body := fun i f v st' => render (child i) true f v st') (key := fun i => [.text (ids.getD i "")])
        (f := fun i => dump (child i) s0)
        (fun k s => I s ∧ K s ∧ (∀ i < k, dump (child i) s = dump (child i) s0) ∧
          Steps I (.map ids child post) st.s s) (N := ids.length)
        (fun i hil x hx st' => by
          simp only [descendMap, mapValue, Item.sized, sizedAll_eq, mapFind_sized, hval i hil x hx]
          simp [descend])
        (fun i hil x hx st' hq => by
          obtain ⟨q1, q2, q3, q4⟩ := hq
          obtain ⟨s', h1, h2, h3, h4, h5⟩ := ih i (hw1 i hil) (hb1 i hil) hx (hsm i hil x hx) st' q1 q2
            (hb4 i hil s0 st'.s hj q1 q3)
          refine ⟨s', h1, h2, h3, fun j hj => ?_, q4.trans
            (steps_mono (fun _ _ h => .map i hil h) (fun _ _ h => .map i hil h) h5)⟩
          rcases Nat.lt_succ_iff_lt_or_eq.mp hj with hji | rfl
          · rw [steps_dump (hw2 i hil j (by omega) (by omega)) (hb3 j i hji hil) h5, q3 j hji]
          · rw [h4, hx])
        ids.length 0 (by omega) l (by rw [← List.range_eq_range']; exact hc) { st with out := [] }
        ⟨hi, hk, fun i hi => absurd hi (by omega), .refl⟩
      obtain ⟨s1, h1, h2, h3, h4, h5⟩ := hloop
      obtain ⟨s2, h6, h7⟩ := hb5 s1 h2 h3
      obtain ⟨h8, h9⟩ := hw3 s1 s2 h2 h6
      refine ⟨s2, ?_, h8, h7, ?_, h5.tail ⟨h2, .inl (.post h6)⟩⟩
      · rw [render]
        simp only [openOut, Bool.false_eq_true, if_false]
        rw [List.range_eq_range', h1]
        simp only [if_true, h6, wrap, addNull, Bool.false_and, Bool.false_eq_true, if_false, List.nil_append]
      · rw [dump, collect_congr (g := fun i => dump (child i) s0), hc]
        intro i him
        have hil := List.mem_range.mp him
        rw [h9 i hil, h4 i hil]
  | arr resize count elem ih =>
    obtain ⟨hw1, hw2, hw3, hw4⟩ := hw
    obtain ⟨hb1, hb2, hb3, hb4⟩ := hb
    rw [dump] at hd
    cases hc : collect (fun _ => []) (fun i => dump (elem i) s0) (List.range (count s0)) with
    | error e => rw [hc] at hd; cases hd
    | ok l =>
      rw [hc] at hd
      cases hd
      obtain ⟨hlen, hget⟩ := collect_get hc
      -- the size
      obtain ⟨s1, hs1, hc1, hi1, hk1, hst1, hfit⟩ : ∃ s1, resizeTo true (some (Item.arr false l).sized) resize st.s = s1 ∧
          count s1 = count s0 ∧ I s1 ∧ K s1 ∧ Steps I (.arr resize count elem) st.s s1 ∧
          ∀ i, Takes (elem i) s0 s1 := by
        cases resize with
        | none =>
          refine ⟨st.s, rfl, hf.1, hi, hk, .refl, hf.2⟩
        | some ln =>
          obtain ⟨h1, h2, h3⟩ := hb4 ln rfl
          have h4 : resizeTo true (some (Item.arr false l).sized) (some ln) st.s = ln.set (count s0) st.s := by
            have h5 := h2 s0 hi0
            have h6 : maxAxis = 24 := rfl
            simp only [resizeTo, Item.sized, sizedAll_eq, List.length_map, if_true, hlen]
            rw [Nat.min_eq_left (by omega)]
          obtain ⟨h5, h6, h7⟩ := h1 st.s (count s0) hi (h2 s0 hi0)
          exact ⟨_, h4, h6, h5, h7 hk, .single ⟨hi, .inr (.here ln count elem st.s _ (h2 s0 hi0))⟩,
            fun i => h3 i s0 _⟩
      have hsm : ∀ i < count s0, ∀ x, dump (elem i) s0 = .ok x → x.Small := by
        intro i hil x hx
        obtain ⟨y, h1, h2⟩ := hget i hil
        rw [hx] at h1
        cases h1
        rw [Item.Small] at hs
        exact smallAll_mem hs x (List.mem_of_getElem? h2)
      have hloop := fieldLoop_back (desc := descendArr true false (some (Item.arr false l).sized))
        (body := fun i f v st' => render (elem i) true f v st') (key := fun _ => [])
        (f := fun i => dump (elem i) s0)
        (fun k s => I s ∧ K s ∧ count s = count s0 ∧ (∀ i, Takes (elem i) s0 s) ∧
          (∀ i < k, dump (elem i) s = dump (elem i) s0) ∧
          Steps I (.arr resize count elem) st.s s) (N := count s0)
        (fun i hil x hx st' => by
          obtain ⟨y, h1, h2⟩ := hget i hil
          rw [hx] at h1
          cases h1
          simp only [descendArr, arrValue, Item.sized, sizedAll_eq, List.length_map, List.getElem?_map, h2]
          rw [if_pos (by rfl), if_pos (by omega)]
          simp [descend])
        (fun i hil x hx st' hq => by
          obtain ⟨q1, q2, q3, q4, q5, q6⟩ := hq
          obtain ⟨s', h1, h2, h3, h4, h5⟩ := ih i (hw1 i) (hb1 i) hx (hsm i hil x hx) st' q1 q2 (q4 i)
          refine ⟨s', h1, h2, h3, ?_, ?_, fun j hj => ?_, q6.trans
            (steps_mono (fun _ _ h => .arr i h) (fun _ _ h => .arr i h) h5)⟩
          · rw [← q3]
            exact steps_keep (fun s s' hs hwr => hw4 s s' i hs hwr) (fun s s' _ h => (hb2 i s s' h).elim) h5
          · intro j
            have : ∀ {a b}, Steps I (elem i) a b → Takes (elem j) s0 a → Takes (elem j) s0 b := by
              intro a b hab
              induction hab with
              | refl => exact id
              | tail _ hs ih2 =>
                intro hfa
                rcases hs.2 with hwr | hr
                · exact hb3 j i s0 _ _ hs.1 hwr (ih2 hfa)
                · exact (hb2 i _ _ hr).elim
            exact this h5 (q4 j)
          · rcases Nat.lt_succ_iff_lt_or_eq.mp hj with hji | rfl
            · rw [steps_dump (hw2 i j (by omega)) (fun s s' _ h => (hb2 i s s' h).elim) h5, q5 j hji]
            · rw [h4, hx])
        (count s0) 0 (by omega) l (by rw [← List.range_eq_range']; exact hc) { st with s := s1, out := [] }
        ⟨hi1, hk1, hc1, hfit, fun i hi => absurd hi (by omega), hst1⟩
      obtain ⟨s2, h1, h2, h3, h4, h5, h6, h7⟩ := hloop
      refine ⟨s2, ?_, h2, h3, ?_, h7⟩
      · rw [render]
        simp only [openOut, Bool.false_eq_true, if_false, hs1, hc1]
        rw [List.range_eq_range', h1]
        simp only [wrap, addNull, Bool.false_and, Bool.false_eq_true, if_false, List.nil_append]
      · rw [dump, h4, collect_congr (g := fun i => dump (elem i) s0), hc]
        intro i him
        exact h6 i (List.mem_range.mp him)
  | deref null n ih =>
    rw [dump] at hd
    split at hd
    · cases hd
    · obtain ⟨s', h1, h2, h3, h4, h5⟩ := ih hw.1 hb.1 hd hs st hi hk hf
      refine ⟨s', ?_, h2, h3, ?_, steps_mono (fun _ _ h => .deref h) (fun _ _ h => .deref h) h5⟩
      · rw [render, hb.2 _ hi]
        exact h1
      · rw [dump, hb.2 _ h2]
        exact h4
  | oob => cases hd

/-- The path leads to a part that can be sent back alone: not into a list whose size may be set, and not to a
list whose size a set elsewhere determines. -/
def Leads : Node σ → List Item → Prop
  | .map ids child _, p =>
    match p with
    | [] => True
    | k :: r => ∀ i < ids.length, k = .text (ids.getD i "") → Leads (child i) r
  | .arr none count elem, p =>
    match p with
    | [] => ∀ s0 s, Takes (.arr none count elem) s0 s
    | _ :: r => (∀ s s', count s = count s') ∧ ∀ i, Leads (elem i) r
  | .arr (some _) _ _, p => p = []
  | .deref _ n, p => Leads n p
  | _, _ => True

omit [FloatFmt] in
theorem Leads.fits {n : Node σ} (h : Leads n []) (s0 s : σ) : Takes n s0 s := by
  induction n with
  | arr r c e => cases r with
    | none => exact h s0 s
    | some l => trivial
  | deref null n ih => exact ih h
  | _ => trivial

/-- The part of a node at a path is sent back. -/
theorem render_back_at {I J K : σ → Prop} (n : Node σ) (hw : WF I n) (hb : Back I J K n)
    {s0 : σ} (hj : J s0) (hi0 : I s0) {p : List Item} (hl : Leads n p) {d x : Item} (hd : dump n s0 = .ok d)
    (hx : d.follow p = some x) (hs : x.Small) (st : RSt σ) (hpath : st.path = p) (hi : I st.s) (hk : K st.s) :
    ∃ s', render n true (!p.isEmpty) (some x.sized) st = .ok { s := s', path := [], out := st.out ++ [x] } ∧
      I s' ∧ K s' ∧ Steps I n st.s s' ∧ ∀ d', dump n s' = .ok d' → d'.follow p = some x := by
  induction n generalizing p d st with
  | map ids child post ih =>
    cases p with
    | nil =>
      cases hx
      obtain ⟨s', h1, h2, h3, h4, h5⟩ := render_back _ hw hb hj hi0 hd hs st hi hk trivial
      refine ⟨s', ?_, h2, h3, h5, fun d' hd' => ?_⟩
      · rw [hpath] at h1; exact h1
      · rw [h4] at hd'; cases hd'; rfl
    | cons k r =>
      have hfl := fieldLoop_filtered (fun i => descendMap true true (some x.sized) (ids.getD i ""))
        (fun i f v st' => render (child i) true f v st') (List.range ids.length) st
        (fun i => pathMatchStr (k :: r) (ids.getD i ""))
        (!r.isEmpty, some x.sized, { st with path := r })
        (fun i => by simp [descendMap, descend, mapValue, hpath])
      cases hf : (List.range ids.length).find? (fun i => pathMatchStr (k :: r) (ids.getD i "")) with
      | none =>
        have h := follow_dump _ hw s0 hi0 (k :: r) d hd
        rw [Node.at, hf] at h
        dsimp only at h
        rw [hx] at h
        cases h
      | some i =>
        have hkt : ∃ t, k = .text t := by
          rw [find_hit] at hf
          cases k with
          | text t => exact ⟨t, rfl⟩
          | _ => cases hf
        obtain ⟨t, rfl⟩ := hkt
        obtain ⟨hil, hit⟩ := find_string hf
        obtain ⟨y, hy1, hy2⟩ := step_map hd hf
        rw [Item.follow, hy2] at hx
        obtain ⟨s', h1, h2, h3, h4, h5⟩ := ih i (hw.1 i hil) (hb.1 i hil)
          (hl i hil (by rw [hit])) hy1 hx { st with path := r }
          rfl hi hk
        obtain ⟨s2, h6, h7⟩ := hb.2.2.2.2 s' h2 h3
        obtain ⟨h8, h9⟩ := hw.2.2 s' s2 h2 h6
        refine ⟨s2, ?_, h8, h7, ?_, fun d' hd' => ?_⟩
        · rw [render]
          simp only [openOut, List.isEmpty_cons, Bool.not_false, if_true]
          rw [hfl, hf]
          dsimp only
          rw [h1]
          simp [h6, wrap, addNull]
        · exact (steps_mono (fun _ _ h => .map i hil h) (fun _ _ h => .map i hil h) h4).tail ⟨h2, .inl (.post h6)⟩
        · obtain ⟨z, hz1, hz2⟩ := step_map hd' hf
          rw [Item.follow, hz2]
          rw [h9 i hil] at hz1
          exact h5 z hz1
  | deref null n ih =>
    rw [dump] at hd
    split at hd
    · cases hd
    · obtain ⟨s', h1, h2, h3, h4, h5⟩ := ih hw.1 hb.1 hl hd hx st hpath hi hk
      refine ⟨s', ?_, h2, h3, steps_mono (fun _ _ h => .deref h) (fun _ _ h => .deref h) h4, fun d' hd' => ?_⟩
      · rw [render, hb.2 _ hi]
        exact h1
      · rw [dump, hb.2 _ h2] at hd'
        exact h5 d' hd'
  | arr resize count elem ih =>
    cases p with
    | nil =>
      cases hx
      obtain ⟨s', h1, h2, h3, h4, h5⟩ := render_back _ hw hb hj hi0 hd hs st hi hk (Leads.fits hl _ _)
      refine ⟨s', ?_, h2, h3, h5, fun d' hd' => ?_⟩
      · rw [hpath] at h1; exact h1
      · rw [h4] at hd'; cases hd'; rfl
    | cons k r =>
      cases resize with
      | some l => cases hl
      | none =>
        have hfl := fieldLoop_filtered (fun i => descendArr true true (some x.sized) i)
          (fun i f v st' => render (elem i) true f v st') (List.range (count st.s)) st
          (fun i => pathMatchInt (k :: r) i)
          (!r.isEmpty, some x.sized, { st with path := r })
          (fun i => by simp [descendArr, descend, arrValue, hpath])
        obtain ⟨hl1, hl2⟩ := hl
        have hn := hw.2.2.1 s0 hi0
        cases hf : (List.range (count s0)).find? (fun i => pathMatchInt (k :: r) i) with
        | none =>
          have h := follow_dump _ hw s0 hi0 (k :: r) d hd
          rw [Node.at, hf] at h
          dsimp only at h
          rw [hx] at h
          cases h
        | some i =>
          obtain ⟨y, hy1, hy2⟩ := step_arr hn hd hf
          rw [Item.follow, hy2] at hx
          obtain ⟨s', h1, h2, h3, h4, h5⟩ := ih i (hw.1 i) (hb.1 i) (hl2 i) hy1 hx { st with path := r }
            rfl hi hk
          refine ⟨s', ?_, h2, h3, ?_, fun d' hd' => ?_⟩
          · rw [render]
            simp only [openOut, resizeTo, List.isEmpty_cons, Bool.not_false, if_true]
            rw [hfl, hl1 st.s s0, hf]
            dsimp only
            rw [h1]
            simp [wrap, addNull]
          · exact steps_mono (fun _ _ h => .arr i h) (fun _ _ h => .arr i h) h4
          · obtain ⟨z, hz1, hz2⟩ := step_arr (by rw [hl1 s' s0]; exact hn) hd' (by rw [hl1 s' s0]; exact hf)
            rw [Item.follow, hz2]
            exact h5 z hz1
  | _ =>
    cases p with
    | nil =>
      cases hx
      obtain ⟨s', h1, h2, h3, h4, h5⟩ := render_back _ hw hb hj hi0 hd hs st hi hk (Leads.fits hl _ _)
      refine ⟨s', ?_, h2, h3, h5, fun d' hd' => ?_⟩
      · rw [hpath] at h1; exact h1
      · rw [h4] at hd'; cases hd'; rfl
    | cons k r =>
      have h := follow_dump _ hw s0 hi0 (k :: r) d hd
      first
      | (rw [hx] at h
         cases h; done)
      | cases hd

end

end Verif
