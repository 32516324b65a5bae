/-
C85: a request does what its method says and nothing else.
-/
import Verif.Props.AnyRequest

namespace Verif

/-- Reading writes nothing. -/
theorem render_reads {σ : Type} [FloatFmt] {I : σ → Prop} (n : Node σ) (hw : WF I n) (f : Bool) (v : Option Item)
    (st : RSt σ) : Out (fun st' => st'.s = st.s) (fun _ => True) (render n false f v st) := by
  induction n generalizing f v st with
  | u32 l => rw [render]; rfl
  | flt l => rw [render]; rfl
  | bool l => rw [render]; rfl
  | text l => rw [render]; rfl
  | enum c l => rw [render]; exact hw.2.1 _
  | const t => rfl
  | map ids child post ih =>
    rw [render]
    have hloop := fieldLoop_inv (desc := fun i => descendMap false f v (ids.getD i "")) (f := f)
      (body := fun i f v st' => render (child i) false f v st')
      (fun s => s = st.s) (fun _ => True) (fun i st x h => descend_s h)
      (List.range ids.length) (fun i him f' v' st' hp => by
        have := ih i (hw.1 i (List.mem_range.mp him)) f' v' st'
        revert this
        cases render (child i) false f' v' st' with
        | error e => exact id
        | ok st'' => exact fun h => Eq.trans h hp)
      false (openOut f st) (by rw [openOut_s])
    revert hloop
    cases fieldLoop (fun i => descendMap false f v (ids.getD i "")) f (fun i f v st' => render (child i) false f v st')
      (List.range ids.length) false (openOut f st) with
    | error e => exact id
    | ok x =>
      intro hl
      simp only [Bool.false_eq_true, if_false, Out, wrap_s, addNull_s]
      exact hl
  | arr resize count elem ih =>
    rw [render]
    have h0 : resizeTo false v resize st.s = st.s := by
      unfold resizeTo
      split <;> rfl
    rw [h0]
    have hloop := fieldLoop_inv (desc := descendArr false f v) (f := f)
      (body := fun i f v st' => render (elem i) false f v st')
      (fun s => s = st.s) (fun _ => True) (fun i st x h => descend_s h)
      (List.range (count (openOut f { st with s := st.s }).s)) (fun i him f' v' st' hp => by
        have := ih i (hw.1 i) f' v' st'
        revert this
        cases render (elem i) false f' v' st' with
        | error e => exact id
        | ok st'' => exact fun h => Eq.trans h hp)
      false (openOut f { st with s := st.s }) (by rw [openOut_s])
    revert hloop
    cases fieldLoop (descendArr false f v) f (fun i f v st' => render (elem i) false f v st')
      (List.range (count (openOut f { st with s := st.s }).s)) false (openOut f { st with s := st.s }) with
    | error e => exact id
    | ok x =>
      intro hl
      simp only [Out, wrap_s, addNull_s]
      exact hl
  | deref null n ih =>
    rw [render]
    split
    · trivial
    · exact ih hw.1 f v st
  | oob => trivial

section
variable [FloatFmt] [LibM] (rate : BitVec 32) (version : String) (struct : List Item)

/-- The request's method. -/
def IsMethod (req : List Item) (m : String) : Prop := lookupKey "method" req = some (.text m)

/-- C85, what requests do: whatever the request contains, the configuration is saved only and always by the
method `flash`, the bootloader is entered only and always by `bootloader`, and the configuration in memory is
changed only by `set`. -/
theorem C85_effects {c c' : Console} {req l : List Item} {e : Effect}
    (h : processRequest rate version struct req c = .ok (c', l, e)) :
    (e = .flash ↔ IsMethod req "flash") ∧ (e = .bootloader ↔ IsMethod req "bootloader") ∧
      (c' ≠ c → IsMethod req "set") := by
  unfold processRequest at h
  unfold IsMethod
  rw [mapFind_eq] at h
  cases hm : lookupKey "method" req with
  | none => rw [hm] at h; cases h; simp
  | some m =>
    rw [hm] at h
    dsimp only at h
    have hi : ∀ s, itemIs m s = true ↔ m = .text s := by
      intro s
      cases m <;> simp [itemIs]
    split at h
    · rename_i h1; rw [hi] at h1; cases h; simp [h1]
    split at h
    · rename_i h1; rw [hi] at h1; cases h; simp [h1]
    split at h
    · rename_i h1; rw [hi] at h1; cases h; simp [h1]
    split at h
    · rename_i h1; rw [hi] at h1; cases h; simp [h1]
    rename_i h1 h2 h3 h4
    rw [hi] at h3 h4
    cases hp : pathRequest rate version req m c with
    | error e => rw [hp] at h; cases h
    | ok x =>
      rw [hp] at h
      cases h
      refine ⟨by simp [h3], by simp [h4], fun hne => ?_⟩
      unfold pathRequest at hp
      split at hp
      · split at hp
        · split at hp
          · cases hp
          · rename_i path _ _ _ c2 r hr
            cases hp
            unfold request at hr
            have := render_reads _ (wf_console rate version) (!path.isEmpty) none { s := c, path := path, out := [] }
            split at hr
            · cases hr
            · rename_i st hst
              cases hr
              rw [hst] at this
              exact absurd this hne
        · split at hp
          · cases hp; exact absurd rfl hne
          · split at hp
            · rename_i hs; rw [(hi _).mp hs]
            · cases hp; exact absurd rfl hne
      · cases hp; exact absurd rfl hne

/-- C85, the requests without a path are carried out in any state and say so. -/
theorem C85_carried_out (c : Console) {req : List Item} :
    (IsMethod req "ping" → ∃ l, processRequest rate version struct req c = .ok (c, l, .none) ∧
      lookupKey "response" l = some (.text "pong") ∧ lookupKey "success" l = some (.bool true)) ∧
    (IsMethod req "flash" → ∃ l, processRequest rate version struct req c = .ok (c, l, .flash) ∧
      lookupKey "success" l = some (.bool true)) ∧
    (IsMethod req "bootloader" → ∃ l, processRequest rate version struct req c = .ok (c, l, .bootloader) ∧
      lookupKey "success" l = some (.bool true)) := by
  refine ⟨fun h => ?_, fun h => ?_, fun h => ?_⟩ <;>
  · unfold IsMethod at h
    unfold processRequest
    rw [mapFind_eq, h]
    simp only [itemIs]
    simp [lookupKey, reportSuccess]

/-- The hypotheses are met: a save, and a set that changes the offset of the shipped configuration. -/
example : IsMethod [.text "method", .text "flash"] "flash" ∧
    ∃ c' l e, processRequest rate version struct (setReq [.text "decoder", .text "rpm-limit-stop"] (.int 5000))
      dfltConsole = .ok (c', l, e) ∧ c' ≠ dfltConsole := by
  refine ⟨rfl, _, _, _, process_set rate version struct (isSet_setReq _ _) dfltConsole, fun h => ?_⟩
  have := congrArg (fun c => c.cfg.rpmStop) h
  exact absurd this (by decide : ¬(5000 : BitVec 32) = 6700)

end

end Verif
