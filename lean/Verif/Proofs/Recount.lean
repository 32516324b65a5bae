/-
Decoding does not look at the trigger counters.
-/
import Verif.Props.Engine

namespace Verif

/-- The decoder with other trigger counters. -/
def Decoder.recount (d : Decoder) (a b : BitVec 32) : Decoder := { d with t0Count := a, t1Count := b }

/-- A result with other trigger counters. -/
def DecOut.recount (o : DecOut) (a b : BitVec 32) : DecOut := { o with d := o.d.recount a b }

theorem bind_map {α α' β β' : Type} {x : Except Fault α} {x' : Except Fault α'} {f : α → Except Fault β} {f' : α' → Except Fault β'}
    {r : α → α'} {s : β → β'} (hx : x' = x.map r) (hf : ∀ y, f' (r y) = (f y).map s) : (x' >>= f') = (x >>= f).map s := by
  subst hx
  cases x with
  | error e => rfl
  | ok y => exact hf y

theorem bind_id {α β β' : Type} {x : Except Fault α} {f : α → Except Fault β} {f' : α → Except Fault β'}
    {s : β → β'} (hf : ∀ y, f' y = (f y).map s) : (x >>= f') = (x >>= f).map s := by
  cases x with
  | error e => rfl
  | ok y => exact hf y

set_option linter.unusedSectionVars false

variable [FloatFmt] (a b : BitVec 32)

theorem ite_map {β β' : Type} {c : Prop} [Decidable c] {x y : Except Fault β} {x' y' : Except Fault β'} {s : β → β'}
    (h1 : x' = x.map s) (h2 : y' = y.map s) : (if c then x' else y') = (if c then x else y).map s := by
  split_ifs <;> assumption

theorem evenWindowRpm_recount (d : Decoder) : evenWindowRpm (d.recount a b) = (evenWindowRpm d).map (·.recount a b) := by
  unfold evenWindowRpm
  refine ite_map (bind_id fun tw => bind_id fun t0 => bind_id fun r => ?_) rfl
  exact ite_map rfl rfl

theorem evenChecks_recount (d : Decoder) : evenChecks (d.recount a b) = (evenChecks d).recount a b := by
  unfold evenChecks
  simp only
  rw [show evenExcessive (d.recount a b) = evenExcessive d from rfl]
  cases evenExcessive d
  · simp only [Bool.false_eq_true, if_false]
    split_ifs <;> first | rfl | (exfalso; simp_all [Decoder.recount])
  · simp only [if_true]
    split_ifs <;> first | rfl | (exfalso; simp_all [Decoder.recount])

theorem evenUpdateRpm_recount (d : Decoder) : evenUpdateRpm (d.recount a b) = (evenUpdateRpm d).map (·.recount a b) := by
  unfold evenUpdateRpm
  refine bind_id fun t0 => bind_id fun t1 => bind_id fun tr => ?_
  refine bind_map (evenWindowRpm_recount a b { d with toothRpm := tr }) fun y => ?_
  simp only [evenChecks_recount]
  exact bind_id fun ext => rfl

theorem evenBook_recount (d : Decoder) (t : Time) : evenBook (d.recount a b) t = (evenBook d t).recount a b := by
  unfold evenBook
  simp only
  have e1 : (pushTime (d.recount a b) t).currentTriggersRpm = (pushTime d t).currentTriggersRpm := rfl
  by_cases h : (pushTime d t).currentTriggersRpm.toNat < maxTriggers + 1
  · simp only [if_pos h, e1]
    split_ifs <;> first | rfl | (exfalso; rename_i h1 h2; first | exact h1 h2 | exact h2 h1)
  · simp only [if_neg h, e1]
    split_ifs <;> first | rfl | (exfalso; rename_i h1 h2; first | exact h1 h2 | exact h2 h1)

theorem evenAdvance_recount (d : Decoder) (t : Time) : evenAdvance (d.recount a b) t = (evenAdvance d t).recount a b := by
  unfold evenAdvance
  split_ifs <;> first | rfl | (exfalso; simp_all [Decoder.recount])

theorem evenTriggerUpdate_recount (d : Decoder) (t : Time) :
    evenTriggerUpdate (d.recount a b) t = (evenTriggerUpdate d t).map fun r => (r.1.recount a b, r.2) := by
  unfold evenTriggerUpdate
  simp only [evenBook_recount, evenAdvance_recount]
  exact ite_map (bind_map (evenUpdateRpm_recount a b _) fun y => rfl) rfl

theorem evenSyncUpdate_recount (d : Decoder) : evenSyncUpdate (d.recount a b) = (evenSyncUpdate d).recount a b := by
  unfold evenSyncUpdate
  simp only
  split_ifs <;> first | rfl | (exfalso; simp_all [Decoder.recount])

theorem decodeFinish_recount (s : DecState) (d : Decoder) (ex : Option Time) :
    decodeFinish s (d.recount a b) ex = (decodeFinish s d ex).recount a b := by
  unfold decodeFinish
  split_ifs <;> first | rfl | (exfalso; simp_all [Decoder.recount])

theorem missingExpire_recount (d : Decoder) : missingExpire (d.recount a b) = (missingExpire d).map (·.recount a b) := by
  unfold missingExpire
  exact bind_id fun _ => bind_id fun _ => bind_id fun _ => rfl

theorem missingCount_recount (d : Decoder) (m n : Bool) : missingCount (d.recount a b) m n = (missingCount d m n).recount a b := by
  unfold missingCount
  simp only
  split_ifs <;> first | rfl | (exfalso; simp_all [Decoder.recount])

theorem missingFromRpm_recount (d : Decoder) (m n : Bool) :
    missingFromRpm (d.recount a b) m n = (missingFromRpm d m n).recount a b := by
  unfold missingFromRpm
  split_ifs <;> rfl

theorem missingTriggerUpdate_recount (d : Decoder) (t : Time) :
    missingTriggerUpdate (d.recount a b) t = (missingTriggerUpdate d t).map fun r => (r.1.recount a b, r.2) := by
  unfold missingTriggerUpdate
  simp only
  have key : ∀ x : Decoder, 
      (if (x.recount a b).currentTriggersRpm.toNat < (x.recount a b).requiredTriggersRpm.toNat then
        pure (x.recount a b, false)
      else
        let d := if (x.recount a b).state = .nosync then { x.recount a b with state := .rpm } else x.recount a b
        do
        let ratio ← missingRatio d
        let miss := okMissing ratio d.maxRpmChange
        let norm := okNormal ratio d.maxRpmChange
        let change := if Fl.lt ratio (Fl.fin 1) then Fl.fin 1 - ratio else ratio - Fl.fin 1
        let d := { d with curRpmChange := change }
        if d.state = .rpm then return (missingFromRpm d miss norm, false)
        else
          let d ← missingExpire (missingAngle (missingCount d miss norm) miss t)
          return (d, true) : Except Fault (Decoder × Bool)) =
      (if x.currentTriggersRpm.toNat < x.requiredTriggersRpm.toNat then
        pure (x, false)
      else
        let d := if x.state = .nosync then { x with state := .rpm } else x
        do
        let ratio ← missingRatio d
        let miss := okMissing ratio d.maxRpmChange
        let norm := okNormal ratio d.maxRpmChange
        let change := if Fl.lt ratio (Fl.fin 1) then Fl.fin 1 - ratio else ratio - Fl.fin 1
        let d := { d with curRpmChange := change }
        if d.state = .rpm then return (missingFromRpm d miss norm, false)
        else
          let d ← missingExpire (missingAngle (missingCount d miss norm) miss t)
          return (d, true) : Except Fault (Decoder × Bool)).map fun r => (r.1.recount a b, r.2) := by
    intro x
    refine ite_map rfl ?_
    have hx : (if (x.recount a b).state = .nosync then { x.recount a b with state := .rpm } else x.recount a b) =
        (if x.state = .nosync then { x with state := .rpm } else x).recount a b := by
      split_ifs <;> first | rfl | (exfalso; simp_all [Decoder.recount])
    simp only [hx]
    generalize (if x.state = .nosync then { x with state := .rpm } else x) = y
    refine bind_id fun ratio => ?_
    refine ite_map ?_ ?_
    · exact congrArg (fun z => Except.ok (z, false)) (missingFromRpm_recount a b { y with curRpmChange := _ } _ _)
    · refine bind_map (r := (·.recount a b)) ?_ fun z => rfl
      have h1 := missingCount_recount a b { y with curRpmChange := (if Fl.lt ratio (Fl.fin 1) then Fl.fin 1 - ratio else ratio - Fl.fin 1) }
        (okMissing ratio y.maxRpmChange) (okNormal ratio y.maxRpmChange)
      have h2 : missingAngle (missingCount { y.recount a b with curRpmChange := (if Fl.lt ratio (Fl.fin 1) then Fl.fin 1 - ratio else ratio - Fl.fin 1) }
        (okMissing ratio y.maxRpmChange) (okNormal ratio y.maxRpmChange)) (okMissing ratio y.maxRpmChange) t =
        (missingAngle (missingCount { y with curRpmChange := (if Fl.lt ratio (Fl.fin 1) then Fl.fin 1 - ratio else ratio - Fl.fin 1) }
        (okMissing ratio y.maxRpmChange) (okNormal ratio y.maxRpmChange)) (okMissing ratio y.maxRpmChange) t).recount a b := by
        rw [show missingCount { y.recount a b with curRpmChange := (if Fl.lt ratio (Fl.fin 1) then Fl.fin 1 - ratio else ratio - Fl.fin 1) }
          (okMissing ratio y.maxRpmChange) (okNormal ratio y.maxRpmChange) = _ from h1]
        rfl
      exact (congrArg missingExpire h2).trans (missingExpire_recount a b _)
  have hp : (if (pushTime (d.recount a b) t).currentTriggersRpm.toNat < maxTriggers then
      { pushTime (d.recount a b) t with currentTriggersRpm := (pushTime (d.recount a b) t).currentTriggersRpm + 1 }
      else pushTime (d.recount a b) t) =
    (if (pushTime d t).currentTriggersRpm.toNat < maxTriggers then
      { pushTime d t with currentTriggersRpm := (pushTime d t).currentTriggersRpm + 1 } else pushTime d t).recount a b := by
    split_ifs <;> first | rfl | (exfalso; rename_i h1 h2; first | exact h1 h2 | exact h2 h1)
  rw [hp]
  exact key _

theorem missingRpms_recount (d : Decoder) : missingRpms (d.recount a b) = (missingRpms d).map (·.recount a b) := by
  unfold missingRpms
  refine ite_map ?_ ?_
  · exact bind_id fun tr => bind_id fun r => rfl
  · exact bind_id fun r => rfl

theorem camRotation_recount (d : Decoder) : camRotation (d.recount a b) = (camRotation d).recount a b := by
  unfold camRotation
  simp only
  split_ifs <;> first | rfl | (exfalso; simp_all [Decoder.recount])

theorem camPulse_recount (d : Decoder) : camPulse (d.recount a b) = (camPulse d).recount a b := by
  unfold camPulse
  split_ifs <;> first | rfl | (exfalso; simp_all [Decoder.recount])

theorem camFinish_recount (v : Bool) (d : Decoder) (ex : Option Time) :
    camFinish v (d.recount a b) ex = (camFinish v d ex).recount a b := by
  unfold camFinish
  simp only
  split_ifs <;> first | rfl | (exfalso; simp_all [Decoder.recount])

theorem decode_recount (d : Decoder) (k : Int) (t : Time) :
    decode (d.recount a b) k t = (decode d k t).map (·.recount a b) := by
  unfold decode
  rw [show (d.recount a b).type = d.type from rfl]
  cases d.type
  · unfold decodeEvenNosync
    refine bind_map (evenTriggerUpdate_recount a b d t) fun y => ?_
    exact ite_map rfl (ite_map rfl rfl)
  · unfold decodeEvenCamsync
    refine ite_map (bind_map (evenTriggerUpdate_recount a b d t) fun y => ?_) (ite_map ?_ ?_)
    · exact congrArg Except.ok (decodeFinish_recount a b _ _ _)
    · exact congrArg Except.ok ((congrArg (fun z => decodeFinish d.state z none) (evenSyncUpdate_recount a b d)).trans
        (decodeFinish_recount a b _ _ _))
    · exact congrArg Except.ok (decodeFinish_recount a b _ _ _)
  · unfold decodeMissingNosync
    refine ite_map (bind_map (missingTriggerUpdate_recount a b d t) fun y => ?_) (bind_map (missingRpms_recount a b d) fun y => ?_)
    · refine bind_map (missingRpms_recount a b y.1) fun z => ?_
      exact congrArg Except.ok (decodeFinish_recount a b _ _ _)
    · exact congrArg Except.ok (decodeFinish_recount a b _ _ _)
  · unfold decodeMissingCamsync
    refine ite_map (bind_map (missingTriggerUpdate_recount a b d t) fun y => ?_) ?_
    · refine bind_map ((congrArg missingRpms (camRotation_recount a b y.1)).trans (missingRpms_recount a b _)) fun z => ?_
      exact congrArg Except.ok (camFinish_recount a b _ _ _)
    · have : (if k = 1 then camPulse (d.recount a b) else d.recount a b) = (if k = 1 then camPulse d else d).recount a b := by
        rw [camPulse_recount]; split_ifs <;> rfl
      refine bind_map ((congrArg missingRpms this).trans (missingRpms_recount a b _)) fun z => ?_
      exact congrArg Except.ok (camFinish_recount a b _ _ _)

end Verif
