/-
Model of src/decoder.c (decode functions) and src/decoder.h.

The decode functions change the decoder structure, may ask for the expiry callback
(`set_expire_event`) and may cancel the scheduled outputs (`invalidate_decoder`).  The model
returns the new structure and these two effects; src/decoder.c:411-434 composes them
(Verif.Model.Engine).
-/
import Verif.Base.Arr
import Verif.Model.Util

namespace Verif

/-- MAX_TRIGGERS, src/decoder.h:5. -/
abbrev maxTriggers : Nat := 36

/-- src/decoder.h:7-28 -/
inductive DecType
  | evenNosync
  | evenCamsync
  | missingNosync
  | missingCamsync
  deriving DecidableEq

/-- src/decoder.h:30-34 -/
inductive DecState
  | nosync
  | rpm
  | sync
  deriving DecidableEq

/-- src/decoder.h:36-43 -/
inductive DecLoss
  | noLoss
  | variation
  | triggercountHigh
  | triggercountLow
  | expired
  | overflow
  deriving DecidableEq

/-- src/decoder.h:45-76 `struct decoder`.  `valid` is only ever 0 or 1.  `camThis` and `camLast` are
the function statics `camsync_seen_this_rotation` and `camsync_seen_last_rotation` of
src/decoder.c:327-328. -/
structure Decoder where
  valid : Bool
  rpm : BitVec 32
  toothRpm : BitVec 32
  lastTriggerTime : Time
  lastTriggerAngle : Fl
  expiration : Time
  type : DecType
  offset : Fl
  maxRpmChange : Fl
  curRpmChange : Fl
  minRpm : BitVec 32
  requiredTriggersRpm : BitVec 32
  numTriggers : BitVec 32
  degreesPerTrigger : Fl
  rpmWindowSize : BitVec 32
  t0Count : BitVec 32
  t1Count : BitVec 32
  loss : DecLoss
  state : DecState
  currentTriggersRpm : BitVec 32
  triggersSinceLastSync : BitVec 32
  times : Fin (maxTriggers + 1) → Time
  camThis : Bool
  camLast : Bool

/-- What a decode step does. -/
structure DecOut where
  d : Decoder
  /-- `set_expire_event` was called with this time -/
  expire : Option Time
  /-- `invalidate_decoder` was called, so that scheduled events are cancelled -/
  lost : Bool

/-- src/decoder.c:13-19 `invalidate_decoder`, without the cancelling of events. -/
def invalidateDecoder (d : Decoder) : Decoder :=
  { d with valid := false, state := .nosync, currentTriggersRpm := 0, triggersSinceLastSync := 0 }

/-- src/decoder.c:21-24 `handle_decoder_expire`, the expiry callback. -/
def handleDecoderExpire (d : Decoder) : Decoder := invalidateDecoder { d with loss := .expired }

/-- src/decoder.c:30-33 `decoder_desync`. -/
def decoderDesync (d : Decoder) (reason : DecLoss) : Decoder := invalidateDecoder { d with loss := reason }

/-- src/decoder.c:35-41 `push_time`: shift the array up by one and put `t` in front. -/
def pushTime (d : Decoder) (t : Time) : Decoder :=
  { d with times := fun i => if h : (i : Nat) = 0 then t else d.times ⟨i - 1, by omega⟩ }

/-- src/decoder.c:43-55 `even_tooth_rpm_window_size`. -/
def evenWindow (current normal : BitVec 32) : BitVec 32 :=
  if current.toNat < normal.toNat then current else normal

/-- `d->times[i]` with an unsigned index. -/
def timeAt (d : Decoder) (i : BitVec 32) : Except Fault Time := rd d.times (i.toNat : Nat)

section
variable [FloatFmt]
open FloatFmt

/-- src/decoder.c:65-77: the windowed rpm and the rpm change. -/
def evenWindowRpm (d : Decoder) : Except Fault Decoder := do
  let w := evenWindow d.currentTriggersRpm d.rpmWindowSize
  if 1 < w.toNat then
    let tw ← timeAt d w
    let t0 ← timeAt d 0
    let rpm ← rpmFromTimeDiff (t0 - tw) (d.degreesPerTrigger * Fl.ofU32 w)
    if rpm ≠ 0 then
      let delta := if d.toothRpm.toNat < rpm.toNat then rpm - d.toothRpm else d.toothRpm - rpm
      return { d with rpm := rpm, curRpmChange := Fl.ofU32 delta / Fl.ofU32 rpm }
    else return { d with rpm := rpm }
  else return { d with rpm := 0 }

/-- src/decoder.c:80-82: is the per-tooth variation excessive? -/
def evenExcessive (d : Decoder) : Bool :=
  decide (d.toothRpm.toNat ≤ d.minRpm.toNat) ||
  Fl.lt (Fl.ofU32 d.rpm + Fl.ofU32 d.rpm * d.maxRpmChange) (Fl.ofU32 d.toothRpm) ||
  Fl.lt (Fl.ofU32 d.toothRpm) (Fl.ofU32 d.rpm - Fl.ofU32 d.rpm * d.maxRpmChange)

/-- src/decoder.c:79-91: the two sync checks. -/
def evenChecks (d : Decoder) : Decoder :=
  let d := if evenExcessive d then { d with state := .nosync, loss := .variation } else d
  if d.numTriggers.toNat < d.triggersSinceLastSync.toNat then
    { d with state := .nosync, loss := .triggercountHigh }
  else d

/-- src/decoder.c:58-96 `even_tooth_trigger_update_rpm`.  The requested expiry time is the new
`expiration`. -/
def evenUpdateRpm (d : Decoder) : Except Fault Decoder := do
  let t0 ← timeAt d 0
  let t1 ← timeAt d 1
  let diff := t0 - t1
  let toothRpm ← rpmFromTimeDiff diff d.degreesPerTrigger
  let d ← evenWindowRpm { d with toothRpm := toothRpm }
  let d := evenChecks d
  let ext ← Fl.toU32 (Fl.ofU32 diff * Fl.fin (3 / 2))
  return { d with expiration := t0 + ext }

/-- src/decoder.c:114-120: in sync, advance the angle. -/
def evenAdvance (d : Decoder) (t : Time) : Decoder :=
  if d.state = .sync then
    let a := d.lastTriggerAngle + d.degreesPerTrigger
    let a := if Fl.le (Fl.fin 720) a then a - Fl.fin 720 else a
    { d with lastTriggerAngle := a, lastTriggerTime := t }
  else d

/-- src/decoder.c:99-112: bookkeeping before the angle and rpm updates. -/
def evenBook (d : Decoder) (t : Time) : Decoder :=
  let d := pushTime d t
  let d := { d with triggersSinceLastSync := d.triggersSinceLastSync + 1 }
  let d := if d.currentTriggersRpm.toNat < maxTriggers + 1 then
      { d with currentTriggersRpm := d.currentTriggersRpm + 1 } else d
  if d.state = .nosync ∧ d.requiredTriggersRpm.toNat ≤ d.currentTriggersRpm.toNat then
    { d with state := .rpm } else d

/-- src/decoder.c:98-125 `even_tooth_trigger_update`; the flag says whether the expiry callback was
requested (at the new `expiration`). -/
def evenTriggerUpdate (d : Decoder) (t : Time) : Except Fault (Decoder × Bool) := do
  let d := evenAdvance (evenBook d t) t
  if d.state = .rpm ∨ d.state = .sync then
    let d ← evenUpdateRpm d
    return (d, true)
  else return (d, false)

/-- src/decoder.c:127-143 `even_tooth_sync_update`. -/
def evenSyncUpdate (d : Decoder) : Decoder :=
  let d :=
    if d.state = .rpm then { d with state := .sync, loss := .noLoss, lastTriggerAngle := Fl.fin 0 }
    else if d.state = .sync then
      if d.triggersSinceLastSync = d.numTriggers then
        { d with state := .sync, loss := .noLoss, lastTriggerAngle := Fl.fin 0 }
      else { d with state := .nosync, loss := .triggercountLow }
    else d
  { d with triggersSinceLastSync := 0 }

/-- src/decoder.c:155-163 (and 313-321): the end of a decode: valid in sync, invalidate when sync
was lost. -/
def decodeFinish (old : DecState) (d : Decoder) (expire : Option Time) : DecOut :=
  if d.state = .sync then { d := { d with valid := true, loss := .noLoss }, expire := expire, lost := false }
  else if old = .sync then { d := invalidateDecoder d, expire := expire, lost := true }
  else { d := d, expire := expire, lost := false }

/-- `expiration` if the callback was requested. -/
def expireReq (d : Decoder) (b : Bool) : Option Time := if b then some d.expiration else none

/-- src/decoder.c:145-164 `decode_even_with_camsync`. -/
def decodeEvenCamsync (d : Decoder) (trigger : Int) (t : Time) : Except Fault DecOut := do
  let old := d.state
  if trigger = 0 then
    let (d, b) ← evenTriggerUpdate d t
    return decodeFinish old d (expireReq d b)
  else if trigger = 1 then return decodeFinish old (evenSyncUpdate d) none
  else return decodeFinish old d none

/-- src/decoder.c:166-182 `decode_even_no_sync`.  The trigger number is not looked at. -/
def decodeEvenNosync (d : Decoder) (t : Time) : Except Fault DecOut := do
  let old := d.state
  let (d, b) ← evenTriggerUpdate d t
  let ex := expireReq d b
  if d.state = .rpm ∨ d.state = .sync then
    return { d := { d with state := .sync, loss := .noLoss, valid := true, lastTriggerTime := t,
                           triggersSinceLastSync := 0 }, expire := ex, lost := false }
  else if old = .sync then return { d := invalidateDecoder d, expire := ex, lost := true }
  else return { d := d, expire := ex, lost := false }

/-- src/decoder.c:184-190 `missing_tooth_rpm`. -/
def missingToothRpm (d : Decoder) : Except Fault (BitVec 32) := do
  let lastMissing := d.state = .sync ∧ d.triggersSinceLastSync = 0
  let t0 ← timeAt d 0
  let t1 ← timeAt d 1
  rpmFromTimeDiff (t0 - t1) (d.degreesPerTrigger * (if lastMissing then Fl.fin 2 else Fl.fin 1))

/-- src/decoder.c:209-235: the ratio of the last tooth time to the average of the window before
it. -/
def missingRatio (d : Decoder) : Except Fault Fl := do
  let t0 ← timeAt d 0
  let t1 ← timeAt d 1
  let tw ← timeAt d d.requiredTriggersRpm
  let count := d.requiredTriggersRpm - 1
  let count := if d.state = .sync ∧ d.triggersSinceLastSync.toNat < count.toNat then count + 1 else count
  if count = 0 then .error .divZero
  else return Fl.ofU32 (t0 - t1) / Fl.ofU32 ((t1 - tw).udiv count)

/-- src/decoder.c:237-238 `is_acceptable_missing_tooth`. -/
def okMissing (ratio var : Fl) : Bool :=
  Fl.le (Fl.fin 2 - var) ratio && Fl.le ratio (Fl.fin 2 + var)

/-- src/decoder.c:239-240 `is_acceptable_normal_tooth`. -/
def okNormal (ratio var : Fl) : Bool :=
  Fl.le (Fl.fin 1 - var) ratio && Fl.le ratio (Fl.fin 1 + var)

/-- src/decoder.c:246-254: the step from RPM. -/
def missingFromRpm (d : Decoder) (miss norm : Bool) : Decoder :=
  if miss then { d with state := .sync, triggersSinceLastSync := 0, lastTriggerAngle := Fl.fin 0 }
  else if !norm then { d with state := .nosync, loss := .variation }
  else d

/-- src/decoder.c:256-268: the tooth count in sync. -/
def missingCount (d : Decoder) (miss norm : Bool) : Decoder :=
  let d := { d with triggersSinceLastSync := d.triggersSinceLastSync + 1 }
  if d.triggersSinceLastSync = d.numTriggers - 1 then
    if miss then { d with triggersSinceLastSync := 0 }
    else { d with state := .nosync, loss := .triggercountHigh }
  else if !norm then { d with state := .nosync, loss := .triggercountLow }
  else d

/-- src/decoder.c:269-275: the angle in sync. -/
def missingAngle (d : Decoder) (miss : Bool) (t : Time) : Decoder :=
  let a := d.lastTriggerAngle + d.degreesPerTrigger * (if miss then Fl.fin 2 else Fl.fin 1)
  let a := if Fl.le (Fl.fin 720) a then a - Fl.fin 720 else a
  { d with lastTriggerTime := t, lastTriggerAngle := a }

/-- src/decoder.c:276-283: the next expiry. -/
def missingExpire (d : Decoder) : Except Fault Decoder := do
  let gap := d.degreesPerTrigger *
    (if d.triggersSinceLastSync = d.numTriggers - 2 then Fl.fin 2 else Fl.fin 1)
  let expected ← timeFromRpmDiff d.rpm gap
  let ext ← Fl.toU32 (Fl.ofU32 expected * (Fl.fin 1 + d.maxRpmChange))
  let t0 ← timeAt d 0
  return { d with expiration := t0 + ext }

/-- src/decoder.c:192-285 `missing_tooth_trigger_update`; the flag says whether the expiry callback
was requested. -/
def missingTriggerUpdate (d : Decoder) (t : Time) : Except Fault (Decoder × Bool) := do
  let d := pushTime d t
  let d := if d.currentTriggersRpm.toNat < maxTriggers then
      { d with currentTriggersRpm := d.currentTriggersRpm + 1 } else d
  if d.currentTriggersRpm.toNat < d.requiredTriggersRpm.toNat then return (d, false)
  else
    let d := if d.state = .nosync then { d with state := .rpm } else d
    let ratio ← missingRatio d
    let miss := okMissing ratio d.maxRpmChange
    let norm := okNormal ratio d.maxRpmChange
    let change := if Fl.lt ratio (Fl.fin 1) then Fl.fin 1 - ratio else ratio - Fl.fin 1
    let d := { d with curRpmChange := change }
    if d.state = .rpm then return (missingFromRpm d miss norm, false)
    else
      let d ← missingExpire (missingAngle (missingCount d miss norm) miss t)
      return (d, true)

/-- src/decoder.c:287-297 `missing_tooth_average_rpm`. -/
def missingAverageRpm (d : Decoder) : Except Fault (BitVec 32) := do
  if d.numTriggers.toNat ≤ d.currentTriggersRpm.toNat then
    if d.triggersSinceLastSync = 0 then
      let t0 ← timeAt d 0
      let tn ← timeAt d (d.numTriggers - 1)
      rpmFromTimeDiff (t0 - tn) (Fl.ofU32 d.numTriggers * d.degreesPerTrigger)
    else return d.rpm
  else return d.toothRpm

/-- src/decoder.c:307-311 and 351-355: tooth rpm, then average rpm. -/
def missingRpms (d : Decoder) : Except Fault Decoder := do
  if d.state ≠ .nosync then
    let tr ← missingToothRpm d
    let d := { d with toothRpm := tr }
    let r ← missingAverageRpm d
    return { d with rpm := r }
  else
    let r ← missingAverageRpm d
    return { d with rpm := r }

/-- src/decoder.c:299-322 `decode_missing_no_sync`. -/
def decodeMissingNosync (d : Decoder) (trigger : Int) (t : Time) : Except Fault DecOut := do
  let old := d.state
  if trigger = 0 then
    let (d, b) ← missingTriggerUpdate d t
    let ex := expireReq d b
    let d ← missingRpms d
    return decodeFinish old d ex
  else
    let d ← missingRpms d
    return decodeFinish old d none

/-- src/decoder.c:332-339: the cam flags at the first tooth after the gap. -/
def camRotation (d : Decoder) : Decoder :=
  if d.state = .sync ∧ d.triggersSinceLastSync = 0 then
    let d := if !d.camThis && !d.camLast then { d with valid := false } else d
    { d with camLast := d.camThis, camThis := false }
  else d

/-- src/decoder.c:340-349: a cam pulse. -/
def camPulse (d : Decoder) : Decoder :=
  if d.state = .sync then
    if d.camThis || d.camLast then { d with valid := false, camThis := false }
    else { d with camThis := true }
  else d

/-- src/decoder.c:357-372: the end of `decode_missing_with_camsync`. -/
def camFinish (wasValid : Bool) (d : Decoder) (ex : Option Time) : DecOut :=
  let d :=
    if d.state ≠ .sync then { d with valid := false }
    else if !wasValid && (d.camThis || d.camLast) then
      { d with valid := true, loss := .noLoss,
               lastTriggerAngle := d.degreesPerTrigger * Fl.ofU32 d.triggersSinceLastSync +
                 (if d.camThis then Fl.fin 0 else Fl.fin 360) }
    else d
  if wasValid && !d.valid then { d := invalidateDecoder d, expire := ex, lost := true }
  else { d := d, expire := ex, lost := false }

/-- src/decoder.c:324-373 `decode_missing_with_camsync`. -/
def decodeMissingCamsync (d : Decoder) (trigger : Int) (t : Time) : Except Fault DecOut := do
  let wasValid := d.valid
  if trigger = 0 then
    let (d, b) ← missingTriggerUpdate d t
    let ex := expireReq d b
    let d ← missingRpms (camRotation d)
    return camFinish wasValid d ex
  else
    let d ← missingRpms (if trigger = 1 then camPulse d else d)
    return camFinish wasValid d none

/-- src/decoder.c:375-389 `decoder_init`.  The cam statics and `times` are left as they are. -/
def decoderInit (d : Decoder) : Decoder :=
  { d with currentTriggersRpm := 0, valid := false, rpm := 0, toothRpm := 0, state := .nosync,
           lastTriggerTime := 0, lastTriggerAngle := Fl.fin 0, triggersSinceLastSync := 0,
           expiration := 0,
           maxRpmChange := if Fl.feq d.maxRpmChange (Fl.fin 0) then Fl.fin (1 / 2) else d.maxRpmChange }

/-- src/decoder.c:391-408 `decode`. -/
def decode (d : Decoder) (trigger : Int) (t : Time) : Except Fault DecOut :=
  match d.type with
  | .evenNosync => decodeEvenNosync d t
  | .evenCamsync => decodeEvenCamsync d trigger t
  | .missingNosync => decodeMissingNosync d trigger t
  | .missingCamsync => decodeMissingCamsync d trigger t

/-- src/decoder.c:436-449 `current_angle`. -/
def currentAngle (d : Decoder) (now : Time) : Except Fault Fl :=
  if d.rpm = 0 then .ok d.lastTriggerAngle
  else clampAngle (d.lastTriggerAngle + degreesFromTimeDiff (now - d.lastTriggerTime) d.rpm) (Fl.fin 720)

end

end Verif
