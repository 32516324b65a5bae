/-
Histories of the decoder, as the rest of the firmware and the engine see it.
-/
import Verif.Model.Decoder

namespace Verif

variable [FloatFmt]

/-- What can happen to the decoder: a trigger edge on an input at a time, the expiry callback firing, or
a desynchronisation request by the platform. -/
inductive DecEv
  | trigger (input : Int) (t : Time)
  | expire
  | desync (reason : DecLoss)

/-- One event. -/
def Decoder.on (d : Decoder) : DecEv → Except Fault DecOut
  | .trigger k t => decode d k t
  | .expire => .ok ⟨handleDecoderExpire d, none, true⟩
  | .desync r => .ok ⟨decoderDesync d r, none, true⟩

/-- The settings a client can write over the console. -/
structure DecSettings where
  type : DecType
  offset : Fl
  maxRpmChange : Fl
  minRpm : BitVec 32
  requiredTriggersRpm : BitVec 32
  numTriggers : BitVec 32
  degreesPerTrigger : Fl
  rpmWindowSize : BitVec 32

/-- Writing the settings. -/
def Decoder.set (d : Decoder) (c : DecSettings) : Decoder :=
  { d with type := c.type, offset := c.offset, maxRpmChange := c.maxRpmChange, minRpm := c.minRpm,
           requiredTriggersRpm := c.requiredTriggersRpm, numTriggers := c.numTriggers,
           degreesPerTrigger := c.degreesPerTrigger, rpmWindowSize := c.rpmWindowSize }

/-- States reached by any mix of events and settings changes after initialising `d0`, with every new
setting satisfying `P`. -/
inductive DecReach (P : DecSettings → Prop) (d0 : Decoder) : Decoder → Prop
  | start : DecReach P d0 (decoderInit d0)
  | on {d : Decoder} {ev : DecEv} {o : DecOut} : DecReach P d0 d → d.on ev = .ok o → DecReach P d0 o.d
  | set {d : Decoder} (c : DecSettings) : P c → DecReach P d0 d → DecReach P d0 (d.set c)

/-- Settings that fit the 36-tooth limit of the firmware: the averaging window is at most 36 teeth, at
least 2 and at most 36 teeth are required, and the wheel has 1 to 37 tooth positions. -/
def TeethLimits (required count window : BitVec 32) : Prop :=
  window.toNat ≤ 36 ∧ 2 ≤ required.toNat ∧ required.toNat ≤ 36 ∧ 1 ≤ count.toNat ∧ count.toNat ≤ 37

/-- States reached from `d0` by a list of events, settings untouched.  The latest event is the head of
the list. -/
inductive DecRun (d0 : Decoder) : List DecEv → Decoder → Prop
  | start : DecRun d0 [] (decoderInit d0)
  | on {d : Decoder} {evs : List DecEv} {ev : DecEv} {o : DecOut} :
      DecRun d0 evs d → d.on ev = .ok o → DecRun d0 (ev :: evs) o.d

/-- States reached by events with the settings untouched, with the number of triggers since sync was last
lost (or since initialisation). -/
inductive DecFresh (d0 : Decoder) : Nat → Decoder → Prop
  | start : DecFresh d0 0 (decoderInit d0)
  | keep {d : Decoder} {n : Nat} {k : Int} {t : Time} {o : DecOut} :
      DecFresh d0 n d → d.on (.trigger k t) = .ok o → o.lost = false → DecFresh d0 (n + 1) o.d
  | lose {d : Decoder} {n : Nat} {ev : DecEv} {o : DecOut} :
      DecFresh d0 n d → d.on ev = .ok o → o.lost = true → DecFresh d0 0 o.d

/-- Running a list of events, oldest first. -/
def Decoder.run (d : Decoder) : List DecEv → Except Fault Decoder
  | [] => .ok d
  | ev :: evs => d.on ev >>= fun o => o.d.run evs

/-- The result exists and satisfies `p`. -/
def okAnd {α : Type} (x : Except Fault α) (p : α → Bool) : Bool :=
  match x with
  | .ok a => p a
  | .error _ => false

/-- Histories with the pending expiry callback.  A request replaces the pending time.  `n` counts the teeth
accepted since synchronisation was gained. -/
inductive ExpiryRun (d0 : Decoder) : Option Time → Nat → Decoder → Prop
  | start : ExpiryRun d0 none 0 (decoderInit d0)
  | trigger {p : Option Time} {n : Nat} {d : Decoder} {k : Int} {t : Time} {o : DecOut} :
      ExpiryRun d0 p n d → decode d k t = .ok o →
      ExpiryRun d0 (o.expire.or p)
        (if d.state = .sync ∧ o.d.state = .sync then (if k = 0 ∨ d.type = .evenNosync then n + 1 else n) else 0) o.d
  | expire {e : Time} {n : Nat} {d : Decoder} : ExpiryRun d0 (some e) n d → ExpiryRun d0 none 0 (handleDecoderExpire d)
  | desync {p : Option Time} {n : Nat} {d : Decoder} (r : DecLoss) :
      ExpiryRun d0 p n d → ExpiryRun d0 p 0 (decoderDesync d r)

end Verif
