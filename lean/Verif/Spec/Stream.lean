/-
What the console says in a run of the main loop, as messages.
-/
import Verif.Model.ConsolePass
import Verif.Spec.Reader

namespace Verif

/-- The "type" of a message, its first entry. -/
def Wire.kind : Wire → Option String
  | .map _ (.text t :: .text k :: _) => if t = "type" then some k else none
  | _ => none

section
variable [FloatFmt] [LibM] (parse : List Byte → List Item) (returns : Bool) (rate : BitVec 32) (version : String)

/-- The answer to a request is given as a whole if its encoding, of `size` bytes, fits 16384 bytes, and is else not given.
No request, no answer. -/
inductive Replies (size : Wire → Nat) : Option (List Byte) → Console → Console → List Wire → Effect → Prop
  | none (c) : Replies size none c c [] .none
  | said {m c c' l e} (h : processRequest rate version (Wire.items structureWires) (parse m) c = .ok (c', l, e))
      (hs : size (.map false (answerWires (parse m) l)) ≤ 16384) :
      Replies size (some m) c c' [.map false (answerWires (parse m) l)] e
  | unsaid {m c c' l e} (h : processRequest rate version (Wire.items structureWires) (parse m) c = .ok (c', l, e))
      (hs : 16384 < size (.map false (answerWires (parse m) l))) : Replies size (some m) c c' [] e

/-- A description if the last one was given more than 400000 ticks (100 ms) ago, else a feed message. -/
inductive Reports (i : ConInput) (c : Console) (last : Time) : Wire → Time → Prop
  | description {ks} (ht : 400000 < (timeDiff i.now last).toNat) (hk : feedKeys feedNodes = .ok ks) :
      Reports i c last (.map true [.text "type", .text "description", .text "time", .num i.now1.toNat, .text "keys",
        .arr false (Item.wires ks)]) i.now2
  | feed {vs} (ht : (timeDiff i.now last).toNat ≤ 400000)
      (hv : feedValues ⟨c.cfg, i.vals, i.now1⟩ feedNodes = .ok vs) :
      Reports i c last (.map true [.text "type", .text "feed", .text "time", .num i.now1.toNat, .text "values",
        .arr false (Item.wires vs)]) last

/-- Pass after pass: the answer to the request that was complete, the events in their order, and a description or a feed
message.  A request for the bootloader on a platform that does not come back from there ends it. -/
inductive Talk (L : CborLib) (size : Wire → Nat) : List ConInput → ConState → List Wire → Prop
  | done (s) : Talk L size [] s []
  | boot {i is s m rx c l} (hq : processRx L s.rx i.rx = .ok (some m, rx)) (hr : returns = false)
      (h : processRequest rate version (Wire.items structureWires) (parse m) (i.between s.c) = .ok (c, l, .bootloader)) :
      Talk L size (i :: is) s []
  | pass {i is s q rx c reply e w t ws} (hq : processRx L s.rx i.rx = .ok (q, rx))
      (hr : Replies parse rate version size q (i.between s.c) c reply e) (he : returns = true ∨ e ≠ .bootloader)
      (hw : Reports i c s.lastDesc w t) (hs : Talk L size is ⟨c, rx, t⟩ ws) :
      Talk L size (i :: is) s (reply ++ i.events.map eventWire ++ [w] ++ ws)

end
end Verif
