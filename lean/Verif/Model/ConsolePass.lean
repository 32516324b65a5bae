/-
Model of `console_process` of src/console.c as a whole: from the bytes received to the bytes sent.
-/
import Verif.Model.Structure

namespace Verif

/-- What the console keeps from one pass to the next: the configuration, the receive buffer (src/console.c:307-309)
and `last_desc_time` (1591). -/
structure ConState where
  c : Console
  rx : Rx
  lastDesc : Time

/-- What one pass gets from outside: what the rest of the firmware has done to the configuration structures since the last
pass (the decoder, the sensors and the output events are in them), the bytes received, the events that `get_logged_event`
returns before it returns none, the calculated values, and `current_time()` at src/console.c:1610, in the message, and
at 1614.  Simplified: the clock does not advance while a message is put together. -/
structure ConInput where
  between : Console → Console
  rx : RxInput
  events : List LogEvent
  vals : CalcValues
  now : Time
  now1 : Time
  now2 : Time

section
variable [FloatFmt] [LibM]

/-- src/console.c:1595-1599: the request, if there is one.  `parse` is what the functions of the CBOR library that look
into a complete map find there. -/
def passRequest (parse : List Byte → List Item) (bits : Fl → BitVec 32) (returns : Bool) (rate : BitVec 32)
    (version : String) (q : Option (List Byte)) (c : Console) : Except Fault (Console × List Byte × Effect) :=
  match q with
  | none => .ok (c, [], .none)
  | some m =>
    match rawRequest bits returns rate version (parse m) c with
    | .error e => .error e
    | .ok (c', r, e) => .ok (c', r.getD [], e)

/-- src/console.c:1609-1619: a description if there has been none for 100 ms, else a feed message. -/
def passFeed (bits : Fl → BitVec 32) (i : ConInput) (c : Console) (lastDesc : Time) :
    Except Fault (List Byte × Time) :=
  match timeFromUs 100000 with
  | .error e => .error e
  | .ok lim =>
    if lim.toNat < (timeDiff i.now lastDesc).toNat then
      match descriptionWire feedNodes i.now1 with
      | .error e => .error e
      | .ok w =>
        match sendMessage bits w with
        | .error e => .error e
        | .ok m => .ok (m, i.now2)
    else
      match feedWire feedNodes i.now1 ⟨c.cfg, i.vals, i.now1⟩ with
      | .error e => .error e
      | .ok w =>
        match sendMessage bits w with
        | .error e => .error e
        | .ok m => .ok (m, lastDesc)

/-- src/console.c:1590-1620 `console_process`: the state afterwards, the bytes sent, and what a request did besides.  When
the platform leaves for the bootloader, nothing follows (`none`).  The request is taken out of the receive buffer after
it has been handled. -/
def consolePass (L : CborLib) (parse : List Byte → List Item) (bits : Fl → BitVec 32) (returns : Bool) (rate : BitVec 32)
    (version : String) (i : ConInput) (s : ConState) : Except Fault (Option ConState × List Byte × Effect) :=
  match processRx L s.rx i.rx with
  | .error e => .error e
  | .ok (q, rx) =>
    match passRequest parse bits returns rate version q (i.between s.c) with
    | .error e => .error e
    | .ok (c, out, e) =>
      if decide (e = .bootloader) && !returns then .ok (none, out, e)
      else
        match sendEvents bits i.events with
        | .error e => .error e
        | .ok evs =>
          match passFeed bits i c s.lastDesc with
          | .error e => .error e
          | .ok (m, lastDesc) => .ok (some { c := c, rx := rx, lastDesc := lastDesc }, out ++ evs ++ m, e)

/-- The state when the main loop starts (src/console.c:308-309, 1591). -/
def conBoot (c : Console) : ConState := { c := c, rx := rxBoot, lastDesc := 0 }

/-- Pass after pass, as in the main loop: all bytes sent. -/
def consoleRun (L : CborLib) (parse : List Byte → List Item) (bits : Fl → BitVec 32) (returns : Bool) (rate : BitVec 32)
    (version : String) : List ConInput → ConState → Except Fault (List Byte)
  | [], _ => .ok []
  | i :: is, s =>
    match consolePass L parse bits returns rate version i s with
    | .error e => .error e
    | .ok (none, out, _) => .ok out
    | .ok (some s', out, _) =>
      match consoleRun L parse bits returns rate version is s' with
      | .error e => .error e
      | .ok rest => .ok (out ++ rest)

end
end Verif
