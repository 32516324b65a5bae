/-
Specification of the console's byte level: what happens to the bytes that arrive (C48).
-/
import Verif.Spec.Cbor

namespace Verif

/-- What became of a stretch of the bytes received. -/
inductive Seg
  /-- handed on as a request -/
  | request (m : List Byte)
  /-- one byte skipped -/
  | skipped (b : Byte)
  /-- given up after waiting for five seconds -/
  | timedOut (bs : List Byte)
  /-- given up because the buffer is full -/
  | full (bs : List Byte)
  /-- given up because no request can begin like this -/
  | garbage (bs : List Byte)

def Seg.bytes : Seg → List Byte
  | .request m => m
  | .skipped b => [b]
  | .timedOut bs => bs
  | .full bs => bs
  | .garbage bs => bs

def Seg.request? : Seg → Option (List Byte)
  | .request m => some m
  | _ => none

/-- 5 seconds in ticks. -/
def fiveSeconds : Nat := 5 * tickrate

/-- What is done with the bytes `rest` that are left after skipping, when the wait counts from `since`: the stretches that
are finished with, and the bytes kept. -/
inductive Outcome (L : CborLib) (since now : Time) (rest : List Byte) : List Seg → List Byte → Prop
  | nothing : rest = [] → Outcome L since now rest [] []
  | request {m keep} : rest = m ++ keep → L.isMap rest = true → L.check rest = .complete m.length →
      Outcome L since now rest [.request m] keep
  | wait : L.isMap rest = true → L.check rest = .short → (now - since).toNat ≤ fiveSeconds → rest.length < rxCapacity →
      Outcome L since now rest [] rest
  | timedOut : L.isMap rest = true → L.check rest = .short → fiveSeconds < (now - since).toNat →
      Outcome L since now rest [.timedOut rest] []
  | full : L.isMap rest = true → L.check rest = .short → rest.length = rxCapacity → Outcome L since now rest [.full rest] []
  | garbage : L.isMap rest = true → L.check rest = .bad → Outcome L since now rest [.garbage rest] []

/-- One call of `console_process`: `p` was pending, and the wait counted from `since`; bytes that cannot start a request are
skipped one by one; the wait counts from when the buffer was found empty or a byte was skipped. -/
inductive RxCall (L : CborLib) (p : List Byte) (since : Time) (i : RxInput) : List Seg → List Byte → Time → Prop
  | call {sk rest since' segs keep} : p ++ i.got = sk ++ rest →
      (∀ a b c, sk = a ++ b :: c → L.isMap (b :: (c ++ rest)) = false) →
      since' = (if sk ≠ [] then i.t1 else if p = [] then i.t0 else since) →
      Outcome L since' i.t2 rest segs keep → RxCall L p since i (sk.map .skipped ++ segs) keep since'

/-- Successive calls. -/
inductive RxChain (L : CborLib) : List Byte → Time → List RxInput → List Seg → List Byte → Time → Prop
  | nil (p since) : RxChain L p since [] [] p since
  | cons {p since i is segs segs' p1 s1 p2 s2} : RxCall L p since i segs p1 s1 → RxChain L p1 s1 is segs' p2 s2 →
      RxChain L p since (i :: is) (segs ++ segs') p2 s2

/-- The transport never delivers more than there is room for. -/
def Fits (pending : List Byte) (i : RxInput) : Prop := i.got.length ≤ rxCapacity - pending.length

/-- The transport keeps to that in every call of a run. -/
def FitsAll [FloatFmt] (L : CborLib) (r : Rx) : List RxInput → Prop
  | [] => True
  | i :: is => Fits r.buf i ∧ ∀ q r', processRx L r i = .ok (q, r') → FitsAll L r' is

/-- The client sends the requests `todo` one after the other, and the calls `is` handle `out` of them, each as soon as it is
complete, one in each call.  `p` is what has arrived and is not handled yet, each byte with its time of arrival.  A request
that is incomplete at a call has begun to arrive at most five seconds ago. -/
inductive InTime : List (Byte × Time) → List (List Byte) → List RxInput → List (List Byte) → Prop
  | done (p todo) : InTime p todo [] []
  | nothing {p todo i is out} : p ++ i.got.map (·, i.t0) = [] → InTime [] todo is out → InTime p todo (i :: is) out
  | handle {p m todo i is out rest} : Fits (p.map (·.1)) i →
      (p ++ i.got.map (·, i.t0)).map (·.1) = m ++ rest.map (·.1) → rest <:+ p ++ i.got.map (·, i.t0) →
      InTime rest todo is out → InTime p (m :: todo) (i :: is) (m :: out)
  | wait {p m todo i is out b a q} : Fits (p.map (·.1)) i → p ++ i.got.map (·, i.t0) = (b, a) :: q →
      (p ++ i.got.map (·, i.t0)).map (·.1) <+: m → (p ++ i.got.map (·, i.t0)).length < m.length →
      (i.t2 - a).toNat ≤ fiveSeconds → InTime ((b, a) :: q) (m :: todo) is out → InTime p (m :: todo) (i :: is) out

/-- The same, except that the five seconds count from the last call that found nothing pending: `since`. -/
inductive InTimeSince : List Byte → Time → List (List Byte) → List RxInput → List (List Byte) → Prop
  | done (p since todo) : InTimeSince p since todo [] []
  | nothing {p since todo i is out} : p ++ i.got = [] → InTimeSince [] i.t0 todo is out →
      InTimeSince p since todo (i :: is) out
  | handle {p since m todo i is out rest} : Fits p i → p ++ i.got = m ++ rest →
      InTimeSince rest (if p = [] then i.t0 else since) todo is out → InTimeSince p since (m :: todo) (i :: is) (m :: out)
  | wait {p since m todo i is out} : Fits p i → p ++ i.got ≠ [] → p ++ i.got <+: m → (p ++ i.got).length < m.length →
      (i.t2 - (if p = [] then i.t0 else since)).toNat ≤ fiveSeconds →
      InTimeSince (p ++ i.got) (if p = [] then i.t0 else since) (m :: todo) is out →
      InTimeSince p since (m :: todo) (i :: is) out

/-- Requests the receive code can take: they are maps recognisable from the first byte on, and fit in the buffer. -/
def Sendable (L : CborLib) (m : List Byte) : Prop := IsRequest L m ∧ EarlyMap L m ∧ m.length ≤ rxCapacity

/-- The value of a 16-bit half-precision pattern (IEEE 754-2019, 3.4): sign, 5 exponent bits, 10 fraction bits. -/
inductive HalfVal
  | num (q : ℚ)
  | inf (neg : Bool)
  | nan

def halfValue (sign : Bool) (exp mant : Nat) : HalfVal :=
  let s : ℚ := if sign then -1 else 1
  if exp = 31 then (if mant = 0 then .inf sign else .nan)
  else if exp = 0 then .num (s * ((mant : ℚ) / 1024) * 2 ^ (-14 : ℤ))
  else .num (s * (1 + (mant : ℚ) / 1024) * 2 ^ ((exp : ℤ) - 15))

/-- The pattern with the given fields. -/
def halfBits (sign : Bool) (exp mant : Nat) : BitVec 16 :=
  BitVec.ofNat 16 ((if sign then 1 else 0) * 2 ^ 15 + exp * 2 ^ 10 + mant)

end Verif
