/-
Model of the byte level of src/console.c: sending a message completely, the receive buffer, and the outline of
`console_process`.

The CBOR library (contrib/tinycbor) is an empty submodule in the repository, so the two questions that the receive code
asks it are a parameter, `CborLib`.  Verif.Spec.Cbor has a concrete one.
-/
import Verif.Base.Arr
import Verif.Model.Util

namespace Verif

abbrev Byte := BitVec 8

/-- The state of the loop of src/console.c:294-305 `console_write_full`: `pos` is `ptr - buf`; `sent` is what the transport
has taken, in order. -/
structure TxState where
  pos : Nat
  remaining : Nat
  sent : List Byte

/-- src/console.c:295-296. -/
def txStart (msg : List Byte) : TxState := { pos := 0, remaining := msg.length, sent := [] }

/-- src/console.c:298-302: one turn, in which the transport is willing to take `accept` bytes.  `console_write` reports at
most what it was asked for. -/
def txTurn (msg : List Byte) (s : TxState) (accept : Nat) : TxState :=
  let written := min accept s.remaining
  let sent := s.sent ++ (msg.drop s.pos).take written
  if written > 0 then { pos := s.pos + written, remaining := s.remaining - written, sent := sent }
  else { s with sent := sent }

/-- The loop of src/console.c:297-303, up to `k` turns: it stops when nothing remains. -/
def txRun (msg : List Byte) (accept : Nat → Nat) : Nat → TxState
  | 0 => txStart msg
  | k + 1 =>
    let s := txRun msg accept k
    if s.remaining = 0 then s else txTurn msg s (accept k)

/-- The answer of `cbor_value_validate_basic` (and `cbor_value_advance`), src/console.c:355-379. -/
inductive Verdict
  /-- CborNoError, CborErrorGarbageAtEnd: the first `n` bytes are one item -/
  | complete (n : Nat)
  /-- CborErrorAdvancePastEOF, CborErrorUnexpectedEOF -/
  | short
  /-- any other error -/
  | bad
  deriving DecidableEq

/-- What the receive code asks the CBOR library about the bytes in the buffer. -/
structure CborLib where
  /-- `cbor_parser_init` succeeds and `cbor_value_is_map`, src/console.c:338-342 -/
  isMap : List Byte → Bool
  /-- src/console.c:355-379 -/
  check : List Byte → Verdict

/-- sizeof(rx_buffer), src/console.c:307. -/
def rxCapacity : Nat := 16384

/-- src/console.c:307-309: `buf` is `rx_buffer[0 .. rx_buffer_size)`. -/
structure Rx where
  buf : List Byte
  start : Time

/-- src/console.c:311-315 `console_shift_rx_buffer`. -/
def rxShift (r : Rx) (amt : Nat) : Except Fault Rx := do
  cassert (decide (amt ≤ r.buf.length))
  return { r with buf := r.buf.drop amt }

/-- src/console.c:318 and 324-325: `console_read` stores `got` behind the bytes already there. -/
def rxRead (buf got : List Byte) : Except Fault (List Byte) :=
  if got.length ≤ rxCapacity - buf.length then .ok (buf ++ got) else .error .oob

/-- src/console.c:337-353: drop bytes until a map starts; `t` is `current_time()` at the last byte dropped. -/
def rxSkip (L : CborLib) (t : Time) : List Byte → Time → List Byte × Time
  | [], st => ([], st)
  | b :: bs, st => if L.isMap (b :: bs) then (b :: bs, st) else rxSkip L t bs t

section
variable [FloatFmt]

/-- src/console.c:367-374: an incomplete item.  `t` is `current_time()`. -/
def rxShort (r : Rx) (t : Time) : Except Fault Rx := do
  let lim ← timeFromUs 5000000
  let buf := if lim.toNat < (t - r.start).toNat then [] else r.buf
  return { r with buf := if buf.length = rxCapacity then [] else buf }

/-- src/console.c:355-381: decide what to do with a buffer that starts with a map. -/
def rxJudge (L : CborLib) (r : Rx) (t : Time) : Except Fault (Nat × Rx) :=
  match L.check r.buf with
  | .complete n => .ok (n, r)
  | .short => do
    let r ← rxShort r t
    return (0, r)
  | .bad => .ok (0, { r with buf := [] })

/-- What one call of `console_process` gets from outside: the bytes that `console_read` delivers, and `current_time()` at
src/console.c:321, at the last byte skipped (347), and at 369. -/
structure RxInput where
  got : List Byte
  t0 : Time
  t1 : Time
  t2 : Time

/-- src/console.c:320-322. -/
def rxStartTime (r : Rx) (t0 : Time) : Time := if r.buf = [] then t0 else r.start

/-- src/console.c:317-382 `console_try_read`: the length of the request at the front of the buffer, or 0. -/
def tryRead (L : CborLib) (r : Rx) (i : RxInput) : Except Fault (Nat × Rx) := do
  let buf ← rxRead r.buf i.got
  let (buf, start) := rxSkip L i.t1 buf (rxStartTime r i.t0)
  if buf = [] then return (0, { buf := [], start := start })
  else rxJudge L { buf := buf, start := start } i.t2

/-- src/console.c:1591-1599, the first part of `console_process`: the request handed to
`console_process_request_raw`, if any, and the buffer after it. -/
def processRx (L : CborLib) (r : Rx) (i : RxInput) : Except Fault (Option (List Byte) × Rx) := do
  let (n, r) ← tryRead L r i
  if n = 0 then return (none, r)
  else do
    let r' ← rxShift r n
    return (some (r.buf.take n), r')

/-- Successive calls of `console_process`: the requests handled, in order. -/
def rxRun (L : CborLib) (r : Rx) : List RxInput → Except Fault (List (List Byte) × Rx)
  | [] => .ok ([], r)
  | i :: is => do
    let (q, r) ← processRx L r i
    let (qs, r) ← rxRun L r is
    return (q.toList ++ qs, r)

/-- src/console.c:308-309. -/
def rxBoot : Rx := { buf := [], start := 0 }

/-- C library `ldexpf(x, e)`: x times 2^e, rounded. -/
def ldexpf (m : Int) (e : Int) : Fl := FloatFmt.rnd ((m : ℚ) * (2 : ℚ) ^ e)

/-- src/console.c:438-450 `decode_half`. -/
def decodeHalf (half : BitVec 16) : Fl :=
  let exp : Int := ((half >>> 10) &&& 0x1f).toNat
  let mant : Int := (half &&& 0x3ff).toNat
  let val : Fl :=
    if exp = 0 then ldexpf mant (-24)
    else if exp ≠ 31 then ldexpf (mant + 1024) (exp - 25)
    else if mant = 0 then Fl.inf false else Fl.nan
  if half &&& 0x8000 ≠ 0 then Fl.neg val else val

end

end Verif
