/-
How a client reads what the console sends: a CBOR stream (RFC 8949), item by item.
-/
import Verif.Model.Wire
import Verif.Spec.Cbor

namespace Verif

/-- The text these bytes are, if they are one. -/
def readText (l : List Byte) : Option String :=
  String.fromUTF8? ⟨(l.map UInt8.ofBitVec).toArray⟩

mutual
/-- The first item of these bytes and the bytes after it.  `unbits` is what the 32 bits of a float mean; the first
argument bounds the number of steps. -/
def readItem (unbits : BitVec 32 → Fl) : Nat → List Byte → Option (Wire × List Byte)
  | 0, _ => none
  | f + 1, l =>
    match cborHead l with
    | .head h =>
      let rest := l.drop h.size
      match h.major, h.arg with
      | 0, some n => some (.num n, rest)
      | 1, some n => some (.num (-1 - n), rest)
      | 3, some n =>
        if rest.length < n then none else (readText (rest.take n)).map fun s => (.text s, rest.drop n)
      | 4, some n => (readMany unbits f n rest).map fun x => (.arr true x.1, x.2)
      | 4, none => (readOpen unbits f rest).map fun x => (.arr false x.1, x.2)
      | 5, some n => (readMany unbits f (2 * n) rest).map fun x => (.map true x.1, x.2)
      | 5, none => (readOpen unbits f rest).map fun x => (.map false x.1, x.2)
      | 7, some n =>
        if h.size = 5 then some (.flt (unbits (BitVec.ofNat 32 n)), rest)
        else if n = 20 then some (.bool false, rest)
        else if n = 21 then some (.bool true, rest)
        else if n = 22 then some (.null, rest)
        else none
      | _, _ => none
    | _ => none
/-- So many items. -/
def readMany (unbits : BitVec 32 → Fl) : Nat → Nat → List Byte → Option (List Wire × List Byte)
  | 0, _, _ => none
  | _ + 1, 0, l => some ([], l)
  | f + 1, n + 1, l =>
    match readItem unbits f l with
    | none => none
    | some (w, l) => (readMany unbits f n l).map fun x => (w :: x.1, x.2)
/-- Items up to a break. -/
def readOpen (unbits : BitVec 32 → Fl) : Nat → List Byte → Option (List Wire × List Byte)
  | 0, _ => none
  | _ + 1, [] => none
  | f + 1, b :: l =>
    if b = 0xff then some ([], l)
    else
      match readItem unbits f (b :: l) with
      | none => none
      | some (w, l) => (readOpen unbits f l).map fun x => (w :: x.1, x.2)
end

/-- All items of a stream: a step per byte and three for every byte are enough. -/
def readStream (unbits : BitVec 32 → Fl) : Nat → List Byte → Option (List Wire)
  | _, [] => some []
  | 0, _ => none
  | f + 1, l =>
    match readItem unbits (3 * l.length) l with
    | none => none
    | some (w, l) => (readStream unbits f l).map (w :: ·)

/-- What a client that reads everything gets. -/
def readAll (unbits : BitVec 32 → Fl) (l : List Byte) : Option (List Wire) := readStream unbits l.length l

mutual
/-- A message with every float replaced by the one that its 32 bits mean (the same one, if it has 32 bits). -/
def Wire.seen (r : Fl → Fl) : Wire → Wire
  | .flt x => .flt (r x)
  | .arr d l => .arr d (Wire.seenAll r l)
  | .map d l => .map d (Wire.seenAll r l)
  | w => w
def Wire.seenAll (r : Fl → Fl) : List Wire → List Wire
  | [] => []
  | w :: ws => Wire.seen r w :: Wire.seenAll r ws
end

mutual
/-- What can be encoded: numbers and lengths of at most 64 bits, and maps with a value for every key. -/
def Wire.Ok : Wire → Prop
  | .num n => -2 ^ 64 ≤ n ∧ n < 2 ^ 64
  | .text s => s.utf8ByteSize < 2 ^ 64
  | .arr _ l => l.length < 2 ^ 64 ∧ Wire.OkAll l
  | .map _ l => l.length < 2 ^ 64 ∧ l.length % 2 = 0 ∧ Wire.OkAll l
  | _ => True
def Wire.OkAll : List Wire → Prop
  | [] => True
  | w :: ws => Wire.Ok w ∧ Wire.OkAll ws
end

end Verif
