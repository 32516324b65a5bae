/-
CBOR well-formedness (RFC 8949, section 3 and appendix C), and what the receive code relies on.

This stands for the CBOR library, whose source is not in the repository.
-/
import Verif.Model.ConsoleIo

namespace Verif

/-- A request as the client sends it: one complete map. -/
def IsRequest (L : CborLib) (m : List Byte) : Prop := L.isMap m = true ∧ L.check m = .complete m.length

/-- What the receive code relies on. -/
structure CborLib.Ok (L : CborLib) : Prop where
  /-- an answer other than "incomplete" does not depend on the bytes that follow -/
  stable : ∀ l r, L.check l ≠ .short → L.check (l ++ r) = L.check l
  /-- a complete item is not empty and is within the bytes looked at -/
  within : ∀ l n, L.check l = .complete n → 0 < n ∧ n ≤ l.length
  /-- once a map is recognised, it stays one -/
  mapStable : ∀ l r, L.isMap l = true → L.isMap (l ++ r) = true
  /-- a complete map is one by itself, without the bytes behind it -/
  alone : ∀ l r, L.isMap (l ++ r) = true → L.check (l ++ r) = .complete l.length → IsRequest L l

/-- The map can be recognised from its first byte on (true in CBOR of maps with fewer than 24 entries and of maps of
indefinite length, whose headers are one byte). -/
def EarlyMap (L : CborLib) (m : List Byte) : Prop := ∀ p, p ≠ [] → p <+: m → L.isMap p = true

/-- The head of an item: major type, argument (`none` for the indefinite-length marker and for break), bytes used. -/
structure CborHead where
  major : Nat
  arg : Option Nat
  size : Nat

/-- Big-endian number. -/
def beNat (l : List Byte) : Nat := l.foldl (fun a b => a * 256 + b.toNat) 0

/-- Outcome of reading a head. -/
inductive HeadRes
  | head (h : CborHead)
  | short
  | bad

/-- Read a head. -/
def cborHead : List Byte → HeadRes
  | [] => .short
  | b :: t =>
    let major := b.toNat / 32
    let info := b.toNat % 32
    if info < 24 then .head ⟨major, some info, 1⟩
    else if info < 28 then
      if t.length < 2 ^ (info - 24) then .short
      else .head ⟨major, some (beNat (t.take (2 ^ (info - 24)))), 1 + 2 ^ (info - 24)⟩
    else if info = 31 then
      if major = 0 ∨ major = 1 ∨ major = 6 then .bad else .head ⟨major, none, 1⟩
    else .bad

/-- What is still open around the current position. -/
inductive Frame
  /-- this many more items -/
  | items (n : Nat)
  /-- items up to a break; the flag says that a map key is waiting for its value -/
  | until (map odd : Bool)
  /-- chunks of a string of this major type, up to a break -/
  | chunks (major : Nat)
  deriving DecidableEq

/-- One item inside the innermost frame is done. -/
def itemDone : List Frame → List Frame
  | [] => []
  | .items n :: fs => if n ≤ 1 then itemDone fs else .items (n - 1) :: fs
  | .until m o :: fs => .until m (m && !o) :: fs
  | .chunks m :: fs => .chunks m :: fs

/-- What follows a head, given what is open. -/
def headStep (fs : List Frame) (h : CborHead) : Option (List Frame × Nat) :=
  match fs, h.arg with
  | [], _ => none
  | .chunks m :: fs, some n => if h.major = m then some (.chunks m :: fs, n) else none
  | .chunks _ :: fs, none => if h.major = 7 then some (itemDone fs, 0) else none
  | .until m o :: fs, none =>
    if h.major = 7 then (if m && o then none else some (itemDone fs, 0))
    else if h.major = 2 ∨ h.major = 3 then some (.chunks h.major :: .until m o :: fs, 0)
    else some (.until (decide (h.major = 5)) false :: .until m o :: fs, 0)
  | .items n :: fs, none =>
    if h.major = 7 then none
    else if h.major = 2 ∨ h.major = 3 then some (.chunks h.major :: .items n :: fs, 0)
    else some (.until (decide (h.major = 5)) false :: .items n :: fs, 0)
  | fs, some n =>
    if h.major = 2 ∨ h.major = 3 then some (itemDone fs, n)
    else if h.major = 4 then some (if n = 0 then itemDone fs else .items n :: fs, 0)
    else if h.major = 5 then some (if n = 0 then itemDone fs else .items (2 * n) :: fs, 0)
    else if h.major = 6 then some (.items 1 :: fs, 0)
    else some (itemDone fs, 0)

/-- `k` more bytes belong to the item. -/
def Verdict.add (k : Nat) : Verdict → Verdict
  | .complete n => .complete (k + n)
  | v => v

theorem cborHead_size {l : List Byte} {h : CborHead} (hh : cborHead l = .head h) : 0 < h.size ∧ h.size ≤ l.length := by
  cases l with
  | nil => cases hh
  | cons b t =>
    unfold cborHead at hh
    simp only at hh
    split at hh
    · injection hh with hh; subst hh; simp
    · split at hh
      · split at hh
        · cases hh
        · injection hh with hh; subst hh
          simp only [List.length_cons]
          generalize 2 ^ (b.toNat % 32 - 24) = p at *
          omega
      · split at hh
        · split at hh
          · cases hh
          · injection hh with hh; subst hh; simp
        · cases hh

/-- Read items until nothing is open. -/
def cborScan (fs : List Frame) (l : List Byte) : Verdict :=
  if fs = [] then .complete 0
  else match _hh : cborHead l with
    | .short => .short
    | .bad => .bad
    | .head h =>
      match headStep fs h with
      | none => .bad
      | some (fs', n) =>
        if l.length < h.size + n then .short
        else (cborScan fs' (l.drop (h.size + n))).add (h.size + n)
termination_by l.length
decreasing_by
  have := cborHead_size _hh
  simp only [List.length_drop]; omega

/-- The library: one item is wanted; a map is recognised by its head. -/
def cbor : CborLib where
  isMap l := match cborHead l with
    | .head h => decide (h.major = 5)
    | _ => false
  check l := cborScan [.items 1] l

end Verif
