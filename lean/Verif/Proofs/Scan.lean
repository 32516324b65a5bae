/-
The receive code's check finds the end of an encoded message.
-/
import Verif.Proofs.Reader
import Verif.Proofs.Cbor
import Verif.Spec.Console

namespace Verif

theorem Verdict.add_add (a b : Nat) (v : Verdict) : (v.add a).add b = v.add (b + a) := by
  cases v <;> simp [Verdict.add, Nat.add_assoc]

/-- Something is open, and it is not a string in pieces. -/
def OpenFrame : List Frame → Prop
  | .items _ :: _ => True
  | .until _ _ :: _ => True
  | _ => False

theorem openFrame_ne {fs : List Frame} (h : OpenFrame fs) : fs ≠ [] := by
  rintro rfl
  exact h

theorem scan_step {fs fs' : List Frame} {h : CborHead} {l a r : List Byte} {n : Nat} (hf : fs ≠ []) (hl : l = a ++ r)
    (ha : a.length = h.size + n) (hh : cborHead l = .head h) (hs : headStep fs h = some (fs', n)) :
    cborScan fs l = (cborScan fs' r).add a.length := by
  subst hl
  rw [cborScan, if_neg hf]
  split
  · rename_i h' ; rw [hh] at h'; cases h'
  · rename_i h' ; rw [hh] at h'; cases h'
  · rename_i h1 h'
    rw [hh] at h'
    cases h'
    rw [hs]
    dsimp only
    rw [if_neg (by rw [List.length_append]; omega), ← ha, List.drop_left]

/-- A head with an argument. -/
theorem headStep_arg {fs : List Frame} (hf : OpenFrame fs) (major n size : Nat) :
    headStep fs ⟨major, some n, size⟩ =
      if major = 2 ∨ major = 3 then some (itemDone fs, n)
      else if major = 4 then some (if n = 0 then itemDone fs else .items n :: fs, 0)
      else if major = 5 then some (if n = 0 then itemDone fs else .items (2 * n) :: fs, 0)
      else if major = 6 then some (.items 1 :: fs, 0)
      else some (itemDone fs, 0) := by
  match fs, hf with
  | .items _ :: _, _ => rfl
  | .until _ _ :: _, _ => rfl

/-- The head of a container of indefinite length. -/
theorem headStep_open {fs : List Frame} (hf : OpenFrame fs) {major : Nat} (hm : major = 4 ∨ major = 5) (size : Nat) :
    headStep fs ⟨major, none, size⟩ = some (.until (decide (major = 5)) false :: fs, 0) := by
  match fs, hf with
  | .items _ :: _, _ => rcases hm with rfl | rfl <;> rfl
  | .until _ _ :: _, _ => rcases hm with rfl | rfl <;> rfl

theorem openFrame_items {n : Nat} {fs : List Frame} : OpenFrame (.items n :: fs) := trivial

mutual
theorem scan_bytes (bits : Fl → BitVec 32) : ∀ (w : Wire) (fs : List Frame) (rest : List Byte), w.Ok → OpenFrame fs →
    cborScan fs (w.bytes bits ++ rest) = (cborScan (itemDone fs) rest).add (w.bytes bits).length
  | .num n, fs, rest, hw, hf => by
    have hw : -2 ^ 64 ≤ n ∧ n < 2 ^ 64 := hw
    rw [Wire.bytes, intBytes]
    split
    · exact scan_step (openFrame_ne hf) rfl (headBytes_length _ _)
        (cborHead_headBytes (major := 0) (by omega) (n := n.toNat) (by omega) rest) (headStep_arg hf _ _ _)
    · exact scan_step (openFrame_ne hf) rfl (headBytes_length _ _)
        (cborHead_headBytes (major := 1) (by omega) (n := (-1 - n).toNat) (by omega) rest) (headStep_arg hf _ _ _)
  | .flt x, fs, rest, _, hf => by
    rw [Wire.bytes]
    refine scan_step (h := ⟨7, some (bits x).toNat, 5⟩) (n := 0) (openFrame_ne hf) rfl ?_ ?_ (headStep_arg hf _ _ _)
    · simp [beBytes_length]
    · exact cborHead_long (major := 7) (info := 26) (k := 4) (by omega) (by omega) (by omega) rfl (bits x).isLt rest
  | .bool b, fs, rest, _, hf => by
    cases b
    · exact scan_step (h := ⟨7, some 20, 1⟩) (n := 0) (openFrame_ne hf) rfl rfl rfl (headStep_arg hf _ _ _)
    · exact scan_step (h := ⟨7, some 21, 1⟩) (n := 0) (openFrame_ne hf) rfl rfl rfl (headStep_arg hf _ _ _)
  | .null, fs, rest, _, hf =>
    scan_step (h := ⟨7, some 22, 1⟩) (n := 0) (openFrame_ne hf) rfl rfl rfl (headStep_arg hf _ _ _)
  | .text s, fs, rest, hw, hf => by
    rw [Wire.bytes]
    refine scan_step (openFrame_ne hf) rfl ?_
        (h := ⟨3, some s.utf8ByteSize, headSize s.utf8ByteSize⟩) ?_ (headStep_arg hf _ _ _)
    · rw [List.length_append, headBytes_length, utf8Bytes_length]
    · rw [List.append_assoc]
      exact cborHead_headBytes (by omega) hw _
  | .arr d l, fs, rest, hw, hf => by
    rw [Wire.bytes]
    obtain ⟨hl, hok⟩ := hw
    cases d with
    | true =>
      have h1 := scan_step (a := headBytes 4 l.length) (r := Wire.bytesAll bits l ++ rest) (openFrame_ne hf) rfl
        (headBytes_length _ _) (cborHead_headBytes (major := 4) (by omega) hl _) (headStep_arg hf _ _ _)
      simp only [openBytes, closeBytes, if_true, List.append_nil, List.append_assoc] at h1 ⊢
      rw [h1]
      have h2 := scan_many bits l fs rest hok
      by_cases hn : l = []
      · subst hn; simp [Wire.bytesAll]
      · have h3 : l.length ≠ 0 := fun h => hn (List.length_eq_zero_iff.mp h)
        rw [if_neg h3, h2 hn, Verdict.add_add, List.length_append]
    | false =>
      have h1 := scan_step (h := ⟨4, none, 1⟩) (n := 0) (a := [BitVec.ofNat 8 (4 * 32 + 31)])
        (r := Wire.bytesAll bits l ++ 0xff :: rest) (openFrame_ne hf) rfl rfl
        (cborHead_open (.inl rfl) _) (headStep_open hf (.inl rfl) 1)
      have h2 := scan_open bits l false false fs rest hok (by simp)
      simp only [openBytes, closeBytes, Bool.false_eq_true, if_false, List.append_assoc, List.cons_append,
        List.nil_append, decide_false, Nat.reduceEqDiff] at h1 h2 ⊢
      rw [h1, h2, Verdict.add_add]
      congr 1
      simp
      omega
  | .map d l, fs, rest, hw, hf => by
    rw [Wire.bytes]
    obtain ⟨hl, heven, hok⟩ := hw
    cases d with
    | true =>
      have h1 := scan_step (a := headBytes 5 (l.length / 2)) (r := Wire.bytesAll bits l ++ rest) (openFrame_ne hf) rfl
        (headBytes_length _ _) (cborHead_headBytes (major := 5) (by omega) (by omega) _) (headStep_arg hf _ _ _)
      simp only [openBytes, closeBytes, if_true, List.append_nil, List.append_assoc] at h1 ⊢
      rw [h1]
      have h2 := scan_many bits l fs rest hok
      by_cases hn : l = []
      · subst hn; simp [Wire.bytesAll]
      · have h5 : l.length ≠ 0 := fun h => hn (List.length_eq_zero_iff.mp h)
        have h3 : 2 * (l.length / 2) = l.length := by omega
        have h4 : l.length / 2 ≠ 0 := by omega
        rw [if_neg h4, h3, h2 hn, Verdict.add_add, List.length_append]
    | false =>
      have h1 := scan_step (h := ⟨5, none, 1⟩) (n := 0) (a := [BitVec.ofNat 8 (5 * 32 + 31)])
        (r := Wire.bytesAll bits l ++ 0xff :: rest) (openFrame_ne hf) rfl rfl
        (cborHead_open (.inr rfl) _) (headStep_open hf (.inr rfl) 1)
      have h2 := scan_open bits l true false fs rest hok (by simp [heven])
      simp only [openBytes, closeBytes, Bool.false_eq_true, if_false, List.append_assoc, List.cons_append,
        List.nil_append, decide_true] at h1 h2 ⊢
      rw [h1, h2, Verdict.add_add]
      congr 1
      simp
      omega
/-- So many items. -/
theorem scan_many (bits : Fl → BitVec 32) : ∀ (l : List Wire) (fs : List Frame) (rest : List Byte),
    Wire.OkAll l → l ≠ [] → cborScan (.items l.length :: fs) (Wire.bytesAll bits l ++ rest) =
      (cborScan (itemDone fs) rest).add (Wire.bytesAll bits l).length
  | [], _, _, _, hn => absurd rfl hn
  | [w], fs, rest, hok, _ => by
    rw [Wire.bytesAll, Wire.bytesAll, List.append_nil, scan_bytes bits w (.items [w].length :: fs) rest hok.1 trivial]
    rfl
  | w :: v :: l, fs, rest, hok, _ => by
    have h1 := scan_many bits (v :: l) fs rest hok.2 (by simp)
    rw [Wire.bytesAll, List.append_assoc, scan_bytes bits w (.items (w :: v :: l).length :: fs) _ hok.1 trivial]
    have h2 : itemDone (.items (w :: v :: l).length :: fs) = .items (v :: l).length :: fs := by
      rw [itemDone, if_neg (by simp)]
      rfl
    rw [h2, h1, Verdict.add_add, List.length_append]
/-- Items up to a break. -/
theorem scan_open (bits : Fl → BitVec 32) : ∀ (l : List Wire) (m o : Bool) (fs : List Frame) (rest : List Byte),
    Wire.OkAll l → (m = true → (l.length + o.toNat) % 2 = 0) →
      cborScan (.until m o :: fs) (Wire.bytesAll bits l ++ 0xff :: rest) =
      (cborScan (itemDone fs) rest).add ((Wire.bytesAll bits l).length + 1)
  | [], m, o, fs, rest, _, hp => by
    have hs : headStep (.until m o :: fs) ⟨7, none, 1⟩ = some (itemDone fs, 0) := by
      cases m <;> cases o <;> simp_all [headStep]
    exact scan_step (h := ⟨7, none, 1⟩) (n := 0) (a := [0xff]) (r := rest) (by simp) rfl rfl rfl hs
  | w :: l, m, o, fs, rest, hok, hp => by
    have h1 := scan_open bits l m (m && !o) fs rest hok.2 (by
      intro hm
      have := hp hm
      subst hm
      cases o <;> simp at this ⊢ <;> omega)
    rw [Wire.bytesAll, List.append_assoc, scan_bytes bits w (.until m o :: fs) _ hok.1 trivial]
    rw [itemDone, h1, Verdict.add_add, List.length_append, Nat.add_assoc]
end

/-- A map that is encoded is a request. -/
theorem bytes_request (bits : Fl → BitVec 32) {d : Bool} {l : List Wire} (h : (Wire.map d l).Ok) :
    IsRequest cbor ((Wire.map d l).bytes bits) := by
  constructor
  · show (match cborHead _ with | .head h => decide (h.major = 5) | _ => false) = true
    rw [Wire.bytes, List.append_assoc]
    cases d with
    | true =>
      rw [openBytes, if_pos rfl, cborHead_headBytes (by omega) (by have := h.1; omega)]
      rfl
    | false => rfl
  · show cborScan [.items 1] _ = _
    have := scan_bytes bits (.map d l) [.items 1] [] h trivial
    rw [List.append_nil] at this
    rw [this]
    show (cborScan [] []).add _ = _
    rw [cborScan, if_pos rfl]
    rfl

/-- It is recognised from its first byte on if it has at most 23 entries or its length is left open. -/
theorem bytes_early (bits : Fl → BitVec 32) {d : Bool} {l : List Wire} (h : d = true → l.length / 2 < 24) :
    EarlyMap cbor ((Wire.map d l).bytes bits) := by
  rw [Wire.bytes, List.append_assoc]
  cases d with
  | true =>
    have := h rfl
    rw [openBytes, if_pos rfl, headBytes, if_pos this, List.cons_append]
    refine cbor_early _ _ (.inl ?_)
    rw [BitVec.toNat_ofNat, Nat.mod_eq_of_lt (by omega)]
    omega
  | false => exact cbor_early _ _ (.inr rfl)

end Verif
