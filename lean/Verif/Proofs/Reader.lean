/-
Reading an encoding gives what was encoded.
-/
import Verif.Spec.Reader
import Verif.Proofs.Wire

namespace Verif

theorem beNat_append (a b : List Byte) : beNat (a ++ b) = beNat a * 256 ^ b.length + beNat b := by
  have key : ∀ (b : List Byte) (x : Nat),
      b.foldl (fun a b => a * 256 + b.toNat) x = x * 256 ^ b.length + b.foldl (fun a b => a * 256 + b.toNat) 0 := by
    intro b
    induction b with
    | nil => simp
    | cons c b ih =>
      intro x
      simp only [List.foldl_cons, List.length_cons]
      rw [ih (x * 256 + c.toNat), ih (0 * 256 + c.toNat)]
      ring
  unfold beNat
  rw [List.foldl_append, key b]

theorem beNat_beBytes (k n : Nat) (h : n < 256 ^ k) : beNat (beBytes k n) = n := by
  induction k generalizing n with
  | zero => simp at h; subst h; rfl
  | succ k ih =>
    rw [beBytes, beNat_append, ih (n / 256) (by rw [Nat.div_lt_iff_lt_mul (by norm_num)]; rwa [pow_succ] at h)]
    simp [beNat]
    omega

theorem cborHead_long {major n info k : Nat} (hm : major < 8) (h1 : 24 ≤ info) (h2 : info < 28) (hk : k = 2 ^ (info - 24))
    (hn' : n < 256 ^ k) (rest : List Byte) :
    cborHead (BitVec.ofNat 8 (major * 32 + info) :: beBytes k n ++ rest) = .head ⟨major, some n, 1 + k⟩ := by
  have hb : (BitVec.ofNat 8 (major * 32 + info)).toNat = major * 32 + info := by
    rw [BitVec.toNat_ofNat, Nat.mod_eq_of_lt]
    omega
  rw [List.cons_append]
  unfold cborHead
  dsimp only
  rw [hb]
  have e1 : (major * 32 + info) / 32 = major := by omega
  have e2 : (major * 32 + info) % 32 = info := by omega
  rw [e1, e2, if_neg (by omega), if_pos (by omega), ← hk, if_neg (by simp [beBytes_length])]
  have e3 : (beBytes k n ++ rest).take k = beBytes k n := by
    rw [List.take_append_of_le_length (by rw [beBytes_length]), List.take_of_length_le (by rw [beBytes_length])]
  rw [e3, beNat_beBytes k n hn']

theorem cborHead_headBytes {major n : Nat} (hm : major < 8) (hn : n < 2 ^ 64) (rest : List Byte) :
    cborHead (headBytes major n ++ rest) = .head ⟨major, some n, headSize n⟩ := by
  unfold headBytes headSize
  split
  · rename_i h
    have hb : (BitVec.ofNat 8 (major * 32 + n)).toNat = major * 32 + n := by
      rw [BitVec.toNat_ofNat, Nat.mod_eq_of_lt]
      omega
    show cborHead (BitVec.ofNat 8 (major * 32 + n) :: rest) = _
    unfold cborHead
    dsimp only
    rw [hb]
    have e1 : (major * 32 + n) / 32 = major := by omega
    have e2 : (major * 32 + n) % 32 = n := by omega
    rw [e1, e2, if_pos h]
  · split
    · exact cborHead_long (info := 24) (k := 1) hm (by omega) (by omega) rfl (by norm_num at *; omega) rest
    · split
      · exact cborHead_long (info := 25) (k := 2) hm (by omega) (by omega) rfl (by norm_num at *; omega) rest
      · split
        · exact cborHead_long (info := 26) (k := 4) hm (by omega) (by omega) rfl (by norm_num at *; omega) rest
        · exact cborHead_long (info := 27) (k := 8) hm (by omega) (by omega) rfl (by norm_num at *; omega) rest

/-- The head of a container of indefinite length. -/
theorem cborHead_open {major : Nat} (hm : major = 4 ∨ major = 5) (rest : List Byte) :
    cborHead (BitVec.ofNat 8 (major * 32 + 31) :: rest) = .head ⟨major, none, 1⟩ := by
  rcases hm with rfl | rfl <;> rfl

theorem drop_head (major n : Nat) (rest : List Byte) : (headBytes major n ++ rest).drop (headSize n) = rest := by
  rw [← headBytes_length major n, List.drop_left]

theorem readText_utf8 (s : String) : readText (utf8Bytes s) = some s := by
  unfold readText utf8Bytes
  have : (⟨((s.toByteArray.data.toList.map UInt8.toBitVec).map UInt8.ofBitVec).toArray⟩ : ByteArray) = s.toByteArray := by
    have h : UInt8.ofBitVec ∘ UInt8.toBitVec = id := rfl
    rw [List.map_map, h, List.map_id]
  rw [this]
  unfold String.fromUTF8?
  split
  · rfl
  · rename_i h
    exact absurd s.isValidUTF8 h

mutual
/-- Steps that reading takes. -/
def Wire.steps : Wire → Nat
  | .arr _ l => 1 + Wire.stepsAll l
  | .map _ l => 1 + Wire.stepsAll l
  | _ => 1
def Wire.stepsAll : List Wire → Nat
  | [] => 1
  | w :: ws => 1 + Wire.steps w + Wire.stepsAll ws
end

/-- An encoding starts with a byte that is not a break. -/
theorem bytes_cons (bits : Fl → BitVec 32) (w : Wire) : ∃ b l, w.bytes bits = b :: l ∧ b ≠ 0xff := by
  have key : ∀ major n, major < 7 → ∃ b l, headBytes major n = b :: l ∧ b ≠ 0xff := by
    intro major n hm
    have hb : ∀ i, i < 31 → BitVec.ofNat 8 (major * 32 + i) ≠ 0xff := by
      intro i hi h
      have h := congrArg BitVec.toNat h
      rw [BitVec.toNat_ofNat, Nat.mod_eq_of_lt (by omega)] at h
      simp at h
      omega
    unfold headBytes
    split
    · exact ⟨_, _, rfl, hb _ (by omega)⟩
    repeat' split
    all_goals exact ⟨_, _, rfl, hb _ (by omega)⟩
  have key2 : ∀ major d n, major = 4 ∨ major = 5 → ∃ b l, openBytes major d n = b :: l ∧ b ≠ 0xff := by
    intro major d n hm
    unfold openBytes
    split
    · exact key major n (by omega)
    · rcases hm with rfl | rfl
      · exact ⟨_, _, rfl, by decide⟩
      · exact ⟨_, _, rfl, by decide⟩
  cases w with
  | num n =>
    rw [Wire.bytes, intBytes]
    split
    · exact key 0 _ (by omega)
    · exact key 1 _ (by omega)
  | flt x => exact ⟨_, _, rfl, by decide⟩
  | bool b => cases b <;> exact ⟨_, _, rfl, by decide⟩
  | null => exact ⟨_, _, rfl, by decide⟩
  | text s =>
    obtain ⟨b, l, h, hb⟩ := key 3 s.utf8ByteSize (by omega)
    exact ⟨b, _, by rw [Wire.bytes, h, List.cons_append], hb⟩
  | arr d l =>
    obtain ⟨b, l', h, hb⟩ := key2 4 d l.length (.inl rfl)
    exact ⟨b, _, by rw [Wire.bytes, h, List.append_assoc, List.cons_append], hb⟩
  | map d l =>
    obtain ⟨b, l', h, hb⟩ := key2 5 d (l.length / 2) (.inr rfl)
    exact ⟨b, _, by rw [Wire.bytes, h, List.append_assoc, List.cons_append], hb⟩

theorem headSize_pos (n : Nat) : 0 < headSize n := by
  unfold headSize
  repeat' split
  all_goals omega

section
variable {bits : Fl → BitVec 32} {unbits : BitVec 32 → Fl}

mutual
theorem readItem_bytes : ∀ (w : Wire) (f : Nat) (rest : List Byte), w.Ok → w.steps ≤ f →
    readItem unbits f (w.bytes bits ++ rest) = some (w.seen fun x => unbits (bits x), rest)
  | .num n, f, rest, hw, hf => by
    obtain ⟨f, rfl⟩ : ∃ g, f = g + 1 := ⟨f - 1, by simp [Wire.steps] at hf; omega⟩
    rw [Wire.bytes, intBytes]
    have hw : -2 ^ 64 ≤ n ∧ n < 2 ^ 64 := hw
    split
    · rw [readItem, cborHead_headBytes (by omega) (by omega)]
      dsimp only
      rw [drop_head]
      show some (Wire.num ((n.toNat : Nat) : Int), rest) = _
      rw [show ((n.toNat : Nat) : Int) = n by omega]
      rfl
    · rw [readItem, cborHead_headBytes (by omega) (by omega)]
      dsimp only
      rw [drop_head]
      show some (Wire.num (-1 - (((-1 - n).toNat : Nat) : Int)), rest) = _
      rw [show -1 - (((-1 - n).toNat : Nat) : Int) = n by omega]
      rfl
  | .flt x, f, rest, hw, hf => by
    obtain ⟨f, rfl⟩ : ∃ g, f = g + 1 := ⟨f - 1, by simp [Wire.steps] at hf; omega⟩
    have e : (Wire.flt x).bytes bits ++ rest = BitVec.ofNat 8 (7 * 32 + 26) :: beBytes 4 (bits x).toNat ++ rest := rfl
    rw [e, readItem, cborHead_long (info := 26) (k := 4) (by omega) (by omega) (by omega) rfl (by have := (bits x).isLt; norm_num; omega)]
    dsimp only
    have e2 : (BitVec.ofNat 8 (7 * 32 + 26) :: beBytes 4 (bits x).toNat ++ rest).drop (1 + 4) = rest := by
      rw [show 1 + 4 = (BitVec.ofNat 8 (7 * 32 + 26) :: beBytes 4 (bits x).toNat).length by simp [beBytes_length],
        List.drop_left]
    rw [e2]
    show some (Wire.flt (unbits (BitVec.ofNat 32 (bits x).toNat)), rest) = _
    rw [BitVec.ofNat_toNat, BitVec.setWidth_eq]
    rfl
  | .bool b, f, rest, hw, hf => by
    obtain ⟨f, rfl⟩ : ∃ g, f = g + 1 := ⟨f - 1, by simp [Wire.steps] at hf; omega⟩
    cases b <;> rfl
  | .null, f, rest, hw, hf => by
    obtain ⟨f, rfl⟩ : ∃ g, f = g + 1 := ⟨f - 1, by simp [Wire.steps] at hf; omega⟩
    rfl
  | .text s, f, rest, hw, hf => by
    obtain ⟨f, rfl⟩ : ∃ g, f = g + 1 := ⟨f - 1, by simp [Wire.steps] at hf; omega⟩
    rw [Wire.bytes, List.append_assoc, readItem, cborHead_headBytes (by omega) hw]
    dsimp only
    rw [drop_head]
    show (if (utf8Bytes s ++ rest).length < s.utf8ByteSize then none
      else (readText ((utf8Bytes s ++ rest).take s.utf8ByteSize)).map fun t =>
        (Wire.text t, (utf8Bytes s ++ rest).drop s.utf8ByteSize)) = _
    rw [if_neg (by simp [utf8Bytes_length]), ← utf8Bytes_length s, List.take_left, List.drop_left, readText_utf8]
    rfl
  | .arr d l, f, rest, hw, hf => by
    obtain ⟨f, rfl⟩ : ∃ g, f = g + 1 := ⟨f - 1, by simp [Wire.steps] at hf; omega⟩
    have hf' : Wire.stepsAll l ≤ f := by simp [Wire.steps] at hf; omega
    obtain ⟨h1, h2⟩ : l.length < 2 ^ 64 ∧ Wire.OkAll l := hw
    cases d with
    | true =>
      rw [Wire.bytes, openBytes, closeBytes, if_pos rfl, if_pos rfl, List.append_nil, List.append_assoc, readItem,
        cborHead_headBytes (by omega) h1]
      dsimp only
      rw [drop_head]
      show (readMany unbits f l.length _).map _ = _
      rw [readMany_bytes l f rest h2 hf']
      rfl
    | false =>
      have e : (Wire.arr false l).bytes bits ++ rest =
          BitVec.ofNat 8 (4 * 32 + 31) :: (Wire.bytesAll bits l ++ 0xff :: rest) := by
        simp [Wire.bytes, openBytes, closeBytes]
      rw [e, readItem, cborHead_open (.inl rfl)]
      dsimp only
      rw [List.drop_one, List.tail_cons]
      show (readOpen unbits f _).map _ = _
      rw [readOpen_bytes l f rest h2 hf']
      rfl
  | .map d l, f, rest, hw, hf => by
    obtain ⟨f, rfl⟩ : ∃ g, f = g + 1 := ⟨f - 1, by simp [Wire.steps] at hf; omega⟩
    have hf' : Wire.stepsAll l ≤ f := by simp [Wire.steps] at hf; omega
    obtain ⟨h1, h3, h2⟩ : l.length < 2 ^ 64 ∧ l.length % 2 = 0 ∧ Wire.OkAll l := hw
    cases d with
    | true =>
      rw [Wire.bytes, openBytes, closeBytes, if_pos rfl, if_pos rfl, List.append_nil, List.append_assoc, readItem,
        cborHead_headBytes (by omega) (by omega)]
      dsimp only
      rw [drop_head]
      show (readMany unbits f (2 * (l.length / 2)) _).map _ = _
      rw [show 2 * (l.length / 2) = l.length by omega, readMany_bytes l f rest h2 hf']
      rfl
    | false =>
      have e : (Wire.map false l).bytes bits ++ rest =
          BitVec.ofNat 8 (5 * 32 + 31) :: (Wire.bytesAll bits l ++ 0xff :: rest) := by
        simp [Wire.bytes, openBytes, closeBytes]
      rw [e, readItem, cborHead_open (.inr rfl)]
      dsimp only
      rw [List.drop_one, List.tail_cons]
      show (readOpen unbits f _).map _ = _
      rw [readOpen_bytes l f rest h2 hf']
      rfl
theorem readMany_bytes : ∀ (l : List Wire) (f : Nat) (rest : List Byte), Wire.OkAll l → Wire.stepsAll l ≤ f →
    readMany unbits f l.length (Wire.bytesAll bits l ++ rest) = some (Wire.seenAll (fun x => unbits (bits x)) l, rest)
  | [], f, rest, _, hf => by
    obtain ⟨f, rfl⟩ : ∃ g, f = g + 1 := ⟨f - 1, by simp [Wire.stepsAll] at hf; omega⟩
    rfl
  | w :: l, f, rest, hw, hf => by
    obtain ⟨f, rfl⟩ : ∃ g, f = g + 1 := ⟨f - 1, by simp [Wire.stepsAll] at hf; omega⟩
    have hf' : Wire.steps w ≤ f ∧ Wire.stepsAll l ≤ f := by simp [Wire.stepsAll] at hf; omega
    rw [Wire.bytesAll, List.append_assoc, List.length_cons, readMany, readItem_bytes w f _ hw.1 hf'.1]
    dsimp only
    rw [readMany_bytes l f rest hw.2 hf'.2]
    rfl
theorem readOpen_bytes : ∀ (l : List Wire) (f : Nat) (rest : List Byte), Wire.OkAll l → Wire.stepsAll l ≤ f →
    readOpen unbits f (Wire.bytesAll bits l ++ 0xff :: rest) = some (Wire.seenAll (fun x => unbits (bits x)) l, rest)
  | [], f, rest, _, hf => by
    obtain ⟨f, rfl⟩ : ∃ g, f = g + 1 := ⟨f - 1, by simp [Wire.stepsAll] at hf; omega⟩
    rfl
  | w :: l, f, rest, hw, hf => by
    obtain ⟨f, rfl⟩ : ∃ g, f = g + 1 := ⟨f - 1, by simp [Wire.stepsAll] at hf; omega⟩
    have hf' : Wire.steps w ≤ f ∧ Wire.stepsAll l ≤ f := by simp [Wire.stepsAll] at hf; omega
    have h1 := readItem_bytes w f (Wire.bytesAll bits l ++ 0xff :: rest) hw.1 hf'.1
    obtain ⟨b, t, h2, h3⟩ := bytes_cons bits w
    rw [Wire.bytesAll, List.append_assoc]
    rw [h2, List.cons_append] at h1 ⊢
    rw [readOpen, if_neg h3, h1]
    dsimp only
    rw [readOpen_bytes l f rest hw.2 hf'.2]
    rfl
end

mutual
theorem steps_size : ∀ w : Wire, w.steps + 1 ≤ 3 * w.size
  | .num n => by simp only [Wire.steps, Wire.size]; have := headSize_pos (if 0 ≤ n then n.toNat else (-1 - n).toNat); omega
  | .flt _ => by simp [Wire.steps, Wire.size]
  | .bool _ => by simp [Wire.steps, Wire.size]
  | .null => by simp [Wire.steps, Wire.size]
  | .text s => by simp only [Wire.steps, Wire.size]; have := headSize_pos s.utf8ByteSize; omega
  | .arr d l => by
    have := headSize_pos l.length
    have := stepsAll_size l
    cases d <;> simp [Wire.steps, Wire.size] <;> omega
  | .map d l => by
    have := headSize_pos (l.length / 2)
    have := stepsAll_size l
    cases d <;> simp [Wire.steps, Wire.size] <;> omega
theorem stepsAll_size : ∀ l : List Wire, Wire.stepsAll l ≤ 3 * Wire.sizes l + 1
  | [] => by simp [Wire.stepsAll, Wire.sizes]
  | w :: l => by
    have := steps_size w
    have := stepsAll_size l
    simp [Wire.stepsAll, Wire.sizes]
    omega
end

theorem readStream_bytes : ∀ (l : List Wire) (f : Nat), Wire.OkAll l → l.length ≤ f →
    readStream unbits f (Wire.bytesAll bits l) = some (Wire.seenAll (fun x => unbits (bits x)) l)
  | [], f, _, _ => by cases f <;> rfl
  | w :: l, f, hw, hf => by
    obtain ⟨f, rfl⟩ : ∃ g, f = g + 1 := ⟨f - 1, by simp at hf; omega⟩
    have h1 := readItem_bytes (bits := bits) (unbits := unbits) w (3 * (Wire.bytesAll bits (w :: l)).length) (Wire.bytesAll bits l) hw.1 (by
      have := steps_size w
      rw [wire_sizes, Wire.sizes]
      omega)
    obtain ⟨b, t, h2, h3⟩ := bytes_cons bits w
    have h4 : Wire.bytesAll bits (w :: l) = b :: (t ++ Wire.bytesAll bits l) := by
      rw [Wire.bytesAll, h2, List.cons_append]
    rw [← Wire.bytesAll, h4] at h1
    rw [h4, readStream, h1]
    · dsimp only
      rw [readStream_bytes l f hw.2 (by simp at hf; omega)]
      rfl
    · simp

/-- A client that reads the encodings of any messages gets the messages. -/
theorem readAll_bytes {l : List Wire} (hl : Wire.OkAll l) : 
    readAll unbits (Wire.bytesAll bits l) = some (Wire.seenAll (fun x => unbits (bits x)) l) := by
  refine readStream_bytes l _ hl ?_
  rw [wire_sizes]
  clear hl
  induction l with
  | nil => simp
  | cons w l ih =>
    have := steps_size w
    simp [Wire.sizes]
    omega

end
end Verif
