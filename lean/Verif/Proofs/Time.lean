import Verif.Model.Util
import Verif.Spec.Time

namespace Verif

theorem stamp_sub (a b : Int) : stamp a - stamp b = stamp (a - b) := by
  unfold stamp
  apply BitVec.eq_of_toNat_eq
  rw [BitVec.toNat_sub]
  simp only [BitVec.toNat_ofInt]
  omega

theorem stamp_add (a b : Int) : stamp a + stamp b = stamp (a + b) := by
  unfold stamp; rw [BitVec.ofInt_add]

theorem stamp_toInt {d : Int} (h : |d| < 2 ^ 31) : (stamp d).toInt = d := by
  rw [abs_lt] at h
  unfold stamp
  rw [BitVec.toInt_ofInt, Int.bmod_eq_of_le] <;> omega

theorem stamp_toNat {d : Int} (h0 : 0 ≤ d) (h : d < 2 ^ 32) : ((stamp d).toNat : Int) = d := by
  unfold stamp
  rw [BitVec.toNat_ofInt]
  omega

theorem stamp_toNat_mod (d : Int) : ((stamp d).toNat : Int) = d % 2 ^ 32 := by
  unfold stamp
  rw [BitVec.toNat_ofInt]
  omega

theorem stamp_surj (t : BitVec 32) : stamp (t.toNat : Int) = t := by
  unfold stamp; simp

theorem stamp_eq_iff (a b : Int) : stamp a = stamp b ↔ a % 2 ^ 32 = b % 2 ^ 32 := by
  constructor
  · intro h
    rw [← stamp_toNat_mod, ← stamp_toNat_mod, h]
  · intro h
    apply BitVec.eq_of_toNat_eq
    have := stamp_toNat_mod a
    have := stamp_toNat_mod b
    omega

theorem stamp_inj {a b : Int} (h : |a - b| < 2 ^ 32) (e : stamp a = stamp b) : a = b := by
  rw [stamp_eq_iff] at e
  rw [abs_lt] at h
  omega

end Verif
