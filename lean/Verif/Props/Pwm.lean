/-
C75: PWM outputs.
-/
import Verif.Spec.Pwm
import Verif.Proofs.Total
import Verif.Proofs.TableSharp
import Verif.Props.Fueling

namespace Verif
open Fl FloatFmt

theorem toU16_fin {q : ℚ} (h0 : 0 ≤ q) (h1 : q < 65536) : ∃ v, toU16 (fin q) = .ok v ∧ (v.toNat : ℤ) = ⌊q⌋ := by
  refine ⟨BitVec.ofInt 16 (truncQ q), ?_, ?_⟩
  · show (if _ then _ else _) = _
    rw [if_pos ⟨by linarith, h1⟩]
  · unfold truncQ
    rw [if_pos h0, BitVec.toNat_ofInt]
    have a : 0 ≤ ⌊q⌋ := Int.floor_nonneg.mpr h0
    have b : ⌊q⌋ < 65536 := Int.floor_lt.mpr (by exact_mod_cast h1)
    omega

theorem toS32_fin {q : ℚ} (h0 : 0 ≤ q) (h1 : q < 65536) : ∃ v, toS32 (fin q) = .ok v ∧ ((v.setWidth 16).toNat : ℤ) = ⌊q⌋ := by
  refine ⟨BitVec.ofInt 32 (truncQ q), ?_, ?_⟩
  · show (if _ then _ else _) = _
    rw [if_pos ⟨by linarith, by linarith⟩]
  · unfold truncQ
    rw [if_pos h0, BitVec.toNat_setWidth, BitVec.toNat_ofInt]
    have a : 0 ≤ ⌊q⌋ := Int.floor_nonneg.mpr h0
    have b : ⌊q⌋ < 65536 := Int.floor_lt.mpr (by exact_mod_cast h1)
    omega

theorem write_at (t : PwmTimer) (o : BitVec 32) (v : BitVec 16) (ch : Fin 4) :
    (t.write o v).cv ch = if o.toNat = ch.val + 1 then v else t.cv ch := rfl

variable [FloatFmt]

/-- The compare value for a duty from 0 to 100. -/
theorem duty_value {x : ℚ} (h0 : 0 ≤ x) (h1 : x ≤ 100) :
    ∃ z, ((fin x / fin 100) * fin 65535 : Fl) = fin z ∧ 0 ≤ z ∧ z ≤ 65535 ∧ |z - x / 100 * 65535| ≤ 1 / 64 ∧ (x = 0 → z = 0) := by
  have one : rnd 1 = fin 1 := by simpa using rnd_nat 1 (by norm_num)
  have top : rnd 65535 = fin 65535 := by simpa using rnd_nat 65535 (by norm_num)
  have hx : 0 ≤ x / 100 ∧ x / 100 ≤ 1 := ⟨by positivity, by rw [div_le_one (by norm_num)]; exact h1⟩
  obtain ⟨y, hy, y0, y1⟩ := rnd_between hx.1 hx.2 rnd_zero one
  obtain ⟨y', hy', he, _⟩ := rnd_err (x := x / 100) (by rw [abs_of_nonneg hx.1]; linarith [hx.2])
  rw [hy] at hy'; cases hy'
  rw [abs_of_nonneg hx.1] at he
  obtain ⟨z, hz, z0, z1⟩ := rnd_between (a := 0) (x := y * 65535) (b := 65535) (by positivity) (by linarith) rnd_zero top
  obtain ⟨z', hz', hf, _⟩ := rnd_err (x := y * 65535) (by rw [abs_of_nonneg (by positivity)]; linarith)
  rw [hz] at hz'; cases hz'
  rw [abs_of_nonneg (by positivity : 0 ≤ y * 65535)] at hf
  refine ⟨z, ?_, z0, z1, ?_, ?_⟩
  · rw [fin_div _ _ (by norm_num), hy, fin_mul, hz]
  · rw [abs_le] at he hf ⊢
    constructor <;> linarith [he.1, he.2, hf.1, hf.2, hx.1, hx.2]
  · intro h
    subst h
    have e : y = 0 := by
      have : rnd (0 / 100 : ℚ) = fin 0 := by rw [zero_div]; exact rnd_zero
      rw [hy] at this; cases this; rfl
    subst e
    have : rnd (0 * 65535 : ℚ) = fin 0 := by rw [zero_mul]; exact rnd_zero
    rw [hz] at this; cases this; rfl

omit [FloatFmt] in
theorem share_floor {x z : ℚ} (h0 : 0 ≤ x) (h1 : x ≤ 100) (z0 : 0 ≤ z) (hz : |z - x / 100 * 65535| ≤ 1 / 64) (h : x = 0 → z = 0) {k : Nat}
    (hk : (k : ℤ) = ⌊z⌋) : Share k x := by
  have a : (k : ℚ) = ⌊z⌋ := by exact_mod_cast congrArg (Int.cast : ℤ → ℚ) hk
  have f1 := Int.floor_le z
  have f2 := Int.lt_floor_add_one z
  rw [abs_le] at hz
  constructor
  · unfold limited
    rw [min_eq_right h1, max_eq_right h0, a, abs_le]
    have e1 : ((⌊z⌋ : ℤ) : ℚ) / 65536 = ⌊z⌋ * (1 / 65536) := by ring
    constructor <;> linarith [hz.1, hz.2]
  · intro hx
    have := h (le_antisymm hx h0)
    subst this
    rw [Int.floor_zero] at hk
    exact_mod_cast hk

/-- The counter, the values in effect and the values written, after some counts and commands. -/
theorem pwm_run {f : PwmTimer → BitVec 32 → Fl → Except Fault PwmTimer} (hf : ∀ t o x t', f t o x = .ok t' → ∃ v, t' = t.write o v)
    (ch : Fin 4) : ∀ (as : List PwmAct) (t u : PwmTimer), pwmRun f t as = .ok u → (∀ o x, PwmAct.set o x ∈ as → o.toNat ≠ ch + 1) →
      u.cv ch = t.cv ch ∧ u.cnt.toNat = (t.cnt.toNat + ticksIn as) % 65536 ∧
      u.act ch = if 65536 ≤ t.cnt.toNat + ticksIn as then t.cv ch else t.act ch := by
  intro as
  induction as with
  | nil =>
      intro t u h _
      cases h
      have := t.cnt.isLt
      refine ⟨rfl, ?_, ?_⟩
      · show _ = (_ + 0) % _; omega
      · rw [if_neg (by show ¬ _ ≤ _ + 0; omega)]
  | cons a as ih =>
      intro t u h hs
      have hs' : ∀ o x, PwmAct.set o x ∈ as → o.toNat ≠ ch + 1 := fun o x hm => hs o x (List.mem_cons_of_mem _ hm)
      cases a with
      | tick =>
          obtain ⟨h1, h2, h3⟩ := ih _ _ h hs'
          have := t.cnt.isLt
          by_cases hc : t.cnt = 65535
          · have e : t.tick = { t with cnt := 0, act := t.cv } := by unfold PwmTimer.tick; rw [if_pos hc]
            rw [e] at h1 h2 h3
            have hn : t.cnt.toNat = 65535 := by rw [hc]; rfl
            refine ⟨h1, ?_, ?_⟩
            · rw [h2, hn]
              show (0 + _) % _ = (65535 + (_ + 1)) % 65536
              omega
            · rw [h3]
              have hp : 65536 ≤ t.cnt.toNat + ticksIn (PwmAct.tick :: as) := by
                rw [hn]; show _ ≤ _ + (_ + 1); omega
              rw [if_pos hp]
              split_ifs <;> rfl
          · have e : t.tick = { t with cnt := t.cnt + 1 } := by unfold PwmTimer.tick; rw [if_neg hc]
            rw [e] at h1 h2 h3
            have hn : (t.cnt + 1).toNat = t.cnt.toNat + 1 := by
              have : t.cnt.toNat ≠ 65535 := fun h => hc (BitVec.eq_of_toNat_eq h)
              rw [BitVec.toNat_add]; show (_ + 1) % 65536 = _; omega
            refine ⟨h1, ?_, ?_⟩
            · rw [h2]
              show ((t.cnt + 1).toNat + _) % _ = (_ + (_ + 1)) % _
              rw [hn]; congr 1; omega
            · rw [h3]
              show (if _ ≤ (t.cnt + 1).toNat + ticksIn as then _ else _) = if _ ≤ _ + (ticksIn as + 1) then _ else _
              rw [hn, show t.cnt.toNat + 1 + ticksIn as = t.cnt.toNat + (ticksIn as + 1) from by omega]
      | set o x =>
          obtain ⟨t', h1, h2⟩ := bind_eq_ok.mp h
          obtain ⟨v, rfl⟩ := hf _ _ _ _ h1
          obtain ⟨g1, g2, g3⟩ := ih _ _ h2 hs'
          have hne := hs o x (List.mem_cons_self ..)
          have e : (t.write o v).cv ch = t.cv ch := by unfold PwmTimer.write; exact if_neg hne
          rw [e] at g1 g3
          exact ⟨g1, g2, g3⟩

/-- A `set_pwm` that writes a compare value with the right share does what C75 asks. -/
theorem obeys_of {f : PwmTimer → BitVec 32 → Fl → Except Fault PwmTimer} (hf : ∀ t o x t', f t o x = .ok t' → ∃ v, t' = t.write o v) {x : ℚ}
    (v : BitVec 16) (hv : ∀ t o, f t o (.fin x) = .ok (t.write o v)) (hs : Share v.toNat x) : PwmObeys f x := by
  intro t ch
  have hch : (BitVec.ofNat 32 (ch + 1)).toNat = ch + 1 := by
    rw [BitVec.toNat_ofNat]; exact Nat.mod_eq_of_lt (by have := ch.isLt; omega)
  refine ⟨_, hv _ _, ?_, v.toNat, hs, ?_⟩
  · intro j hj
    rw [write_at, if_neg]
    rw [hch]
    exact fun e => hj (Fin.ext (by omega))
  · intro as u hu ho
    obtain ⟨_, h2, h3⟩ := pwm_run hf ch as _ _ hu ho
    have e : (t.write (BitVec.ofNat 32 (ch + 1)) v).cv ch = v := by unfold PwmTimer.write; exact if_pos hch
    rw [e] at h3
    refine ⟨?_, ?_, h2⟩
    · intro h
      rw [if_pos h] at h3
      unfold PwmTimer.high
      rw [h3, decide_eq_true_iff]
    · intro h
      rw [if_neg (by omega)] at h3
      unfold PwmTimer.high
      rw [h3, decide_eq_true_iff]
      exact Iff.rfl

theorem gd_writes (t : PwmTimer) (o : BitVec 32) (x : Fl) (t' : PwmTimer) (h : gdSetPwm t o x = .ok t') : ∃ v, t' = t.write o v := by
  obtain ⟨v, _, h2⟩ := bind_eq_ok.mp h
  cases h2
  exact ⟨v, rfl⟩

theorem st_writes (t : PwmTimer) (o : BitVec 32) (x : Fl) (t' : PwmTimer) (h : stSetPwm t o x = .ok t') : ∃ v, t' = t.write o v := by
  obtain ⟨v, _, h2⟩ := bind_eq_ok.mp h
  cases h2
  exact ⟨_, rfl⟩

/-- C75 in full: a command of any number is obeyed. -/
def C75_full (f : PwmTimer → BitVec 32 → Fl → Except Fault PwmTimer) : Prop := ∀ percent : ℚ, PwmObeys f percent

/-- **C75 on the stm32.** -/
theorem C75_stm32 : C75_full stSetPwm := by
  intro x
  have key : ∀ w : ℚ, 0 ≤ w → w ≤ 100 → stLimit (.fin x) = .fin w → limited x = w → (x ≤ 0 → w = 0) → PwmObeys stSetPwm x := by
    intro w w0 w1 hl hw hx
    obtain ⟨z, hz, z0, z1, h2, h3⟩ := duty_value w0 w1
    obtain ⟨v, hv, hk⟩ := toS32_fin z0 (by linarith)
    have hs := share_floor w0 w1 z0 h2 h3 hk
    refine obeys_of st_writes (v.setWidth 16) ?_ ?_
    · intro t o
      unfold stSetPwm
      rw [hl, hz, hv]
      rfl
    · refine ⟨?_, fun h => hs.2 (hx h).le⟩
      have := hs.1
      unfold limited at this
      rw [min_eq_right w1, max_eq_right w0] at this
      rw [hw]
      exact this
  rcases lt_or_ge x 0 with h | h
  · refine key 0 le_rfl (by norm_num) ?_ ?_ fun _ => rfl
    · unfold stLimit; rw [if_pos (by rw [lt_fin]; exact decide_eq_true h)]
    · unfold limited; rw [min_eq_right (by linarith), max_eq_left h.le]
  · rcases lt_or_ge 100 x with h' | h'
    · refine key 100 (by norm_num) le_rfl ?_ ?_ (fun h'' => by linarith)
      · unfold stLimit
        rw [if_neg (by rw [lt_fin, decide_eq_true_iff]; linarith), if_pos (by rw [lt_fin]; exact decide_eq_true h')]
      · unfold limited; rw [min_eq_left h'.le, max_eq_right (by norm_num)]
    · refine key x h h' ?_ ?_ (fun h'' => le_antisymm h'' h)
      · unfold stLimit
        rw [if_neg (by rw [lt_fin, decide_eq_true_iff]; linarith), if_neg (by rw [lt_fin, decide_eq_true_iff]; linarith)]
      · unfold limited; rw [min_eq_right h', max_eq_right h]

/-- **C75 on the gd32, the part that holds**: for duties from 0 to 100. -/
theorem C75_gd32_partial (x : ℚ) (h0 : 0 ≤ x) (h1 : x ≤ 100) : PwmObeys gdSetPwm x := by
  obtain ⟨z, hz, z0, z1, h2, h3⟩ := duty_value h0 h1
  obtain ⟨v, hv, hk⟩ := toU16_fin z0 (by linarith)
  refine obeys_of gd_writes v ?_ (share_floor h0 h1 z0 h2 h3 hk)
  intro t o
  unfold gdSetPwm
  rw [hz, hv]
  rfl

/-- Half on, from power-up. -/
example : ∃ t', gdSetPwm PwmTimer.init 2 (.fin 50) = .ok t' ∧ ∃ k : Nat, |(k : ℚ) / 65536 - 1 / 2| ≤ 3 / 65536 ∧
    ∀ u, pwmRun gdSetPwm t' (List.replicate 65536 .tick) = .ok u → (u.high 1 = true ↔ u.cnt.toNat < k) := by
  obtain ⟨t', h1, _, k, h2, h3⟩ := C75_gd32_partial 50 (by norm_num) (by norm_num) PwmTimer.init 1
  refine ⟨t', h1, k, ?_, ?_⟩
  · have := h2.1
    unfold limited at this
    norm_num at this ⊢
    exact this
  · intro u hu
    have hn : ∀ n, ticksIn (List.replicate n PwmAct.tick) = n := by
      intro n
      induction n with
      | zero => rfl
      | succ n ih => rw [List.replicate_succ]; show _ + 1 = _; rw [ih]
    refine (h3 _ u hu ?_).1 (by rw [hn]; omega)
    intro o x hm
    cases (List.mem_replicate.mp hm).2

/-- C75 fails on the gd32: a duty of 128 is undefined behaviour, in every float format. -/
theorem C75_gd32_full_false : ¬ C75_full gdSetPwm := by
  intro h
  obtain ⟨t', h1, _⟩ := h 128 PwmTimer.init 0
  obtain ⟨v, h2, _⟩ := bind_eq_ok.mp h1
  have a : rnd (5 / 4) = fin (5 / 4) := by
    have := rnd_dyadic 5 (-2) (by norm_num) (by norm_num)
    norm_num at this ⊢
    exact this
  obtain ⟨y, hy, y0, _⟩ := rnd_between (a := 5 / 4) (x := 128 / 100) (b := 2) (by norm_num) (by norm_num) a (by simpa using rnd_nat 2 (by norm_num))
  have b : rnd 70000 = fin 70000 := by simpa using rnd_nat 70000 (by norm_num)
  have hy2 : y ≤ 2 := by assumption
  obtain ⟨z, hz, z0, _⟩ := rnd_between (a := 70000) (x := y * 65535) (b := 262144) (by linarith) (by norm_num; linarith) b
    (by simpa using rnd_nat 262144 (by norm_num))
  rw [fin_div _ _ (by norm_num), hy, fin_mul, hz] at h2
  have h3 : toU16 (fin z) = .error .floatToInt := by
    show (if _ then _ else _) = _
    rw [if_neg (by rintro ⟨_, h⟩; linarith)]
  rw [h3] at h2
  cases h2

/-- A command that is not a number is undefined behaviour on both boards. -/
theorem C75_nan (t : PwmTimer) (o : BitVec 32) :
    gdSetPwm t o .nan = .error .floatToInt ∧ stSetPwm t o .nan = .error .floatToInt := ⟨rfl, rfl⟩

/-- **C75**: more is never less. -/
theorem C75_mono (f : PwmTimer → BitVec 32 → Fl → Except Fault PwmTimer) (hf : f = gdSetPwm ∨ f = stSetPwm) (x y : ℚ) (h0 : 0 ≤ x)
    (h : x ≤ y) (h1 : y ≤ 100) (t a b : PwmTimer) (ch : Fin 4) (ha : f t (BitVec.ofNat 32 (ch + 1)) (.fin x) = .ok a)
    (hb : f t (BitVec.ofNat 32 (ch + 1)) (.fin y) = .ok b) : (a.cv ch).toNat ≤ (b.cv ch).toNat := by
  obtain ⟨z, hz, z0, z1, _⟩ := duty_value h0 (h.trans h1)
  obtain ⟨w, hw, w0, w1, _⟩ := duty_value (h0.trans h) h1
  have hzw : z ≤ w := by
    have e1 := hz
    have e2 := hw
    have one : rnd 1 = fin 1 := by simpa using rnd_nat 1 (by norm_num)
    obtain ⟨p, hp, _, _⟩ := rnd_between (a := 0) (x := x / 100) (b := 1) (by positivity) (by rw [div_le_one (by norm_num)]; linarith) rnd_zero one
    obtain ⟨q, hq, _, _⟩ := rnd_between (a := 0) (x := y / 100) (b := 1) (by have := h0.trans h; positivity)
      (by rw [div_le_one (by norm_num)]; linarith) rnd_zero one
    rw [fin_div _ _ (by norm_num), hp] at e1
    rw [fin_div _ _ (by norm_num), hq] at e2
    have hpq : p ≤ q := rnd_fin_mono (div_le_div_of_nonneg_right h (by norm_num)) hp hq
    exact mulR_mono hpq (by norm_num) e1 e2
  have hch : (BitVec.ofNat 32 (ch + 1)).toNat = ch + 1 := by
    rw [BitVec.toNat_ofNat]; exact Nat.mod_eq_of_lt (by have := ch.isLt; omega)
  have hfl := Int.floor_le_floor hzw
  rcases hf with rfl | rfl
  · obtain ⟨v, hv, hk⟩ := toU16_fin z0 (by linarith)
    obtain ⟨v', hv', hk'⟩ := toU16_fin w0 (by linarith)
    unfold gdSetPwm at ha hb
    rw [hz, hv] at ha
    rw [hw, hv'] at hb
    cases ha; cases hb
    rw [write_at, write_at, if_pos hch, if_pos hch]
    omega
  · obtain ⟨v, hv, hk⟩ := toS32_fin z0 (by linarith)
    obtain ⟨v', hv', hk'⟩ := toS32_fin w0 (by linarith)
    have lim : ∀ r : ℚ, 0 ≤ r → r ≤ 100 → stLimit (.fin r) = .fin r := by
      intro r r0 r1
      unfold stLimit
      rw [if_neg (by rw [lt_fin, decide_eq_true_iff]; linarith), if_neg (by rw [lt_fin, decide_eq_true_iff]; linarith)]
    unfold stSetPwm at ha hb
    rw [lim x h0 (h.trans h1), hz, hv] at ha
    rw [lim y (h0.trans h) h1, hw, hv'] at hb
    cases ha; cases hb
    rw [write_at, write_at, if_pos hch, if_pos hch]
    omega

/-- A command to an output that does not exist does nothing. -/
theorem C75_other (t t' : PwmTimer) (o : BitVec 32) (x : Fl) (ho : o.toNat = 0 ∨ 4 < o.toNat)
    (h : gdSetPwm t o x = .ok t' ∨ stSetPwm t o x = .ok t') : t' = t := by
  have key : ∀ v, t.write o v = t := by
    intro v
    unfold PwmTimer.write
    congr 1
    funext ch
    rw [if_neg (by have := ch.isLt; omega)]
  rcases h with h | h
  · obtain ⟨v, rfl⟩ := gd_writes _ _ _ _ h; exact key v
  · obtain ⟨v, rfl⟩ := st_writes _ _ _ _ h; exact key v

example : gdSetPwm PwmTimer.init 7 (.fin 0) = .ok PwmTimer.init := by
  obtain ⟨z, hz, _, _, _, h0⟩ := duty_value (x := 0) le_rfl (by norm_num)
  obtain ⟨v, hv, _⟩ := toU16_fin (q := z) (by rw [h0 rfl]) (by rw [h0 rfl]; norm_num)
  have : gdSetPwm PwmTimer.init 7 (.fin 0) = .ok (PwmTimer.init.write 7 v) := by unfold gdSetPwm; rw [hz, hv]; rfl
  rw [this]
  congr 1
  exact C75_other _ _ 7 (.fin 0) (.inr (by decide)) (.inl this)

end Verif
