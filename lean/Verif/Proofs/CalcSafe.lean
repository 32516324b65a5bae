/-
The calculations stay within their number formats.
-/
import Verif.Proofs.TableSharp
import Verif.Proofs.Total
import Verif.Props.Util
import Verif.Props.Cuts

namespace Verif
open Fl FloatFmt

section
variable [FloatFmt]

/-! ### Intervals -/

/-- `x` is a float. -/
theorem rep {x : ℚ} (m k : ℤ) (hx : x = m * (2 : ℚ) ^ k) (hm : |m| ≤ 2 ^ 24) (hk : |k| ≤ 64) : rnd x = fin x := by
  rw [hx]; exact rnd_dyadic m k hm hk

macro "rp(" m:term "," k:term ")" : term => `(rep $m $k (by norm_num) (by norm_num) (by norm_num))

omit [FloatFmt] in
theorem Within.mono {x : Fl} {a b a' b' : ℚ} (h : Within x a b) (ha : a' ≤ a) (hb : b ≤ b') : Within x a' b' := by
  obtain ⟨q, e, h1, h2⟩ := h
  exact ⟨q, e, by linarith, by linarith⟩

omit [FloatFmt] in
theorem Within.num {x : Fl} {a b : ℚ} (h : Within x a b) : x ≠ nan := by
  obtain ⟨q, e, -⟩ := h
  rw [e]; intro h; cases h

omit [FloatFmt] in
theorem within_fin (q a b : ℚ) (h1 : a ≤ q) (h2 : q ≤ b) : Within (fin q) a b := ⟨q, rfl, h1, h2⟩

theorem within_rnd {x a b : ℚ} (h1 : a ≤ x) (h2 : x ≤ b) (ha : rnd a = fin a) (hb : rnd b = fin b) : Within (rnd x) a b := by
  obtain ⟨y, h, h3, h4⟩ := rnd_between h1 h2 ha hb
  exact ⟨y, h, h3, h4⟩

theorem Within.add {x y : Fl} {a b c d A B : ℚ} (hx : Within x a b) (hy : Within y c d) (hA : rnd A = fin A) (hB : rnd B = fin B)
    (h1 : A ≤ a + c := by norm_num) (h2 : b + d ≤ B := by norm_num) : Within (x + y) A B := by
  obtain ⟨p, rfl, p1, p2⟩ := hx
  obtain ⟨q, rfl, q1, q2⟩ := hy
  rw [fin_add]
  exact within_rnd (by linarith) (by linarith) hA hB

theorem Within.sub {x y : Fl} {a b c d A B : ℚ} (hx : Within x a b) (hy : Within y c d) (hA : rnd A = fin A) (hB : rnd B = fin B)
    (h1 : A ≤ a - d := by norm_num) (h2 : b - c ≤ B := by norm_num) : Within (x - y) A B := by
  obtain ⟨p, rfl, p1, p2⟩ := hx
  obtain ⟨q, rfl, q1, q2⟩ := hy
  rw [fin_sub]
  exact within_rnd (by linarith) (by linarith) hA hB

/-- Products of numbers that are not negative. -/
theorem Within.mul {x y : Fl} {b d B : ℚ} (hx : Within x 0 b) (hy : Within y 0 d) (hB : rnd B = fin B)
    (h2 : b * d ≤ B := by norm_num) : Within (x * y) 0 B := by
  obtain ⟨p, rfl, p1, p2⟩ := hx
  obtain ⟨q, rfl, q1, q2⟩ := hy
  rw [fin_mul]
  exact within_rnd (mul_nonneg p1 q1) (le_trans (mul_le_mul p2 q2 q1 (le_trans p1 p2)) h2) rnd_zero hB

/-- A number of any sign times a positive constant. -/
theorem Within.scale {x : Fl} {a b k A B : ℚ} (hx : Within x a b) (hk : 0 ≤ k) (hA : rnd A = fin A) (hB : rnd B = fin B)
    (h1 : A ≤ a * k := by norm_num) (h2 : b * k ≤ B := by norm_num) : Within (x * fin k) A B := by
  obtain ⟨p, rfl, p1, p2⟩ := hx
  rw [fin_mul]
  exact within_rnd (le_trans h1 (mul_le_mul_of_nonneg_right p1 hk)) (le_trans (mul_le_mul_of_nonneg_right p2 hk) h2) hA hB

/-- A number of any sign divided by a positive constant. -/
theorem Within.over {x : Fl} {a b k A B : ℚ} (hx : Within x a b) (hk : 0 < k) (hA : rnd A = fin A) (hB : rnd B = fin B)
    (h1 : A ≤ a / k := by norm_num) (h2 : b / k ≤ B := by norm_num) : Within (x / fin k) A B := by
  obtain ⟨p, rfl, p1, p2⟩ := hx
  rw [fin_div _ _ hk.ne']
  exact within_rnd (le_trans h1 (div_le_div_of_nonneg_right p1 hk.le)) (le_trans (div_le_div_of_nonneg_right p2 hk.le) h2) hA hB

/-- A quotient of numbers that are not negative. -/
theorem Within.div {x y : Fl} {b c d B : ℚ} (hx : Within x 0 b) (hy : Within y c d) (hc : 0 < c) (hB : rnd B = fin B)
    (h2 : b / c ≤ B := by norm_num) : Within (x / y) 0 B := by
  obtain ⟨p, rfl, p1, p2⟩ := hx
  obtain ⟨q, rfl, q1, q2⟩ := hy
  have hq : 0 < q := lt_of_lt_of_le hc q1
  rw [fin_div _ _ hq.ne']
  exact within_rnd (div_nonneg p1 hq.le) (le_trans (div_le_div₀ (le_trans p1 p2) p2 hc q1) h2) rnd_zero hB

omit [FloatFmt] in
theorem Within.toU32 {x : Fl} {b : ℚ} {n : ℕ} (hx : Within x 0 b) (hb : b ≤ n) (hn : n < 2 ^ 32) :
    ∃ v, Fl.toU32 x = .ok v ∧ v.toNat ≤ n := by
  obtain ⟨q, rfl, q1, q2⟩ := hx
  have hn' : (n : ℚ) < 4294967296 := by exact_mod_cast hn
  obtain ⟨v, hv, he⟩ := toU32_fin q1 (by linarith)
  refine ⟨v, hv, ?_⟩
  have : (v.toNat : ℤ) ≤ n := by
    rw [he]
    have h1 : (⌊q⌋ : ℚ) ≤ q := Int.floor_le q
    have h2 : (⌊q⌋ : ℚ) ≤ ((n : ℤ) : ℚ) := by push_cast; linarith
    exact_mod_cast h2
  exact_mod_cast this

theorem within_u32 (r : BitVec 32) : Within (Fl.ofU32 r) 0 (2 ^ 32) := by
  obtain ⟨y, h, h1, h2⟩ := rnd_u32 r.toNat r.isLt
  exact ⟨y, h, h1, h2⟩

theorem within_u32_pos {r : BitVec 32} (h : 1 ≤ r.toNat) : Within (Fl.ofU32 r) 1 (2 ^ 32) := by
  obtain ⟨y, h, h1, h2⟩ := rnd_u32_pos r.toNat h r.isLt
  exact ⟨y, h, h1, h2⟩

theorem ofInt_num (n : ℤ) : Fl.ofInt n ≠ nan := rnd_ne_nan _

/-- Microseconds to ticks, up to 2^29. -/
theorem timeFromUs_total {us : BitVec 32} (h : us.toNat ≤ 2 ^ 29) : ∃ t, timeFromUs us = .ok t ∧ t.toNat ≤ 2 ^ 31 := by
  have h1 : (us.toNat : ℚ) ≤ 2 ^ 29 := by exact_mod_cast h
  have w : Within (Fl.ofU32 us) 0 (2 ^ 29) := within_rnd (Nat.cast_nonneg _) h1 rnd_zero rp(1, 29)
  have e : (Fl.ofNat tickrate / Fl.fin 1000000 : Fl) = fin 4 := by
    unfold Fl.ofNat tickrate
    rw [rnd_nat 4000000 (by norm_num), fin_div _ _ (by norm_num)]
    have : rnd (4 : ℚ) = fin 4 := rp(4, 0)
    norm_num
    exact this
  unfold timeFromUs
  rw [e]
  exact (w.scale (k := 4) (A := 0) (B := 2 ^ 31) (by norm_num) rnd_zero rp(1, 31)).toU32 (n := 2 ^ 31) (by norm_num) (by norm_num)

/-- Microseconds to ticks, with the bound kept. -/
theorem timeFromUs_total' {us : BitVec 32} (h : us.toNat ≤ 2 ^ 28) : ∃ t, timeFromUs us = .ok t ∧ t.toNat ≤ 2 ^ 30 := by
  have h1 : (us.toNat : ℚ) ≤ 2 ^ 28 := by exact_mod_cast h
  have w : Within (Fl.ofU32 us) 0 (2 ^ 28) := within_rnd (Nat.cast_nonneg _) h1 rnd_zero rp(1, 28)
  have e : (Fl.ofNat tickrate / Fl.fin 1000000 : Fl) = fin 4 := by
    unfold Fl.ofNat tickrate
    rw [rnd_nat 4000000 (by norm_num), fin_div _ _ (by norm_num)]
    have : rnd (4 : ℚ) = fin 4 := rp(4, 0)
    norm_num
    exact this
  unfold timeFromUs
  rw [e]
  exact (w.scale (k := 4) (A := 0) (B := 2 ^ 30) (by norm_num) rnd_zero rp(1, 30)).toU32 (n := 2 ^ 30) (by norm_num) (by norm_num)

/-! ### Lookups -/

theorem lookup1 {t : Table1d} {lo hi A B : ℚ} (ht : TableIn1 t lo hi) {v : Fl} (hv : v ≠ nan) (M : ℚ) (h1 : |lo| ≤ M)
    (h2 : |hi| ≤ M) (h3 : M ≤ 2 ^ 40) (hA : A ≤ lo - (M / 2 ^ 16 + 1 / 2 ^ 50) ∨ (0 ≤ lo ∧ A ≤ 0))
    (hB : hi + (M / 2 ^ 16 + 1 / 2 ^ 50) ≤ B) : ∃ r, interp1 t v = .ok r ∧ Within r A B := by
  obtain ⟨r, hr, r1, r2, r3⟩ := interp1_range ht h1 h2 h3 hv
  refine ⟨_, hr, r, rfl, ?_, by linarith⟩
  rcases hA with hA | hA
  · linarith
  · exact le_trans hA.2 (r3 hA.1)

theorem lookup2 {t : Table2d} {lo hi A B : ℚ} (ht : TableIn2 t lo hi) {v w : Fl} (hv : v ≠ nan) (hw : w ≠ nan) (M : ℚ)
    (h1 : |lo| ≤ M) (h2 : |hi| ≤ M) (h3 : M ≤ 2 ^ 40) (hA : A ≤ lo - (M / 2 ^ 16 + 1 / 2 ^ 50) ∨ (0 ≤ lo ∧ A ≤ 0))
    (hB : hi + (M / 2 ^ 16 + 1 / 2 ^ 50) ≤ B) : ∃ r, interp2 t v w = .ok r ∧ Within r A B := by
  obtain ⟨r, hr, r1, r2, r3⟩ := interp2_range ht h1 h2 h3 hv hw
  refine ⟨_, hr, r, rfl, ?_, by linarith⟩
  rcases hA with hA | hA
  · linarith
  · exact le_trans hA.2 (r3 hA.1)

/-! ### Ignition -/

theorem calculateIgnition_safe {c : Config} (hc : CalcSafe c) (hs : SensorsSafe c.sensors) (hr : 1 ≤ c.decoder.rpm.toNat)
    (v : CalcValues) : ∃ v', calculateIgnition c v = .ok v' ∧ Within v'.timingAdvance (-128) 128 ∧ v'.dwellUs.toNat ≤ 2 ^ 28 := by
  obtain ⟨t, ht, htab⟩ := hc.timing
  obtain ⟨adv, ha, haw⟩ := lookup2 (A := -128) (B := 128) htab (within_u32 c.decoder.rpm).num hs.map.num 100 (by norm_num)
    (by norm_num) (by norm_num) (by left; norm_num) (by norm_num)
  obtain ⟨dw, hd, hdw⟩ : ∃ dw, dwellTime c = .ok dw ∧ dw.toNat ≤ 2 ^ 28 := by
    unfold dwellTime
    cases hk : c.ignition.dwell with
    | fixedDuty =>
        simp only
        obtain ⟨x, hx, hx1⟩ := time_total (q := 45) hr (by norm_num) (by norm_num)
        rw [hx, except_bind_ok]
        refine ⟨_, rfl, ?_⟩
        rw [BitVec.udiv_eq, BitVec.toNat_udiv]
        show x.toNat / 4 ≤ _
        omega
    | fixedTime =>
        simp only
        exact (hc.dwellTime hk).toU32 (n := 2 ^ 28) (by norm_num) (by norm_num)
    | brv =>
        simp only
        obtain ⟨tb, hb, htb⟩ := hc.dwellTable hk
        obtain ⟨ms, hm, hms⟩ := lookup1 (A := 0) (B := 1024) htb hs.brv 1000 (by norm_num) (by norm_num) (by norm_num)
          (by right; norm_num) (by norm_num)
        unfold deref
        rw [hb]
        simp only
        rw [except_bind_ok, hm, except_bind_ok]
        exact (Within.mul (x := Fl.fin 1000) (b := 1000) (within_fin 1000 0 1000 (by norm_num) (by norm_num)) hms (B := 2 ^ 20) rp(1, 20)).toU32
          (n := 2 ^ 28) (by norm_num) (by norm_num)
  unfold calculateIgnition deref
  rw [ht]
  simp only
  rw [except_bind_ok, ha, except_bind_ok, hd, except_bind_ok]
  exact ⟨_, rfl, haw, hdw⟩

/-! ### Fueling -/

theorem look2_safe {t : Option Table2d} {lo hi A B d : ℚ} (ht : ∀ x, t = some x → TableIn2 x lo hi) {v w : Fl} (hv : v ≠ nan)
    (hw : w ≠ nan) (M : ℚ) (h1 : |lo| ≤ M) (h2 : |hi| ≤ M) (h3 : M ≤ 2 ^ 40)
    (hA : A ≤ lo - (M / 2 ^ 16 + 1 / 2 ^ 50) ∨ (0 ≤ lo ∧ A ≤ 0)) (hB : hi + (M / 2 ^ 16 + 1 / 2 ^ 50) ≤ B) (h4 : A ≤ d)
    (h5 : d ≤ B) : ∃ r, look2 t v w (fin d) = .ok r ∧ Within r A B := by
  unfold look2
  cases ht' : t with
  | none => exact ⟨_, rfl, within_fin d A B h4 h5⟩
  | some x => exact lookup2 (ht x ht') hv hw M h1 h2 h3 hA hB

theorem look1_safe {t : Option Table1d} {lo hi A B d : ℚ} (ht : ∀ x, t = some x → TableIn1 x lo hi) {v : Fl} (hv : v ≠ nan)
    (M : ℚ) (h1 : |lo| ≤ M) (h2 : |hi| ≤ M) (h3 : M ≤ 2 ^ 40)
    (hA : A ≤ lo - (M / 2 ^ 16 + 1 / 2 ^ 50) ∨ (0 ≤ lo ∧ A ≤ 0)) (hB : hi + (M / 2 ^ 16 + 1 / 2 ^ 50) ≤ B) (h4 : A ≤ d)
    (h5 : d ≤ B) : ∃ r, look1 t v (fin d) = .ok r ∧ Within r A B := by
  unfold look1
  cases ht' : t with
  | none => exact ⟨_, rfl, within_fin d A B h4 h5⟩
  | some x => exact lookup1 (ht x ht') hv M h1 h2 h3 hA hB

theorem enrichment_safe {c : Config} (hc : CalcSafe c) (hs : SensorsSafe c.sensors) :
    ∃ e, enrichment c = .ok e ∧ Within e 0 4 := by
  obtain ⟨e, he, hew⟩ := look2_safe (A := 0) (B := 4) (d := 1) hc.enrich hs.clt hs.map.num 3 (by norm_num) (by norm_num)
    (by norm_num) (by right; norm_num) (by norm_num) (by norm_num) (by norm_num)
  unfold enrichment
  rw [he, except_bind_ok]
  split_ifs
  · exact ⟨_, rfl, hc.crankAmt⟩
  · exact ⟨_, rfl, hew⟩

theorem airDensity_safe {c : Config} (hc : CalcSafe c) (hs : SensorsSafe c.sensors) :
    Within (airDensity c.fueling (c.sensors sensorIat).value) 0 (1 / 256) := by
  unfold airDensity
  have hk : Within (rnd (27315 / 100)) 273 274 := within_rnd (by norm_num) (by norm_num) rp(273, 0) rp(274, 0)
  simp only
  have h1 := hs.iat.add hk (A := 213) (B := 2048) rp(213, 0) rp(2048, 0)
  have h2 := (hk.mono (a' := 0) (by norm_num) (le_refl _)).div h1 (by norm_num) (B := 2) rp(2, 0)
  exact hc.airDensity.mul h2 rp(1, -8)

theorem fuelDensity_safe {c : Config} (hc : CalcSafe c) (hs : SensorsSafe c.sensors) :
    Within (fuelDensity c.fueling (c.sensors sensorFrt).value) (3 / 8) 4 := by
  unfold fuelDensity
  have h1 := hs.frt.sub (within_fin 15 15 15 (le_refl _) (le_refl _)) (A := -115) (B := 85) rp(-115, 0) rp(85, 0)
  have h2 := h1.scale (k := 950) (by norm_num) (A := -109250) (B := 80750) rp(-109250, 0) rp(80750, 0)
  have h3 := h2.over (k := 1000000) (by norm_num) (A := -1 / 8) (B := 1 / 8) rp(-1, -3) rp(1, -3)
  exact hc.fuelDensity.sub h3 rp(3, -3) rp(4, 0)

theorem airmass_safe {c : Config} (hc : CalcSafe c) (hs : SensorsSafe c.sensors) {ve : Fl} (hv : Within ve 0 256) :
    Within (calcAirmass c.fueling ve (c.sensors sensorMap).value (c.sensors sensorIat).value) 0 60 := by
  unfold calcAirmass
  have h1 := hv.over (k := 100) (by norm_num) (A := 0) (B := 3) rnd_zero rp(3, 0)
  have h2 := hs.map.over (k := 100) (by norm_num) (A := 0) (B := 5) rnd_zero rp(5, 0)
  have h3 := h1.mul h2 (B := 15) rp(15, 0)
  have h4 := h3.mul hc.cylinder (B := 15000) rp(15000, 0)
  exact h4.mul (airDensity_safe hc hs) rp(60, 0)

theorem fuelVolume_safe {c : Config} (hc : CalcSafe c) (hs : SensorsSafe c.sensors) {am la : Fl} (ha : Within am 0 60)
    (hl : Within la (7 / 16) 8) :
    Within (calcFuelVolume c.fueling am (c.sensors sensorFrt).value / la) 0 100 := by
  unfold calcFuelVolume
  have h1 := ha.div hc.stoich (by norm_num) (B := 15) rp(15, 0)
  have h2 := h1.div (fuelDensity_safe hc hs) (by norm_num) (B := 40) rp(40, 0)
  exact h2.div hl (by norm_num) (B := 100) rp(100, 0)

theorem tipin_safe {c : Config} (hc : CalcSafe c) (hs : SensorsSafe c.sensors) (now : Time) {s : Tipin} (ht : TipinSafe s) :
    ∃ a s', calcTipin c now s (c.sensors sensorTps).value (c.sensors sensorTps).derivative c.decoder.rpm = .ok (a, s') ∧
      Within a 0 4096 ∧ TipinSafe s' := by
  unfold calcTipin
  cases ha : c.tipinAmount with
  | none => exact ⟨_, _, rfl, within_fin 0 0 4096 (by norm_num) (by norm_num), ht⟩
  | some amt =>
  cases hd : c.tipinDuration with
  | none => exact ⟨_, _, rfl, within_fin 0 0 4096 (by norm_num) (by norm_num), ht⟩
  | some dur =>
  simp only
  obtain ⟨new, hn, hnw⟩ := lookup2 (A := 0) (B := 4096) (hc.tipinAmount amt ha) hs.tpsRate hs.tps 4000 (by norm_num) (by norm_num)
    (by norm_num) (by right; norm_num) (by norm_num)
  rw [hn, except_bind_ok]
  have he : TipinSafe (tipinExpire now s) := by
    unfold tipinExpire
    split_ifs
    · exact ht
    · exact ht
  suffices h : ∃ s', tipinStart dur now c.decoder.rpm (tipinExpire now s) new = .ok s' ∧ TipinSafe s' by
    obtain ⟨s', h1, h2⟩ := h
    rw [h1, except_bind_ok]
    exact ⟨_, _, rfl, h2, h2⟩
  unfold tipinStart
  split_ifs
  · obtain ⟨ms, hm, hmw⟩ := lookup1 (A := 0) (B := 16384) (hc.tipinDuration dur hd) (ofInt_num c.decoder.rpm.toInt) 10000
      (by norm_num) (by norm_num) (by norm_num) (by right; norm_num) (by norm_num)
    obtain ⟨us, hu, hu1⟩ := (hmw.scale (k := 1000) (A := 0) (B := 2 ^ 24) (by norm_num) rnd_zero rp(1, 24)).toU32 (n := 2 ^ 24) (by norm_num) (by norm_num)
    obtain ⟨len, hl, -⟩ := timeFromUs_total (us := us) (by omega)
    rw [hm, except_bind_ok, hu, except_bind_ok, hl, except_bind_ok]
    exact ⟨_, rfl, hnw⟩
  · exact ⟨_, rfl, he⟩

theorem rawPw_safe {c : Config} (hc : CalcSafe c) {fv ti : Fl} (hf : Within fv 0 100) (ht : Within ti 0 4096) :
    Within (rawPw c.fueling fv ti) 0 (2 ^ 26) := by
  unfold rawPw
  have h1 := ht.over (k := 1000) (by norm_num) (A := 0) (B := 5) rnd_zero rp(5, 0)
  have h2 := hf.add h1 (A := 0) (B := 105) rnd_zero rp(105, 0)
  have h3 := h2.div hc.injector (by norm_num) (B := 1) rp(1, 0)
  have h4 := h3.scale (k := 60000000) (by norm_num) (A := 0) (B := 2 ^ 26) rnd_zero rp(1, 26)
  exact h4.div (within_u32_pos hc.injections) (by norm_num) rp(1, 26)

theorem calculateFueling_safe {c : Config} (hc : CalcSafe c) (hs : SensorsSafe c.sensors) (now : Time) {s : Tipin}
    (ht : TipinSafe s) (v : CalcValues) :
    ∃ v' s', calculateFueling c now s v = .ok (v', s') ∧ v'.fuelingUs.toNat ≤ 2 ^ 28 + 2 ^ 18 ∧ TipinSafe s' ∧
      v'.timingAdvance = v.timingAdvance ∧ v'.dwellUs = v.dwellUs := by
  have hrpm := (within_u32 c.decoder.rpm).num
  obtain ⟨ve, e1, w1⟩ := look2_safe (A := 0) (B := 256) (d := 100) hc.ve hrpm hs.map.num 250 (by norm_num) (by norm_num)
    (by norm_num) (by right; norm_num) (by norm_num) (by norm_num) (by norm_num)
  obtain ⟨la, e2, w2⟩ := look2_safe (A := 7 / 16) (B := 8) (d := 1) hc.lambda hrpm hs.map.num 4 (by norm_num) (by norm_num)
    (by norm_num) (by left; norm_num) (by norm_num) (by norm_num) (by norm_num)
  obtain ⟨idt, e3, w3⟩ := look1_safe (A := 0) (B := 64) (d := 1) hc.deadtime hs.brv 50 (by norm_num) (by norm_num)
    (by norm_num) (by right; norm_num) (by norm_num) (by norm_num) (by norm_num)
  obtain ⟨ete, e4, w4⟩ := enrichment_safe hc hs
  obtain ⟨ti, s', e5, w5, hts⟩ := tipin_safe hc hs now ht
  have w6 := airmass_safe hc hs w1
  have w7 := fuelVolume_safe hc hs w6 w2
  have w8 := rawPw_safe hc w7 w5
  have w9 := w8.over (k := 1000) (by norm_num) (A := 0) (B := 2 ^ 17) rnd_zero rp(1, 17)
  obtain ⟨pwc, e6, w10⟩ := look1_safe (A := 0) (B := 64) (d := 0) hc.pwCorrection w9.num 50 (by norm_num) (by norm_num)
    (by norm_num) (by right; norm_num) (by norm_num) (by norm_num) (by norm_num)
  have w11 := w8.mul w4 (B := 2 ^ 28) rp(1, 28)
  have w12 := w10.scale (k := 1000) (by norm_num) (A := 0) (B := 2 ^ 16) rnd_zero rp(1, 16)
  have w13 := w3.scale (k := 1000) (by norm_num) (A := 0) (B := 2 ^ 16) rnd_zero rp(1, 16)
  have w14 := w11.add w12 (A := 0) (B := 2 ^ 28 + 2 ^ 17) rnd_zero rp(2 ^ 11 + 1, 17)
  have w15 := w14.add w13 (A := 0) (B := 2 ^ 28 + 2 ^ 18) rnd_zero rp(2 ^ 10 + 1, 18)
  obtain ⟨us, e7, hus⟩ := w15.toU32 (n := 2 ^ 28 + 2 ^ 18) (by norm_num) (by norm_num)
  unfold calculateFueling
  simp only
  rw [e1, except_bind_ok, e2, except_bind_ok, e3, except_bind_ok, e4, except_bind_ok, e5, except_bind_ok]
  simp only
  rw [e6, except_bind_ok, e7, except_bind_ok]
  exact ⟨_, _, rfl, hus, hts, rfl, rfl⟩

end

end Verif
