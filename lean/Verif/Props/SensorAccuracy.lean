/-
C107: rounding of sensor readings does not accumulate.
-/
import Verif.Proofs.TableAcc
import Verif.Props.Rate

namespace Verif
open Fl FloatFmt

/-! ### One conversion -/

/-- A point on a line, in a float format. -/
theorem line_near [F : FloatFmt] {a b c f s M : ℚ} (ha : |a| ≤ 2 ^ 60) (hb : |b| ≤ 2 ^ 60) (h1 : a ≤ c) (h2 : c ≤ b)
    (h3 : (2 : ℚ) ^ (-64 : ℤ) ≤ b - a) (hM : M ≤ 2 ^ 60) (f1 : |f| ≤ M) (s1 : |s| ≤ M) :
    ∃ r, (fin f + (fin c - fin a) / (fin b - fin a) * (fin s - fin f) : Fl) = fin r ∧
      |r - ((c - a) / (b - a) * (s - f) + f)| ≤ M / 2 ^ 20 + 1 / 2 ^ 90 ∧ |(c - a) / (b - a) * (s - f) + f| ≤ M := by
  have hcell : (a ≤ c ∧ c ≤ b ∧ (2 : ℚ) ^ (-64 : ℤ) ≤ b - a) ∨ (c = a ∧ (2 : ℚ) ^ (-64 : ℤ) ≤ |b - a|) := Or.inl ⟨h1, h2, h3⟩
  obtain ⟨hne, o0, o1, o2⟩ := exact_weights hcell
  obtain ⟨⟨w, hw, w0, w1⟩, ⟨w', hw', -⟩⟩ := weights ha hb hcell
  obtain ⟨W, -⟩ := weights_near ha hb hcell hw hw'
  clear hcell
  obtain ⟨fa, fb⟩ := abs_le.mp f1
  obtain ⟨sa, sb⟩ := abs_le.mp s1
  have M0 : 0 ≤ M := (abs_nonneg _).trans f1
  have hM' : M ≤ 1152921504606846976 := hM.trans (by norm_num)
  have hD : |s - f| ≤ 2 * M := by rw [abs_le]; constructor <;> linarith
  obtain ⟨d, hd', d1⟩ := rnd_near (q := s - f) (hD.trans (by norm_num; linarith))
  have d2 : |d - (s - f)| ≤ 2 * M / 2 ^ 24 + 1 / 2 ^ 98 := d1.trans (by gcongr)
  have hwd : |w * d| ≤ 2 ^ 100 := by
    rw [abs_mul, abs_of_nonneg w0]
    have := abs_add_le (d - (s - f)) (s - f)
    rw [sub_add_cancel] at this
    refine (mul_le_of_le_one_left (abs_nonneg d) w1).trans ?_
    norm_num at d2 ⊢; linarith
  obtain ⟨p, hp, -⟩ := rnd_near hwd
  rw [← fin_mul] at hp
  have p1 := prod_near w0 w1 W hD d2 (by norm_num; linarith) (by norm_num; linarith) hp
  obtain ⟨ω, hω⟩ : ∃ ω, ω = (c - a) / (b - a) := ⟨_, rfl⟩
  rw [← hω] at p1 o0
  have hcv : |ω * (s - f) + f| ≤ M := by
    rw [← hω] at o2
    have := convex_abs o1 o0 o2 f1 s1
    rw [show (b - c) / (b - a) = 1 - ω by linarith] at this
    rw [show ω * (s - f) + f = (1 - ω) * f + ω * s by ring]
    exact this
  obtain ⟨α, hα⟩ : ∃ α, α = 2 * M / 2 ^ 24 + 1 / 2 ^ 98 + 2 * M * (1 / 2 ^ 22) + (2 * M + (2 * M / 2 ^ 24 + 1 / 2 ^ 98)) / 2 ^ 24 + 1 / 2 ^ 98 :=
    ⟨_, rfl⟩
  rw [← hα] at p1
  have hα1 : α ≤ M * (121 / 10) / 2 ^ 24 + 1 / 2 ^ 96 := by rw [hα]; norm_num; linarith
  have hα0 : 0 ≤ α := (abs_nonneg _).trans p1
  have hpy : |p + f| ≤ 2 ^ 100 := by
    have h1 := abs_add_le (p - ω * (s - f)) (ω * (s - f) + f)
    rw [show p - ω * (s - f) + (ω * (s - f) + f) = p + f by ring] at h1
    norm_num at hα1 ⊢; linarith
  obtain ⟨r, hr, -⟩ := rnd_near hpy
  rw [← fin_add] at hr
  have r1 := sum_near p1 (show |f - f| ≤ 0 by simp) hcv (by norm_num; linarith) (by norm_num at hα1 ⊢; linarith) hr
  refine ⟨r, ?_, ?_, ?_⟩
  · rw [hw, fin_sub, hd', hp, ← hr, fin_add, fin_add, add_comm]
  · rw [← hω]
    refine r1.trans ?_
    norm_num at hα1 ⊢; linarith
  · rw [← hω]; exact hcv

/-- C107: within its calibrated range a linear sensor reads within 2^-20 of the largest value of its
range of the line through its two calibration points, in every float format. -/
theorem C107_linear [FloatFmt] (s : Sensor) (a b lo hi v M : ℚ) (ha : s.rawMin = fin a) (hb : s.rawMax = fin b)
    (hlo : s.rangeMin = fin lo) (hhi : s.rangeMax = fin hi) (hv : s.rawValue = fin v) (ha' : |a| ≤ 2 ^ 60) (hb' : |b| ≤ 2 ^ 60)
    (hgap : (2 : ℚ) ^ (-64 : ℤ) ≤ b - a) (h1 : a ≤ v) (h2 : v ≤ b) (hM : M ≤ 2 ^ 60) (l1 : |lo| ≤ M) (l2 : |hi| ≤ M) :
    ∃ r ρ, convertLinear s = fin r ∧ OnLine a lo b hi v ρ ∧ |ρ| ≤ M ∧ |r - ρ| ≤ M / 2 ^ 20 + 1 / 2 ^ 90 := by
  have hpos : 0 < b - a := lt_of_lt_of_le (by positivity) hgap
  obtain ⟨r, hr, h3, h4⟩ := line_near ha' hb' h1 h2 hgap hM l1 l2
  refine ⟨r, (v - a) / (b - a) * (hi - lo) + lo, ?_, ?_, h4, h3⟩
  · unfold convertLinear
    rw [ha, hb, hlo, hhi, hv]
    simp only [feq_fin, decide_eq_true_iff]
    rw [if_neg (by intro h; linarith), hr]
  · unfold OnLine
    have := hpos.ne'
    field_simp
    ring

/-! ### The lag filter -/

/-- One step of the lag filter: the value `v` is near `V`, the reading `x` near `X`. -/
theorem lag_near [FloatFmt] {s : Sensor} {l v V x X M E δ : ℚ} (hl : s.lag = fin l) (hv : s.value = fin v) (h0 : 0 ≤ l) (h1 : l ≤ 99)
    (hM : M ≤ 2 ^ 60) (hV : |V| ≤ M) (hX : |X| ≤ M) (he : |v - V| ≤ E) (hx : |x - X| ≤ δ) (hE : E = M / 2 ^ 14 + 1 / 2 ^ 80)
    (hδ : δ ≤ M / 2 ^ 20 + 1 / 2 ^ 90) :
    ∃ r, processLag s (fin x) = fin r ∧ |r - (V * (l / 100) + X * (1 - l / 100))| ≤ E ∧ |V * (l / 100) + X * (1 - l / 100)| ≤ M := by
  have M0 : 0 ≤ M := (abs_nonneg _).trans hV
  have hM' : M ≤ 1152921504606846976 := hM.trans (by norm_num)
  have δ0 : 0 ≤ δ := (abs_nonneg _).trans hx
  have δE : δ ≤ E := by rw [hE]; refine hδ.trans ?_; norm_num; linarith
  have E0 : 0 ≤ E := δ0.trans δE
  have hcv : |V * (l / 100) + X * (1 - l / 100)| ≤ M := by
    have := convex_abs (u := l / 100) (v := 1 - l / 100) (by positivity) (by linarith) (by ring) hV hX
    rw [show V * (l / 100) + X * (1 - l / 100) = l / 100 * V + (1 - l / 100) * X by ring]
    exact this
  unfold processLag
  rw [hl, hv]
  simp only [feq_fin, decide_eq_true_iff]
  split_ifs with hz
  · refine ⟨x, rfl, ?_, hcv⟩
    rw [hz]
    norm_num
    linarith
  -- 100 - lag
  obtain ⟨g, hg, g1⟩ := rnd_near (q := 100 - l) (by rw [abs_of_nonneg (by linarith)]; norm_num; linarith)
  rw [abs_of_nonneg (show 0 ≤ 100 - l by linarith)] at g1
  have g2 : |g - (100 - l)| ≤ 101 / 2 ^ 24 := by refine g1.trans ?_; norm_num; linarith
  obtain ⟨g3, g4⟩ := abs_le.mp g2
  have g0 : 0 ≤ g := by norm_num at g3; linarith
  have g5 : g ≤ 101 := by norm_num at g4; linarith
  have v1 : |v| ≤ M + E := by
    have := abs_add_le (v - V) V
    rw [sub_add_cancel] at this
    linarith
  have x1 : |x| ≤ M + δ := by
    have := abs_add_le (x - X) X
    rw [sub_add_cancel] at this
    linarith
  have E1 : E ≤ M + 1 := by rw [hE]; norm_num; linarith
  -- the two products
  have vl : |v * l| ≤ (M + E) * 99 := by
    rw [abs_mul, abs_of_nonneg h0]
    exact mul_le_mul v1 h1 h0 (by linarith)
  have xg : |x * g| ≤ (M + δ) * 101 := by
    rw [abs_mul, abs_of_nonneg g0]
    exact mul_le_mul x1 g5 g0 (by linarith)
  obtain ⟨p, hp, p1⟩ := rnd_near (q := v * l) (vl.trans (by norm_num; linarith))
  obtain ⟨q, hq, q1⟩ := rnd_near (q := x * g) (xg.trans (by norm_num; linarith))
  have p2 : |p - V * l| ≤ E * l + (M + E) * 99 / 2 ^ 24 + 1 / 2 ^ 98 := by
    have e : p - V * l = (p - v * l) + (v - V) * l := by ring
    rw [e]
    refine (abs_add_le _ _).trans ?_
    have a1 : |(v - V) * l| ≤ E * l := by
      rw [abs_mul, abs_of_nonneg h0]
      exact mul_le_mul_of_nonneg_right he h0
    have a2 : |v * l| / 2 ^ 24 ≤ (M + E) * 99 / 2 ^ 24 := by gcongr
    linarith
  have q2 : |q - X * (100 - l)| ≤ δ * (100 - l) + (M + δ) * (101 / 2 ^ 24) + (M + δ) * 101 / 2 ^ 24 + 1 / 2 ^ 98 := by
    have e : q - X * (100 - l) = (q - x * g) + (x * (g - (100 - l)) + (x - X) * (100 - l)) := by ring
    rw [e]
    refine (abs_add_le _ _).trans ?_
    have a0 := abs_add_le (x * (g - (100 - l))) ((x - X) * (100 - l))
    have a1 : |(x - X) * (100 - l)| ≤ δ * (100 - l) := by
      rw [abs_mul, abs_of_nonneg (show 0 ≤ 100 - l by linarith)]
      exact mul_le_mul_of_nonneg_right hx (by linarith)
    have a2 : |x * g| / 2 ^ 24 ≤ (M + δ) * 101 / 2 ^ 24 := by gcongr
    have a3 : |x * (g - (100 - l))| ≤ (M + δ) * (101 / 2 ^ 24) := by
      rw [abs_mul]
      exact mul_le_mul x1 g2 (abs_nonneg _) (by linarith)
    linarith
  have mix : E * l + δ * (100 - l) ≤ 99 * E + δ := by
    have := mul_nonneg (show 0 ≤ 99 - l by linarith) (show 0 ≤ E - δ by linarith)
    linarith
  obtain ⟨T, hT⟩ : ∃ T, T = V * (l / 100) + X * (1 - l / 100) := ⟨_, rfl⟩
  rw [← hT] at hcv
  have hS : V * l + X * (100 - l) = 100 * T := by rw [hT]; ring
  -- the sum
  have s1 : |p + q - 100 * T| ≤ 99 * E + δ + (M + E) * 99 / 2 ^ 24 + (M + δ) * (101 / 2 ^ 24) + (M + δ) * 101 / 2 ^ 24 + 2 / 2 ^ 98 := by
    have e : p + q - 100 * T = (p - V * l) + (q - X * (100 - l)) := by rw [← hS]; ring
    rw [e]
    refine (abs_add_le _ _).trans ?_
    linarith
  obtain ⟨σ, hσ⟩ : ∃ σ, σ = 99 * E + δ + (M + E) * 99 / 2 ^ 24 + (M + δ) * (101 / 2 ^ 24) + (M + δ) * 101 / 2 ^ 24 + 2 / 2 ^ 98 := ⟨_, rfl⟩
  rw [← hσ] at s1
  have hσ1 : σ ≤ 99 * E + δ + (M + E) * 310 / 2 ^ 24 + 2 / 2 ^ 98 := by rw [hσ]; norm_num; linarith
  have pq : |p + q| ≤ 100 * M + σ := by
    have := abs_add_le (p + q - 100 * T) (100 * T)
    rw [sub_add_cancel, abs_mul, abs_of_pos (show (0 : ℚ) < 100 by norm_num)] at this
    linarith
  obtain ⟨z, hz', z1⟩ := rnd_near (q := p + q) (pq.trans (by norm_num at hσ1 ⊢; linarith))
  have z2 : |z - 100 * T| ≤ σ + (100 * M + σ) / 2 ^ 24 + 1 / 2 ^ 98 := by
    have e : z - 100 * T = (z - (p + q)) + (p + q - 100 * T) := by ring
    rw [e]
    refine (abs_add_le _ _).trans ?_
    have : |p + q| / 2 ^ 24 ≤ (100 * M + σ) / 2 ^ 24 := by gcongr
    linarith
  obtain ⟨τ, hτ⟩ : ∃ τ, τ = σ + (100 * M + σ) / 2 ^ 24 + 1 / 2 ^ 98 := ⟨_, rfl⟩
  rw [← hτ] at z2
  -- the division
  have z3 : |z / 100 - T| ≤ τ / 100 := by
    have e : z / 100 - T = (z - 100 * T) / 100 := by ring
    rw [e, abs_div, abs_of_pos (show (0 : ℚ) < 100 by norm_num)]
    gcongr
  have z4 : |z / 100| ≤ M + τ / 100 := by
    have := abs_add_le (z / 100 - T) T
    rw [sub_add_cancel] at this
    linarith
  have hτ1 : τ ≤ 99 * E + δ + (M + E) * 520 / 2 ^ 24 + 4 / 2 ^ 98 := by
    rw [hτ]; norm_num at hσ1 ⊢; linarith
  obtain ⟨r, hr, r1⟩ := rnd_near (q := z / 100) (z4.trans (by norm_num at hτ1 ⊢; linarith))
  refine ⟨r, ?_, ?_, by rw [← hT]; exact hcv⟩
  · rw [fin_sub, hg, fin_mul, fin_mul, hp, hq, fin_add, hz', fin_div _ _ (show (100 : ℚ) ≠ 0 by norm_num), hr]
  · rw [← hT]
    have e : r - T = (r - z / 100) + (z / 100 - T) := by ring
    rw [e]
    refine (abs_add_le _ _).trans ?_
    have : |z / 100| / 2 ^ 24 ≤ (M + τ / 100) / 2 ^ 24 := by gcongr
    have hE2 : M ≤ 2 ^ 14 * E := by rw [hE]; norm_num; linarith
    have hE3 : (1 : ℚ) / 2 ^ 80 ≤ E := by rw [hE]; norm_num; linarith
    have hδ2 : δ ≤ E / 64 + 1 / 2 ^ 90 := by rw [hE]; refine hδ.trans ?_; norm_num; linarith
    norm_num at this hτ1 r1 hE2 hE3 hδ2 ⊢
    linarith

/-! ### Every history of readings -/

/-- One reading: the fault its source reports, the decoder and time at which it is converted, the raw
value and its time. -/
structure Reading where
  fault : SensorFault
  d : Decoder
  now : Time
  raw : Fl
  t : Time

/-- The firmware converts the readings one after another. -/
inductive Converted [FloatFmt] [LibM] (rate : BitVec 32) : Sensor → List Reading → Sensor → Prop
  | nil (s) : Converted rate s [] s
  | cons {s s1 s2 : Sensor} {x : Reading} {xs : List Reading} :
    sensorConvert rate x.d x.now { s with fault := x.fault } x.raw x.t = .ok s1 → Converted rate s1 xs s2 →
    Converted rate s (x :: xs) s2

/-- The readings that are taken as a fault: the source says so, or the raw value is outside the fault limits. -/
def Faulty (s : Sensor) (x : Reading) : Prop :=
  x.fault ≠ .none ∨ (Fl.feq s.faultMax (fin 0) = false ∧ (Fl.lt x.raw s.faultMin = true ∨ Fl.lt s.faultMax x.raw = true))

/-- What the readings stand for in real numbers: a fault sets the fault value; any other reading pulls
the value towards the line through the calibration points by `(100 - lag)` per cent. -/
inductive Ideal (s : Sensor) (a lo b hi lag fv : ℚ) : ℚ → List Reading → ℚ → Prop
  | nil (V) : Ideal s a lo b hi lag fv V [] V
  | fault {V W : ℚ} {x : Reading} {xs : List Reading} : Faulty s x → Ideal s a lo b hi lag fv fv xs W →
    Ideal s a lo b hi lag fv V (x :: xs) W
  | read {V X v W : ℚ} {x : Reading} {xs : List Reading} : ¬ Faulty s x → x.raw = fin v → OnLine a lo b hi v X →
    Ideal s a lo b hi lag fv (lag / 100 * V + (1 - lag / 100) * X) xs W → Ideal s a lo b hi lag fv V (x :: xs) W

theorem faulty_iff (s : Sensor) (x : Reading) :
    detectFaults { s with fault := x.fault, rawValue := x.raw, time := x.t } ≠ .none ↔ Faulty s x := by
  unfold detectFaults Faulty
  by_cases h : x.fault = .none
  · cases h1 : Fl.feq s.faultMax (fin 0) <;> cases h2 : Fl.lt x.raw s.faultMin <;> cases h3 : Fl.lt s.faultMax x.raw <;> simp [*]
  · simp [h]

/-- The settings of a sensor, which conversions do not change. -/
structure SensorSettings (s s' : Sensor) : Prop where
  method : s'.method = s.method
  rawMin : s'.rawMin = s.rawMin
  rawMax : s'.rawMax = s.rawMax
  rangeMin : s'.rangeMin = s.rangeMin
  rangeMax : s'.rangeMax = s.rangeMax
  lag : s'.lag = s.lag
  faultMin : s'.faultMin = s.faultMin
  faultMax : s'.faultMax = s.faultMax
  faultValue : s'.faultValue = s.faultValue

/-- A linear sensor's settings with the numbers of a sensor. -/
structure Calibrated (s : Sensor) (a lo b hi lag fv M : ℚ) : Prop where
  method : s.method = .linear
  rawMin : s.rawMin = fin a
  rawMax : s.rawMax = fin b
  rangeMin : s.rangeMin = fin lo
  rangeMax : s.rangeMax = fin hi
  lagIs : s.lag = fin lag
  faultIs : s.faultValue = fin fv
  aSize : |a| ≤ 2 ^ 60
  bSize : |b| ≤ 2 ^ 60
  gap : (2 : ℚ) ^ (-64 : ℤ) ≤ b - a
  size : M ≤ 2 ^ 60
  loSize : |lo| ≤ M
  hiSize : |hi| ≤ M
  fvSize : |fv| ≤ M
  lag0 : 0 ≤ lag
  lag1 : lag ≤ 99

theorem history_near [FloatFmt] [LibM] {rate : BitVec 32} {s0 : Sensor} {a lo b hi lag fv M : ℚ} (hc : Calibrated s0 a lo b hi lag fv M)
    {s s' : Sensor} {xs : List Reading} (h : Converted rate s xs s') (hs : SensorSettings s0 s) {v V : ℚ} (hv : s.value = fin v)
    (hV : |V| ≤ M) (he : |v - V| ≤ M / 2 ^ 14 + 1 / 2 ^ 80)
    (hx : ∀ x ∈ xs, Faulty s0 x ∨ ∃ q, x.raw = fin q ∧ a ≤ q ∧ q ≤ b) :
    ∃ r ρ, s'.value = fin r ∧ Ideal s0 a lo b hi lag fv V xs ρ ∧ |ρ| ≤ M ∧ |r - ρ| ≤ M / 2 ^ 14 + 1 / 2 ^ 80 := by
  induction h generalizing v V with
  | nil s => exact ⟨v, V, hv, .nil V, hV, he⟩
  | @cons s s1 s2 x xs h1 h2 ih =>
    have M0 : 0 ≤ M := (abs_nonneg _).trans hV
    have hx' : ∀ y ∈ xs, Faulty s0 y ∨ ∃ q, y.raw = fin q ∧ a ≤ q ∧ q ≤ b := fun y hy => hx y (List.mem_cons_of_mem _ hy)
    have hF : Faulty s x ↔ Faulty s0 x := by unfold Faulty; rw [hs.faultMin, hs.faultMax]
    unfold sensorConvert at h1
    simp only at h1
    by_cases hb : Faulty s x
    · rw [if_pos ((faulty_iff s x).mpr hb)] at h1
      have e := (Except.ok.inj h1).symm
      have es : SensorSettings s0 s1 := by rw [e]; exact ⟨hs.1, hs.2, hs.3, hs.4, hs.5, hs.6, hs.7, hs.8, hs.9⟩
      have ev : s1.value = fin fv := by rw [e]; exact hs.faultValue.trans hc.faultIs
      obtain ⟨r, ρ, h3, h4, h5⟩ := ih es ev hc.fvSize (by rw [sub_self, abs_zero]; positivity) hx'
      exact ⟨r, ρ, h3, .fault (hF.mp hb) h4, h5⟩
    · rw [if_neg (fun h => hb ((faulty_iff s x).mp h))] at h1
      obtain ⟨q, hq, q1, q2⟩ := (hx x (List.mem_cons_self ..)).resolve_left (fun h => hb (hF.mpr h))
      unfold convertByMethod at h1
      simp only [hs.method.trans hc.method, except_bind_ok] at h1
      obtain ⟨dv, -, h4⟩ := bind_eq_ok.mp h1
      have e := (Except.ok.inj h4).symm
      obtain ⟨y, X, hy, hX, X1, hyX⟩ := C107_linear { s with fault := x.fault, rawValue := x.raw, time := x.t } a b lo hi q M
        (hs.rawMin.trans hc.rawMin) (hs.rawMax.trans hc.rawMax) (hs.rangeMin.trans hc.rangeMin) (hs.rangeMax.trans hc.rangeMax) hq
        hc.aSize hc.bSize hc.gap q1 q2 hc.size hc.loSize hc.hiSize
      obtain ⟨r', hr', n1, n2⟩ := lag_near (s := { s with fault := x.fault, rawValue := x.raw, time := x.t }) (hs.lag.trans hc.lagIs) hv
        hc.lag0 hc.lag1 hc.size hV X1 he hyX rfl le_rfl
      have es : SensorSettings s0 s1 := by rw [e]; exact ⟨hc.method.symm, hs.2, hs.3, hs.4, hs.5, hs.6, hs.7, hs.8, hs.9⟩
      have ev : s1.value = fin r' := by
        rw [e, ← hr', ← hy]
        simp only [hs.method.trans hc.method]
      have ee : V * (lag / 100) + X * (1 - lag / 100) = lag / 100 * V + (1 - lag / 100) * X := by ring
      obtain ⟨r, ρ, h5, h6, h7⟩ := ih es ev n2 n1 hx'
      rw [ee] at h6
      exact ⟨r, ρ, h5, .read (fun h => hb (hF.mpr h)) hq hX h6, h7⟩

/-- C107: after any number of readings, good ones and faults, a linear sensor's value in every float format
is within 2^-14 of the largest value of its range of what the readings stand for in real numbers. -/
theorem C107_history [FloatFmt] [LibM] {rate : BitVec 32} {s s' : Sensor} {a lo b hi lag fv v M : ℚ} {xs : List Reading}
    (hc : Calibrated s a lo b hi lag fv M) (hv : s.value = fin v) (hV : |v| ≤ M) (h : Converted rate s xs s')
    (hx : ∀ x ∈ xs, Faulty s x ∨ ∃ q, x.raw = fin q ∧ a ≤ q ∧ q ≤ b) :
    ∃ r ρ, s'.value = fin r ∧ Ideal s a lo b hi lag fv v xs ρ ∧ |r - ρ| ≤ M / 2 ^ 14 + 1 / 2 ^ 80 := by
  have M0 : 0 ≤ M := (abs_nonneg _).trans hV
  obtain ⟨r, ρ, h1, h2, -, h3⟩ := history_near hc h ⟨rfl, rfl, rfl, rfl, rfl, rfl, rfl, rfl, rfl⟩ hv hV
    (by rw [sub_self, abs_zero]; positivity) hx
  exact ⟨r, ρ, h1, h2, h3⟩

/-- The ideal value stays between bounds that hold for the range, the fault value and the first value. -/
theorem ideal_between {s : Sensor} {a lo b hi lag fv V ρ L H : ℚ} {xs : List Reading} (h : Ideal s a lo b hi lag fv V xs ρ) (h0 : 0 ≤ lag)
    (h1 : lag ≤ 100) (hab : a < b) (hx : ∀ x ∈ xs, Faulty s x ∨ ∃ q, x.raw = fin q ∧ a ≤ q ∧ q ≤ b) (hlh : lo ≤ hi) (hL : L ≤ lo)
    (hH : hi ≤ H) (hf : L ≤ fv ∧ fv ≤ H) (hV : L ≤ V ∧ V ≤ H) : L ≤ ρ ∧ ρ ≤ H := by
  induction h with
  | nil V => exact hV
  | fault _ _ ih => exact ih (fun y hy => hx y (List.mem_cons_of_mem _ hy)) hf
  | @read V X v W x xs h2 h3 h4 _ ih =>
    refine ih (fun y hy => hx y (List.mem_cons_of_mem _ hy)) ?_
    obtain ⟨q, hq, q1, q2⟩ := (hx x (List.mem_cons_self ..)).resolve_left h2
    have : v = q := by rw [h3] at hq; exact Fl.fin.inj hq
    subst this
    obtain ⟨X1, X2⟩ := (C31_endpoints a lo b hi v X hab.ne h4).2.2 hab hlh q1 q2
    have hw : 0 ≤ lag / 100 := by positivity
    have hw1 : 0 ≤ 1 - lag / 100 := by linarith
    have a1 := mul_le_mul_of_nonneg_left hV.1 hw
    have a2 := mul_le_mul_of_nonneg_left hV.2 hw
    have b1 := mul_le_mul_of_nonneg_left (hL.trans X1) hw1
    have b2 := mul_le_mul_of_nonneg_left (X2.trans hH) hw1
    constructor <;> linarith

/-- C107: and so it leaves the range spanned by its calibration, its fault value and its first value by no
more than that, after any number of readings. -/
theorem C107_range [FloatFmt] [LibM] {rate : BitVec 32} {s s' : Sensor} {a lo b hi lag fv v M L H : ℚ} {xs : List Reading}
    (hc : Calibrated s a lo b hi lag fv M) (hv : s.value = fin v) (hV : |v| ≤ M) (h : Converted rate s xs s')
    (hx : ∀ x ∈ xs, Faulty s x ∨ ∃ q, x.raw = fin q ∧ a ≤ q ∧ q ≤ b) (hlh : lo ≤ hi) (hL : L ≤ lo) (hH : hi ≤ H)
    (hf : L ≤ fv ∧ fv ≤ H) (hV' : L ≤ v ∧ v ≤ H) :
    ∃ r, s'.value = fin r ∧ L - (M / 2 ^ 14 + 1 / 2 ^ 80) ≤ r ∧ r ≤ H + (M / 2 ^ 14 + 1 / 2 ^ 80) := by
  obtain ⟨r, ρ, h1, h2, h3⟩ := C107_history hc hv hV h hx
  have hab : a < b := by
    have : (0 : ℚ) < b - a := lt_of_lt_of_le (by positivity) hc.gap
    linarith
  obtain ⟨i1, i2⟩ := ideal_between h2 hc.lag0 (hc.lag1.trans (by norm_num)) hab hx hlh hL hH hf hV'
  obtain ⟨j1, j2⟩ := abs_le.mp h3
  exact ⟨r, h1, by linarith, by linarith⟩

/-- C107: the rate of change of any good reading at the 5000 readings a second of the boards is within 2^-22 of the difference of the two
values times 5000, whatever the conversion, in every float format. -/
theorem C107_rate [FloatFmt] [LibM] {d : Decoder} {now t : Time} {s s' : Sensor} {raw : Fl} {x y : ℚ}
    (h : sensorConvert 5000 d now s raw t = .ok s') (hf : detectFaults { s with rawValue := raw, time := t } = .none)
    (hx : s.value = .fin x) (hy : s'.value = .fin y) (hxy : |y - x| ≤ 2 ^ 60) :
    ∃ r, s'.derivative = fin r ∧ |r - (y - x) * 5000| ≤ |y - x| * 5000 / 2 ^ 22 + 1 / 2 ^ 70 := by
  unfold sensorConvert at h
  simp only at h
  rw [if_neg (by rw [hf]; decide)] at h
  obtain ⟨⟨w, v⟩, _, h⟩ := bind_eq_ok.mp h
  simp only at h
  obtain ⟨dv, h1, h⟩ := bind_eq_ok.mp h
  cases h
  simp only at hy ⊢
  unfold processDerivative at h1
  rw [if_neg (by decide)] at h1
  have e : timeFromUs (BitVec.ofNat 32 (1000000 / (5000 : BitVec 32).toNat)) = .ok 800 := by
    rw [timeFromUs_eq _ (by decide)]
    rfl
  rw [e] at h1
  cases h1
  rw [hy]
  simp only [hx]
  show ∃ r, (Fl.ofNat tickrate * (Fl.fin y - Fl.fin x) / Fl.ofU32 800 : Fl) = fin r ∧ _
  have e1 : Fl.ofNat tickrate = .fin 4000000 := by
    exact (rnd_nat 4000000 (by norm_num)).trans (by norm_num)
  have e2 : Fl.ofU32 800 = .fin 800 := by
    exact (rnd_nat 800 (by norm_num)).trans (by norm_num)
  obtain ⟨D, hD⟩ : ∃ D, D = y - x := ⟨_, rfl⟩
  rw [e1, e2, fin_sub, ← hD]
  rw [← hD] at hxy
  have A0 := abs_nonneg D
  have hxy' : |D| ≤ 1152921504606846976 := hxy.trans (by norm_num)
  obtain ⟨a, ha, a1⟩ := rnd_near (q := D) (hxy.trans (by norm_num))
  have a2 : |a| ≤ |D| + (|D| / 2 ^ 24 + 1 / 2 ^ 98) := by
    have := abs_add_le (a - D) D
    rw [sub_add_cancel] at this
    linarith
  have a3 : |4000000 * a| ≤ 4000000 * (|D| + (|D| / 2 ^ 24 + 1 / 2 ^ 98)) := by
    rw [abs_mul, abs_of_pos (by norm_num : (0 : ℚ) < 4000000)]
    exact mul_le_mul_of_nonneg_left a2 (by norm_num)
  obtain ⟨b, hb, b1⟩ := rnd_near (q := 4000000 * a) (a3.trans (by norm_num; linarith))
  have b2 : |4000000 * a| / 2 ^ 24 ≤ 4000000 * (|D| + (|D| / 2 ^ 24 + 1 / 2 ^ 98)) / 2 ^ 24 := by gcongr
  have b3 : |b - 4000000 * D| ≤ 4000000 * (|D| * (21 / 10) / 2 ^ 24) + 1 / 2 ^ 74 := by
    have e : b - 4000000 * D = (b - 4000000 * a) + 4000000 * (a - D) := by ring
    rw [e]
    refine (abs_add_le _ _).trans ?_
    rw [abs_mul 4000000 (a - D), abs_of_pos (by norm_num : (0 : ℚ) < 4000000)]
    norm_num at a1 b1 b2 ⊢
    linarith
  have b4 : |b / 800 - D * 5000| ≤ 5000 * (|D| * (21 / 10) / 2 ^ 24) + 1 / 2 ^ 74 / 800 := by
    have e : b / 800 - D * 5000 = (b - 4000000 * D) / 800 := by ring
    rw [e, abs_div, abs_of_pos (by norm_num : (0 : ℚ) < 800), div_le_iff₀ (by norm_num)]
    linarith
  have b5 : |b / 800| ≤ |D| * 5001 + 1 / 2 ^ 74 := by
    have := abs_add_le (b / 800 - D * 5000) (D * 5000)
    rw [sub_add_cancel, abs_mul D, abs_of_pos (by norm_num : (0 : ℚ) < 5000)] at this
    norm_num at b4 ⊢
    linarith
  obtain ⟨r, hr, r1⟩ := rnd_near (q := b / 800) (b5.trans (by norm_num; linarith))
  refine ⟨r, ?_, ?_⟩
  · rw [ha, fin_mul, hb, fin_div _ _ (by norm_num), hr]
  · have e : r - D * 5000 = (r - b / 800) + (b / 800 - D * 5000) := by ring
    rw [e]
    refine (abs_add_le _ _).trans ?_
    have : |b / 800| / 2 ^ 24 ≤ (|D| * 5001 + 1 / 2 ^ 74) / 2 ^ 24 := by gcongr
    norm_num at r1 b4 this ⊢
    linarith

section
attribute [local instance] binary32

/-- A pressure sensor of 20 to 300 kPa over 0.5 V to 4.5 V, with a lag of 30 per cent. -/
def accSensor : Sensor :=
  { pin := 0, source := .adc, method := .linear, rangeMin := fin 20, rangeMax := fin 300, rawMin := fin (1 / 2), rawMax := fin (9 / 2),
    bias := fin 0, thermA := fin 0, thermB := fin 0, thermC := fin 0, lag := fin 30, faultMin := fin (1 / 4), faultMax := fin (19 / 4),
    faultValue := fin 100,
    window := { captureWidth := 0, totalWidth := 0, offset := 0, accumulator := fin 0, samples := 0, collecting := false, startAngle := fin 0 },
    time := 0, rawValue := fin 0, value := fin 100, derivative := fin 0, fault := .none }

/-- A good reading, one outside the fault limits, and another good one. -/
def accReadings : List Reading :=
  [⟨.none, dfltDecoder, 0, fin (3 / 2), 0⟩, ⟨.none, dfltDecoder, 0, fin (39 / 8), 800⟩, ⟨.none, dfltDecoder, 0, fin (13 / 8), 1600⟩]

/-- The library functions do not matter here. -/
@[reducible] def accLib : LibM := ⟨fun x => x, fun x => x⟩

attribute [local instance] accLib

/-- The sensor after the readings. -/
def accAfter1 : Sensor := { accSensor with rawValue := fin (3 / 2), value := fin 93, derivative := fin (-35000) }
def accAfter2 : Sensor := { accAfter1 with rawValue := fin (39 / 8), time := 800, value := fin 100, derivative := fin 0 }
def accAfter3 : Sensor := { accAfter2 with rawValue := fin (13 / 8), time := 1600, value := fin (793 / 8), derivative := fin (-4375) }

/-- The hypotheses are met by them. -/
example : Calibrated accSensor (1 / 2) 20 (9 / 2) 300 30 100 300 ∧ Converted 5000 accSensor accReadings accAfter3 ∧
    (∀ x ∈ accReadings, Faulty accSensor x ∨ ∃ q, x.raw = fin q ∧ 1 / 2 ≤ q ∧ q ≤ 9 / 2) := by
  refine ⟨?_, ?_, ?_⟩
  · constructor <;> first | rfl | decide +kernel
  · exact .cons (s1 := accAfter1) (by decide +kernel) (.cons (s1 := accAfter2) (by decide +kernel)
      (.cons (s1 := accAfter3) (by decide +kernel) (.nil _)))
  · intro x hx
    simp only [accReadings, List.mem_cons, List.not_mem_nil, or_false] at hx
    rcases hx with rfl | rfl | rfl
    · exact Or.inr ⟨_, rfl, by norm_num, by norm_num⟩
    · exact Or.inl (Or.inr (by decide +kernel))
    · exact Or.inr ⟨_, rfl, by norm_num, by norm_num⟩

/-- The hypotheses on the rate of change are met by the first of the readings. -/
example : sensorConvert 5000 dfltDecoder 0 accSensor (fin (3 / 2)) 0 = .ok accAfter1 ∧
    detectFaults { accSensor with rawValue := fin (3 / 2), time := 0 } = .none ∧ accSensor.value = fin 100 ∧ accAfter1.value = fin 93 :=
  ⟨by decide +kernel, by decide +kernel, rfl, rfl⟩

end

end Verif
