/-
The cycles of a turning crank.
-/
import Verif.Proofs.BeatAim

namespace Verif

theorem turning_lt {θ : ℤ → ℚ} {g : ℚ} {p q : ℤ} (hT : Turning θ g p q) (hg : 0 < g) (hq : 0 < q) {t t' : ℤ} (h : θ t < θ t') : t < t' := by
  by_contra hc
  obtain ⟨-, h2⟩ := hT t' t (not_lt.mp hc)
  have hq' : (0 : ℚ) < q := by exact_mod_cast hq
  have h3 : ((t' : ℤ) : ℚ) ≤ t := by exact_mod_cast not_lt.mp hc
  have h4 : 0 ≤ g * ((t : ℚ) - t') := mul_nonneg hg.le (by linarith)
  nlinarith

theorem turning_le {θ : ℤ → ℚ} {g : ℚ} {p q : ℤ} (hT : Turning θ g p q) (hg : 0 < g) (hq : 0 < q) {t t' : ℤ} (h : t ≤ t') : θ t ≤ θ t' := by
  by_contra hc
  have := turning_lt hT hg hq (not_le.mp hc)
  omega

/-- How far apart the sparks of the same and of successive cycles are, in ticks. -/
def sparkJit (ε g : ℚ) (q : ℤ) : ℤ := ⌊2 * ε * q / g⌋
def sparkGap (ε g : ℚ) (p : ℤ) : ℤ := ⌈p * (720 - 2 * ε) / g⌉
def sparkTop (ε g : ℚ) (p q : ℤ) : ℤ := max (sparkGap ε g p) ⌊q * (720 + 2 * ε) / g⌋

theorem angle_beats {θ : ℤ → ℚ} {G ε g : ℚ} {p q : ℤ} (hT : Turning θ g p q) (hg : 0 < g) (hp : 0 < p) (hq : 0 < q) (e0 : 0 ≤ ε) (e1 : ε ≤ 20)
    (hp' : (p : ℚ) ≤ 12000 * g) (hq' : (q : ℚ) ≤ 16000 * g) : Beats (AtAngle θ G ε) (sparkJit ε g q) (sparkGap ε g p) (sparkTop ε g p q) := by
  have hp0 : (0 : ℚ) < p := by exact_mod_cast hp
  have hq0 : (0 : ℚ) < q := by exact_mod_cast hq
  have hgap : (sparkGap ε g p : ℚ) < 8700000 := by
    have h1 := Int.ceil_lt_add_one (p * (720 - 2 * ε) / g)
    have h2 : p * (720 - 2 * ε) / g ≤ 8640000 := by
      rw [div_le_iff₀ hg]
      nlinarith
    unfold sparkGap
    linarith
  refine ⟨fun {m t t'} h h' => ?_, fun {m t t'} h h' => ?_, fun {m t t'} h h' => ?_, ?_, ?_, ?_, le_max_left _ _, ?_⟩
  · unfold AtAngle at h h'
    rw [abs_le] at h h'
    unfold sparkJit
    rw [Int.le_floor, le_div_iff₀ hg]
    push_cast
    rcases le_or_gt t t' with hc | hc
    · have := (hT t t' hc).2
      nlinarith
    · have h3 : ((t' : ℤ) : ℚ) < t := by exact_mod_cast hc
      have h4 : ((t' : ℚ) - t) * g ≤ 0 := mul_nonpos_of_nonpos_of_nonneg (by linarith) hg.le
      have h5 : 0 ≤ 2 * ε * q := by positivity
      linarith
  · unfold AtAngle at h h'
    rw [abs_le] at h h'
    push_cast at h'
    have hlt := turning_lt hT hg hq (t := t) (t' := t') (by linarith [h.2, h'.1])
    unfold sparkGap
    rw [Int.ceil_le, div_le_iff₀ hg]
    push_cast
    have := (hT t t' hlt.le).1
    nlinarith
  · unfold AtAngle at h h'
    rw [abs_le] at h h'
    push_cast at h'
    have hlt := turning_lt hT hg hq (t := t) (t' := t') (by linarith [h.2, h'.1])
    refine le_trans ?_ (le_max_right _ _)
    rw [Int.le_floor, le_div_iff₀ hg]
    push_cast
    have := (hT t t' hlt.le).2
    nlinarith
  · unfold sparkGap
    rw [Int.ceil_pos]
    exact div_pos (mul_pos hp0 (by linarith)) hg
  · unfold sparkJit
    exact Int.floor_nonneg.mpr (div_nonneg (by positivity) hg.le)
  · have h1 := Int.floor_le (2 * ε * q / g)
    have h2 : 2 * ε * q / g ≤ 640000 := by
      rw [div_le_iff₀ hg]
      nlinarith
    have : ((sparkJit ε g q : ℤ) : ℚ) < ((2 ^ 28 : ℤ) : ℚ) := by
      unfold sparkJit
      push_cast
      linarith
    exact_mod_cast this
  · have h1 := Int.floor_le (q * (720 + 2 * ε) / g)
    have h2 : q * (720 + 2 * ε) / g ≤ 12160000 := by
      rw [div_le_iff₀ hg]
      nlinarith
    unfold sparkTop
    rw [max_lt_iff]
    constructor
    · have : ((sparkGap ε g p : ℤ) : ℚ) < ((2 ^ 28 : ℤ) : ℚ) := by push_cast; linarith
      exact_mod_cast this
    · have : ((⌊q * (720 + 2 * ε) / g⌋ : ℤ) : ℚ) < ((2 ^ 28 : ℤ) : ℚ) := by push_cast; linarith
      exact_mod_cast this

theorem wheelPos_ge (N s n : ℕ) (hN : 2 ≤ N) : n ≤ wheelPos N s n := by
  have h1 := Nat.div_add_mod (s + n) (N - 1)
  unfold wheelPos
  have h2 : (N - 1) * ((s + n) / (N - 1)) ≤ N * ((s + n) / (N - 1)) := Nat.mul_le_mul_right _ (by omega)
  omega

/-- The shape of a wheel and the pace at which it turns: tooth `j` is `pos j` pitches of `g` degrees along, one or two pitches
after the tooth before it, `M` pitches make an engine cycle, and a pitch takes between `p` and `q` ticks. -/
structure WheelShape (pos : ℕ → ℕ) (M : ℕ) (g : ℚ) (p q : ℤ) : Prop where
  step : ∀ j, pos j + 1 ≤ pos (j + 1) ∧ pos (j + 1) ≤ pos j + 2
  cycle : g * M = 720
  pitch : 9 ≤ g
  p5 : 5 ≤ p
  pq : p ≤ q
  low : (p : ℚ) ≤ 12000 * g
  high : (q : ℚ) ≤ 16000 * g
  narrow : (q : ℚ) ≤ 23 / 16 * p

theorem WheelShape.mono {pos : ℕ → ℕ} {M : ℕ} {g : ℚ} {p q : ℤ} (h : WheelShape pos M g p q) {i j : ℕ} (hij : i ≤ j) : pos i ≤ pos j :=
  monotone_nat_of_le_succ (fun n => le_trans (Nat.le_succ _) (h.step n).1) hij

theorem WheelShape.ge {pos : ℕ → ℕ} {M : ℕ} {g : ℚ} {p q : ℤ} (h : WheelShape pos M g p q) (n : ℕ) : n ≤ pos n := by
  induction n with
  | zero => exact Nat.zero_le _
  | succ n ih => exact le_trans (Nat.succ_le_succ ih) (h.step n).1

theorem WheelShape.teeth {pos : ℕ → ℕ} {M : ℕ} {g : ℚ} {p q : ℤ} (h : WheelShape pos M g p q) : 0 < M := by
  rcases Nat.eq_zero_or_pos M with h0 | h0
  · have := h.cycle
    rw [h0] at this
    norm_num at this
  · exact h0

/-- The angle of tooth `j`, tooth `n0` being at 0. -/
def toothAngle (pos : ℕ → ℕ) (n0 : ℕ) (g : ℚ) (j : ℕ) : ℚ := g * ((pos j : ℚ) - pos n0)

theorem toothAngle_step {pos : ℕ → ℕ} {M n0 : ℕ} {g : ℚ} {p q : ℤ} (hw : WheelShape pos M g p q) (j : ℕ) :
    toothAngle pos n0 g j + g ≤ toothAngle pos n0 g (j + 1) ∧ toothAngle pos n0 g (j + 1) ≤ toothAngle pos n0 g j + 2 * g := by
  unfold toothAngle
  have hg := hw.pitch
  obtain ⟨h1, h2⟩ := hw.step j
  have h1' : (pos j : ℚ) + 1 ≤ pos (j + 1) := by exact_mod_cast h1
  have h2' : (pos (j + 1) : ℚ) ≤ pos j + 2 := by exact_mod_cast h2
  constructor <;> nlinarith

theorem toothAngle_mono {pos : ℕ → ℕ} {M n0 : ℕ} {g : ℚ} {p q : ℤ} (hw : WheelShape pos M g p q) {i j : ℕ} (h : i ≤ j) :
    toothAngle pos n0 g i ≤ toothAngle pos n0 g j := by
  have hg := hw.pitch
  induction j, h using Nat.le_induction with
  | base => exact le_refl _
  | succ m _ ih => linarith [(toothAngle_step (n0 := n0) hw m).1]

theorem toothAngle_lt {pos : ℕ → ℕ} {M n0 : ℕ} {g : ℚ} {p q : ℤ} (hw : WheelShape pos M g p q) {i j : ℕ} (h : i < j) :
    toothAngle pos n0 g i + g ≤ toothAngle pos n0 g j := by
  have h1 := toothAngle_mono (n0 := n0) hw (show i + 1 ≤ j from h)
  linarith [(toothAngle_step (n0 := n0) hw i).1]

/-- The angle that the decoder reports for tooth `j`. -/
def toothReads (pos : ℕ → ℕ) (M n0 : ℕ) (g : ℚ) (j : ℕ) : ℚ := g * (((pos j - pos n0) % M : ℕ) : ℚ)

theorem toothReads_range {pos : ℕ → ℕ} {M n0 : ℕ} {g : ℚ} {p q : ℤ} (hw : WheelShape pos M g p q) (j : ℕ) :
    0 ≤ toothReads pos M n0 g j ∧ toothReads pos M n0 g j ≤ 720 := by
  have hg := hw.pitch
  have hc := hw.cycle
  unfold toothReads
  constructor
  · exact mul_nonneg (by linarith) (Nat.cast_nonneg _)
  · have h1 : (pos j - pos n0) % M ≤ M := (Nat.mod_lt _ hw.teeth).le
    have h2 : (((pos j - pos n0) % M : ℕ) : ℚ) ≤ M := by exact_mod_cast h1
    nlinarith

theorem toothReads_angle {pos : ℕ → ℕ} {M n0 : ℕ} {g : ℚ} {p q : ℤ} (hw : WheelShape pos M g p q) {j : ℕ} (hj : n0 ≤ j) :
    toothAngle pos n0 g j = toothReads pos M n0 g j + 720 * (((pos j - pos n0) / M : ℕ) : ℤ) := by
  have hc := hw.cycle
  have hmono := hw.mono hj
  have h1 := Nat.div_add_mod (pos j - pos n0) M
  have h2 : (M : ℚ) * (((pos j - pos n0) / M : ℕ) : ℚ) + (((pos j - pos n0) % M : ℕ) : ℚ) = (pos j : ℚ) - pos n0 := by
    rw [← Nat.cast_sub hmono]
    exact_mod_cast h1
  unfold toothAngle toothReads
  rw [Int.cast_natCast, ← h2]
  generalize (((pos j - pos n0) / M : ℕ) : ℚ) = x
  linear_combination x * hc

variable [FloatFmt]
open FloatFmt Fl

/-- The cycles for which the teeth schedule an end at the angle `G`, within `δ`; `F j` is what tooth `j` computes from its reading. -/
structure CycleOf (pos : ℕ → ℕ) (M n0 : ℕ) (g G δ : ℚ) (F : ℕ → ℚ → Fl) (K : ℕ → ℤ) : Prop where
  low : ∀ j, n0 ≤ j → toothAngle pos n0 g j - (1 / 250 + δ) ≤ G + 720 * K j
  high : ∀ j, n0 ≤ j → G + 720 * K j ≤ toothAngle pos n0 g j + 720 + (1 / 250 + δ)
  arg : ∀ j, n0 ≤ j → ∀ r, clampAngle (F j (toothReads pos M n0 g j)) (fin 720) = .ok r →
    ∃ y, r = fin y ∧ 0 ≤ y ∧ y ≤ 720 ∧ |toothAngle pos n0 g j + y - (G + 720 * K j)| ≤ 1 / 250 + δ
  mono : ∀ {i j}, i ≤ j → K i ≤ K j

theorem cycles_exist {pos : ℕ → ℕ} {M n0 : ℕ} {g G δ : ℚ} {p q : ℤ} {F : ℕ → ℚ → Fl} {H : ℕ → ℚ} (hw : WheelShape pos M g p q)
    (hδ : 2 * δ + 1 / 125 < g) (hH : ∀ j, |H j - G| ≤ δ)
    (hF : ∀ j a0, 0 ≤ a0 → a0 ≤ 720 → ∃ q, F j a0 = fin q ∧ |q - (H j - a0)| ≤ 1 / 1000 ∧ -3500 ≤ q ∧ q ≤ 3500) :
    ∃ K, CycleOf pos M n0 g G δ F K := by
  have h' : ∀ j, ∃ κ : ℤ, n0 ≤ j → toothAngle pos n0 g j - (1 / 250 + δ) ≤ G + 720 * κ ∧
      G + 720 * κ ≤ toothAngle pos n0 g j + 720 + (1 / 250 + δ) ∧
      ∀ r, clampAngle (F j (toothReads pos M n0 g j)) (fin 720) = .ok r →
        ∃ y, r = fin y ∧ 0 ≤ y ∧ y ≤ 720 ∧ |toothAngle pos n0 g j + y - (G + 720 * κ)| ≤ 1 / 250 + δ := by
    intro j
    by_cases hj : n0 ≤ j
    · obtain ⟨r1, r2⟩ := toothReads_range (n0 := n0) hw j
      obtain ⟨κ, k1, k2, k3⟩ := cycle_of (hF j _ r1 r2) (toothReads_angle hw hj)
      have hj1 := abs_le.mp (hH j)
      refine ⟨κ, fun _ => ⟨by linarith, by linarith, fun r hr => ?_⟩⟩
      obtain ⟨y, y1, y2, y3, y4⟩ := k3 r hr
      have y4 := abs_le.mp y4
      exact ⟨y, y1, y2, y3, abs_le.mpr ⟨by linarith, by linarith⟩⟩
    · exact ⟨0, fun hc => absurd hc hj⟩
  choose κ hκ using h'
  have hself : ∀ j, n0 ≤ j → κ (max j n0) = κ j := fun j hj => by rw [max_eq_left hj]
  refine ⟨fun j => κ (max j n0), ⟨fun j hj => ?_, fun j hj => ?_, fun j hj => ?_, fun {i j} hij => ?_⟩⟩
  · rw [hself j hj]; exact (hκ j hj).1
  · rw [hself j hj]; exact (hκ j hj).2.1
  · rw [hself j hj]; exact (hκ j hj).2.2
  · have hm : max i n0 ≤ max j n0 := max_le_max hij le_rfl
    rcases eq_or_lt_of_le hm with he | hlt
    · rw [he]
    · have h1 := (hκ (max i n0) (by omega)).2.1
      have h2 := (hκ (max j n0) (by omega)).1
      have h3 := toothAngle_lt (n0 := n0) hw hlt
      generalize κ (max i n0) = a at *
      generalize κ (max j n0) = b at *
      by_contra hc
      have h4 : ((b + 1 : ℤ) : ℚ) ≤ (a : ℚ) := by exact_mod_cast (by omega : b + 1 ≤ a)
      push_cast at h4
      linarith

omit [FloatFmt] in
/-- The first tooth that is 120 degrees past angle `G` of cycle `m - 1`. -/
theorem safe_tooth {pos : ℕ → ℕ} {M n0 : ℕ} (m0 : ℕ) {g : ℚ} {p q : ℤ} (hw : WheelShape pos M g p q) (b : ℚ) : ∃ j, m0 ≤ j ∧ b ≤ toothAngle pos n0 g j ∧
    (∀ i, m0 ≤ i → toothAngle pos n0 g i < b → i < j ∧ toothAngle pos n0 g j < b + 2 * g) := by
  have hg := hw.pitch
  have hex : ∃ j, m0 ≤ j ∧ b ≤ toothAngle pos n0 g j := by
    obtain ⟨x, hx⟩ : ∃ x : ℕ, b / g + pos n0 ≤ x := by
      refine ⟨⌈b / g + pos n0⌉.toNat, le_trans (Int.le_ceil _) ?_⟩
      exact_mod_cast Int.self_le_toNat _
    refine ⟨m0 + x, by omega, ?_⟩
    have h1 : x ≤ pos (m0 + x) := le_trans (by omega) (hw.ge (m0 + x))
    have h2 : (x : ℚ) ≤ pos (m0 + x) := by exact_mod_cast h1
    unfold toothAngle
    have h3 : b / g ≤ (pos (m0 + x) : ℚ) - pos n0 := by linarith
    rw [div_le_iff₀ (by linarith)] at h3
    linarith
  classical
  refine ⟨Nat.find hex, (Nat.find_spec hex).1, (Nat.find_spec hex).2, fun i hi hb => ?_⟩
  have hlt : i < Nat.find hex := by
    by_contra hc
    have := toothAngle_mono (n0 := n0) hw (not_lt.mp hc)
    linarith [(Nat.find_spec hex).2]
  refine ⟨hlt, ?_⟩
  obtain ⟨x, hx⟩ : ∃ x, Nat.find hex = x + 1 := ⟨Nat.find hex - 1, by omega⟩
  have h1 := Nat.find_min hex (m := x) (by omega)
  have h2 : toothAngle pos n0 g x < b := by
    by_contra hc
    exact h1 ⟨by omega, not_lt.mp hc⟩
  have h3 := (toothAngle_step (n0 := n0) hw x).2
  rw [hx]
  linarith

omit [FloatFmt] in
/-- The speeds that the setup allows. -/
theorem speed_range [FloatFmt] {d0 : Decoder} {N s R n0 m0 : ℕ} {v g : ℚ} {p q : ℤ} {T : ℕ → ℤ} {θ : ℤ → ℚ} {c : CrankTol}
    (hu : RunSetup d0 N s R v g p q T) (turns : CrankTurnsFrom θ c (wheelPos N s) n0 m0 g T) (s1 : c.speed ≤ 1 / 10) :
    3 ≤ N ∧ 9 ≤ g ∧ g ≤ 120 ∧ 5 ≤ p ∧ p ≤ q ∧ (p : ℚ) ≤ 12000 * g ∧ (q : ℚ) ≤ 16000 * g ∧ (q : ℚ) ≤ 23 / 16 * p ∧ 8 * (q : ℚ) ≤ 4000000 / 6 * g := by
  have hw := hu.turn.wheel
  have hN3 : 3 ≤ N := by have := hw.cfg.R2; have := hw.cfg.RN; omega
  obtain ⟨hg1, hg2⟩ := pitch_range hw.turn hN3 hu.turn.size
  have hp := hu.turn.fast
  have hb1 := hu.turn.band.low m0
  have hb2 := hu.turn.band.high m0
  have hv1 := hw.cfg.v1
  have hnar := hu.turn.narrow
  have hf := turns.fast (m0 + 1) (by omega)
  rw [Nat.add_sub_cancel] at hf
  have hpq : (5 : ℚ) ≤ p := by exact_mod_cast hp
  obtain ⟨Δ, hΔ1, hΔ2⟩ : ∃ Δ : ℤ, (wheelPos N s (m0 + 1) : ℤ) - wheelPos N s m0 = Δ ∧ (1 ≤ Δ ∧ Δ ≤ 2) := by
    rcases wheel_step (N := N) (s := s) (n := m0) (by omega) with ⟨_, _, e⟩ | ⟨_, _, e⟩
    · exact ⟨2, by rw [e]; push_cast; ring, by norm_num, by norm_num⟩
    · exact ⟨1, by rw [e]; push_cast; ring, by norm_num, by norm_num⟩
  have hΔq : (wheelPos N s (m0 + 1) : ℚ) - wheelPos N s m0 = Δ := by exact_mod_cast hΔ1
  rw [hΔ1] at hb1 hb2
  rw [hΔq] at hf
  have hle : p ≤ q := by
    by_contra hc
    nlinarith
  have h1 : (p : ℚ) * Δ ≤ (T (m0 + 1) : ℚ) - T m0 := by exact_mod_cast hb1
  have hΔ0 : (1 : ℚ) ≤ Δ := by exact_mod_cast hΔ2.1
  have h60 : 60 * (p : ℚ) ≤ 4000000 / 6 * g := by
    have h2 : c.speed * (4000000 / 6 * (g * Δ)) ≤ 1 / 10 * (4000000 / 6 * (g * Δ)) :=
      mul_le_mul_of_nonneg_right s1 (by positivity)
    have h3 : 60 * (p : ℚ) * Δ ≤ 4000000 / 6 * g * Δ := by linarith
    exact le_of_mul_le_mul_right h3 (by linarith)
  have hq16 : (q : ℚ) ≤ 23 / 16 * p := by
    have h2 : (1 + v) * (1 - 1 / 2 ^ 18) * p ≤ 23 / 16 * p := by
      refine mul_le_mul_of_nonneg_right ?_ (by linarith)
      have : (1 + v) * (1 - 1 / 2 ^ 18) ≤ 23 / 16 * 1 := mul_le_mul (by linarith) (by norm_num) (by norm_num) (by norm_num)
      linarith
    linarith
  exact ⟨hN3, hg1, hg2, hp, hle, by linarith, by linarith, hq16, by linarith⟩

omit [FloatFmt] in
/-- The shape and pace of a missing-tooth wheel. -/
theorem missing_shape [FloatFmt] {d0 : Decoder} {N s R n0 m0 : ℕ} {v g : ℚ} {p q : ℤ} {T : ℕ → ℤ} {θ : ℤ → ℚ} {c : CrankTol}
    (hu : RunSetup d0 N s R v g p q T) (turns : CrankTurnsFrom θ c (wheelPos N s) n0 m0 g T) (s1 : c.speed ≤ 1 / 10) : WheelShape (wheelPos N s) (2 * N) g p q := by
  obtain ⟨hN3, hg1, hg2, hp5, hpq, hp', hq', hq16, -⟩ := speed_range hu turns s1
  refine ⟨fun j => ?_, ?_, hg1, hp5, hpq, hp', hq', hq16⟩
  · rcases wheel_step (N := N) (s := s) (n := j) (by omega) with ⟨_, _, e⟩ | ⟨_, _, e⟩ <;>
    · rw [e]; omega
  · have := hu.turn.wheel.turn
    push_cast
    linarith

/-- The teeth and the cycles of a turning wheel. -/
theorem wheel_plan {pos : ℕ → ℕ} {M n0 m0 k1 : ℕ} {g G ε δ : ℚ} {F : ℕ → ℚ → Fl} {p q dlo dhi late : ℤ} {T : ℕ → ℤ} {θ : ℤ → ℚ} {c : CrankTol} {K : ℕ → ℤ}
    {mf : BitVec 32} (hw : WheelShape pos M g p q) (turns : CrankTurnsFrom θ c pos n0 m0 g T) (hT : Turning θ g p q) (hc : c.Sane)
    (hδ : 0 ≤ δ) (hce : c.error + δ ≤ ε) (hr : CycleRoom ε g p q dlo dhi late mf) (hK : CycleOf pos M n0 g G δ F K) (hk : m0 ≤ k1) (hm0 : n0 ≤ m0 := by omega) :
    ∃ J, BeatPlan (AtAngle θ (G) ε) (sparkJit ε g q) (sparkGap ε g p) (sparkTop ε g p q) dlo dhi late T K J (K k1 + 1) ∧
      k1 < J (K k1 + 1) ∧ ∀ m, K k1 + 1 ≤ m → ∀ t, G + 720 * m ≤ θ t → T (J m) + late ≤ t := by
  obtain ⟨-, -, hg1, hp5, hpq, hp', hq', hq16⟩ := id hw
  have hp0 : (5 : ℚ) ≤ p := by exact_mod_cast hp5
  have hq0 : (5 : ℚ) ≤ q := by exact_mod_cast (by omega : 5 ≤ q)
  have hsp := hc.speed0
  have han := hc.angle0
  have hev := hc.even0
  have herr := hr.error
  have e0 : 0 ≤ c.tick := by
    obtain ⟨w, w0, w1, -⟩ := turns.speed m0 le_rfl
    linarith
  have hea : c.angle + 1 / 100 ≤ ε := by
    have : c.angle + 1 / 100 ≤ c.error := by unfold CrankTol.error; linarith
    linarith
  have heps : 0 ≤ ε := by linarith
  have hδ1 : δ ≤ 20 := by
    have : 0 ≤ c.error := by unfold CrankTol.error; linarith
    linarith
  have hg2 : g < 280 := by
    have h1 := hr.time
    have h2 := hr.charge
    have h3 : (0 : ℚ) ≤ late := by exact_mod_cast hr.prompt
    have h4 : (dlo : ℚ) ≤ dhi := by exact_mod_cast hr.charges
    have h5 : 0 ≤ 2 * ε * q := by positivity
    have h6 : (0 : ℚ) < dlo := by
      by_contra hn
      nlinarith
    have h7 : 0 < ((dhi : ℚ) + late + 256) * g := mul_pos (by linarith) (by linarith)
    by_contra hn
    nlinarith
  choose J hJ0 hJ1 hJ2 using fun m : ℤ => safe_tooth (n0 := n0) m0 hw (G + 720 * (m - 1) + 120)
  have hbelow : ∀ m, K k1 + 1 ≤ m → toothAngle pos n0 g k1 < G + 720 * (m - 1) + 120 := by
    intro m hm
    have h1 := hK.low k1 (hm0.trans hk)
    have h2 : ((K k1 + 1 : ℤ) : ℚ) ≤ m := by exact_mod_cast hm
    push_cast at h2
    linarith
  have hplace : ∀ m, |θ (T (J m)) - toothAngle pos n0 g (J m)| ≤ c.angle := fun m => turns.place (J m) (hJ0 m)
  have hB := angle_beats (G := G) (ε := ε) hT (by linarith) (by omega) (by omega) heps hr.error hp' hq'
  have hd1 : ((dhi : ℤ) : ℚ) < ((2 ^ 28 : ℤ) : ℚ) := by
    have h1 := hr.time
    have h2 := hr.prompt
    have h3 : (0 : ℚ) ≤ late := by exact_mod_cast h2
    push_cast
    by_contra hn
    nlinarith
  have hearly : ∀ m, K k1 + 1 ≤ m → ∀ t, G + 720 * m - ε ≤ θ t → T (J m) + late + 256 + dhi ≤ t := by
    intro m hm t ht
    have h1 := (hJ2 m k1 hk (hbelow m hm)).2
    have h2 := abs_le.mp (hplace m)
    have hlt := turning_lt hT (by linarith) (by omega) (t := T (J m)) (t' := t) (by linarith)
    have h3 := (hT _ _ hlt.le).1
    have h4 := hr.time
    have h5 : (p : ℚ) * (560 - 2 * g) ≤ p * (θ t - θ (T (J m))) := mul_le_mul_of_nonneg_left (by linarith) (by linarith)
    have h6 : ((dhi : ℚ) + late + 256) * g ≤ ((t : ℚ) - T (J m)) * g := by linarith
    have h7 := le_of_mul_le_mul_right h6 (by linarith)
    have h8 : ((T (J m) + late + 256 + dhi : ℤ) : ℚ) ≤ ((t : ℤ) : ℚ) := by push_cast; linarith
    exact_mod_cast h8
  have hdlo : sparkJit ε g q < dlo := by
    unfold sparkJit
    rw [Int.floor_lt, div_lt_iff₀ (by linarith)]
    linarith [hr.charge]
  have hjit := hB.jit0
  refine ⟨J, ⟨hB, hdlo, hr.charges, by exact_mod_cast hd1, fun h => hK.mono h, fun m hm => ?_, fun m hm t ht => ?_, fun m hm t ht => ?_⟩, ?_, ?_⟩
  · have h1 := hK.low (J m) (hm0.trans (hJ0 m))
    have h2 := hK.high (J m) (hm0.trans (hJ0 m))
    have h3 := hJ1 m
    have h4 := (hJ2 m k1 hk (hbelow m hm)).2
    generalize K (J m) = a at *
    have h5 : m ≤ a := by
      by_contra hn
      have h6 : ((a + 1 : ℤ) : ℚ) ≤ m := by exact_mod_cast (by omega : a + 1 ≤ m)
      push_cast at h6
      linarith
    have h7 : a ≤ m := by
      by_contra hn
      have h6 : ((m + 1 : ℤ) : ℚ) ≤ a := by exact_mod_cast (by omega : m + 1 ≤ a)
      push_cast at h6
      linarith
    omega
  · unfold AtAngle at ht
    push_cast at ht
    have h1 := abs_le.mp ht
    have h2 := abs_le.mp (hplace m)
    have h3 := hJ1 m
    have hlt := turning_lt hT (by linarith) (by omega) (t := t) (t' := T (J m)) (by linarith)
    have h4 := (hT _ _ hlt.le).1
    have h5 : (p : ℚ) * 80 ≤ p * (θ (T (J m)) - θ t) := mul_le_mul_of_nonneg_left (by linarith) (by linarith)
    have h6 : 256 * g ≤ ((T (J m) : ℚ) - t) * g := by linarith [hr.buffer]
    have h7 := le_of_mul_le_mul_right h6 (by linarith)
    have h8 : ((t : ℤ) : ℚ) ≤ ((T (J m) - 256 : ℤ) : ℚ) := by push_cast; linarith
    exact_mod_cast h8
  · unfold AtAngle at ht
    have h1 := abs_le.mp ht
    exact hearly m hm t (by linarith)
  · exact (hJ2 _ k1 hk (hbelow _ le_rfl)).1
  · intro m hm t ht
    have h1 := hearly m hm t (by linarith)
    have := hr.charges
    omega

/-- A list of triggers that comes from a wheel: trigger `j` is tooth `τ j`, or comes between that tooth and the next. -/
structure WheelFeed (ev : ℕ → Int × ℤ) (τ : ℕ → ℕ) (T : ℕ → ℤ) : Prop where
  mono : ∀ j, τ j ≤ τ (j + 1)
  after : ∀ j, T (τ j) ≤ (ev j).2
  times : ∀ j, (ev j).2 ≤ (ev (j + 1)).2
  index : ∀ n, ∃ j, τ j = n ∧ (ev j).2 = T n

omit [FloatFmt] in
theorem WheelFeed.le {ev : ℕ → Int × ℤ} {τ : ℕ → ℕ} {T : ℕ → ℤ} (h : WheelFeed ev τ T) {i j : ℕ} (hij : i ≤ j) : τ i ≤ τ j :=
  monotone_nat_of_le_succ h.mono hij

omit [FloatFmt] in
theorem WheelFeed.order {ev : ℕ → Int × ℤ} {τ : ℕ → ℕ} {T : ℕ → ℤ} (h : WheelFeed ev τ T) {i j : ℕ} (hij : i ≤ j) : (ev i).2 ≤ (ev j).2 :=
  monotone_nat_of_le_succ h.times hij

omit [FloatFmt] in
/-- The teeth of a crank wheel alone. -/
theorem crank_feed {N s R : ℕ} {v : ℚ} {T : ℕ → ℤ} (h : SteadyTeeth N s R v T) : WheelFeed (fun j => (0, T j)) id T :=
  ⟨fun j => Nat.le_succ j, fun _ => le_refl _, fun j => (h.later j).le, fun n => ⟨n, rfl, rfl⟩⟩

/-- The triggers and the cycles of a turning wheel. -/
theorem feed_plan {pos : ℕ → ℕ} {M n0 m0 k1 : ℕ} {g G ε δ : ℚ} {F : ℕ → ℚ → Fl} {p q dlo dhi late : ℤ} {T : ℕ → ℤ} {θ : ℤ → ℚ} {c : CrankTol} {K : ℕ → ℤ}
    {mf : BitVec 32} {ev : ℕ → Int × ℤ} {τ : ℕ → ℕ} (hf : WheelFeed ev τ T) (hw : WheelShape pos M g p q)
    (turns : CrankTurnsFrom θ c pos n0 m0 g T) (hT : Turning θ g p q) (hc : c.Sane)
    (hδ : 0 ≤ δ) (hce : c.error + δ ≤ ε) (hr : CycleRoom ε g p q dlo dhi late mf) (hK : CycleOf pos M n0 g G δ F K) (hk : m0 ≤ τ k1) (hm0 : n0 ≤ m0 := by omega) :
    ∃ J, BeatPlan (AtAngle θ (G) ε) (sparkJit ε g q) (sparkGap ε g p) (sparkTop ε g p q) dlo dhi late (fun j => (ev j).2) (fun j => K (τ j)) J
        (K (τ k1) + 1) ∧
      k1 < J (K (τ k1) + 1) ∧ ∀ m, K (τ k1) + 1 ≤ m → ∀ t, G + 720 * m ≤ θ t → (ev (J m)).2 + late ≤ t := by
  obtain ⟨J, hp, hJ, hlate⟩ := wheel_plan hw turns hT hc hδ hce hr hK hk hm0
  choose x hx1 hx2 using hf.index
  refine ⟨fun m => x (J m), ⟨hp.beats, hp.dwell0, hp.dwell1, hp.dwell2, fun h => hp.mono (hf.le h), fun m hm => ?_, fun m hm t ht => ?_,
    fun m hm t ht => ?_⟩, ?_, fun m hm t ht => ?_⟩
  · show K (τ (x (J m))) = m
    rw [hx1]; exact hp.safe m hm
  · show t ≤ (ev (x (J m))).2 - 256
    rw [hx2]; exact hp.clear m hm t ht
  · show (ev (x (J m))).2 + late + 256 + dhi ≤ t
    rw [hx2]; exact hp.room m hm t ht
  · by_contra hn
    have := hf.le (not_lt.mp hn)
    rw [hx1] at this
    omega
  · show (ev (x (J m))).2 + late ≤ t
    rw [hx2]; exact hlate m hm t ht

end Verif
