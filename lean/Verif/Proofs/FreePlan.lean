/-
The decoder of an even wheel without a cam, fed with the teeth of a crank wheel.
-/
import Verif.Proofs.EvenPlan
import Verif.Props.FreeWheel

namespace Verif

variable [FloatFmt]
open FloatFmt Fl

/-- The decoder after `n` teeth, with the time of its pending expiry. -/
structure FreeNow (d0 : Decoder) (N R : ℕ) (g : ℚ) (p q : ℤ) (T : ℕ → ℤ) (n : ℕ) (y : Decoder × Option Time) : Prop where
  at' : FreeAt d0 N R 0 g T n y.1
  few : n < R → y.2 = none
  many : R ≤ n → rpmFromTimeDiff (stamp (T (n - 1)) - stamp (T (n - 1 - 1))) (.fin g) = .ok y.1.toothRpm ∧
    SpeedIn g p q y.1.rpm ∧
    ∃ E, y.2 = some (stamp E) ∧ T (n - 1) + q + 256 ≤ E ∧ E < T (n - 1) + 2 ^ 30

theorem free_now_next {d0 : Decoder} {N R W low n : ℕ} {v g : ℚ} {p q : ℤ} {T : ℕ → ℤ} (he : FreeWheel d0 N R W low v g p q T)
    (y : Decoder × Option Time) (h : FreeNow d0 N R g p q T n y) :
    ∃ y', (∃ o, decode y.1 0 (stamp (T n)) = .ok o ∧ y' = (o.d, o.expire.or y.2)) ∧ FreeNow d0 N R g p q T (n + 1) y' := by
  have hp := he.pace
  obtain ⟨o, ho, h1⟩ := free_next (k := 0) he.type hp.wheel he.window he.fits he.required h.at'
  refine ⟨_, ⟨o, ho, rfl⟩, h1.at', fun hlt => ?_, fun hge => ?_⟩
  · rw [h1.few hlt, h.few (by omega)]
    rfl
  · obtain ⟨a1, a2, ⟨x, a3, a4⟩, w, a5, a6, a7, a8⟩ := h1.many hge
    obtain ⟨j, rfl⟩ : ∃ j, n = j + 1 := ⟨n - 1, by omega⟩
    rw [Nat.add_sub_cancel] at a2 a4
    have hb := hp.band j
    have hl := hp.wheel.teeth.later j
    have hp0 : 0 ≤ p := by
      have := hp.narrow
      omega
    have hg0 : 0 < g := by have := hp.pitch; linarith
    obtain ⟨E, e1, e2, e3⟩ := even_expiry hp0 hb.1 hb.2 hp.room hp.slow a4
    refine ⟨a2, even_band (by have := hp.narrow; omega) (by omega) hg0 hp.band a5 a6 a7 a8, E, ?_, e2, e3⟩
    rw [a3, e1]
    rfl

/-- The teeth of the wheel, and the decoder fed with them: it is not valid before the last of the required teeth. -/
theorem free_plan_all {d0 : Decoder} {N R W low : ℕ} {v g : ℚ} {p q : ℤ} {T : ℕ → ℤ} (he : FreeWheel d0 N R W low v g p q T) :
    ∃ x, DecPlan d0 (fun j => (0, T j)) x ∧ (∀ j < R, (x j).1.valid = false) ∧ ∀ j, R ≤ j + 1 →
      EvenReports d0 (x (j + 1)).1 N (R - 1) g T j ∧
      SpeedIn g p q (x (j + 1)).1.rpm := by
  have hR2 := he.pace.wheel.cfg.R2
  have start : FreeNow d0 N R g p q T 0 (decoderInit d0, none) :=
    ⟨⟨rfl, rfl, fun h => by omega, fun _ => ⟨rfl, rfl, rfl, by
      rw [Nat.zero_mod, Nat.cast_zero, mul_zero]; rfl⟩, fun h => by omega⟩, fun _ => rfl, fun h => by omega⟩
  choose f hf hn using fun n (y : { y : Decoder × Option Time // FreeNow d0 N R g p q T n y }) => free_now_next he y.1 y.2
  let x : ∀ n, { y : Decoder × Option Time // FreeNow d0 N R g p q T n y } := fun n =>
    Nat.rec ⟨(decoderInit d0, none), start⟩ (fun n y => ⟨f n y, hn n y⟩) n
  refine ⟨fun n => (x n).1, ⟨rfl, fun j => hf j (x j), fun j t ht => ?_⟩, fun j hj => ((x j).2.at'.few hj).2.1, fun j hj => ?_⟩
  · have h := (x (j + 1)).2
    rcases Nat.lt_or_ge (j + 1) R with hlt | hge
    · have := h.few hlt
      rw [ht] at this
      cases this
    · obtain ⟨-, -, E, h1, h2, h3⟩ := h.many hge
      rw [ht] at h1
      have hbd := (he.pace.band j).2
      exact ⟨E, Option.some.inj h1, by rw [Nat.add_sub_cancel] at h2; dsimp only; omega, h3⟩
  · have h := (x (j + 1)).2
    obtain ⟨b1, b2, -⟩ := h.many hj
    obtain ⟨-, a2, -, a4, a5⟩ := h.at'.many hj
    refine ⟨⟨h.at'.cfg, a2, a4, ?_, b1⟩, b2⟩
    rw [a5, Nat.zero_add]
    show Fl.fin _ = Fl.fin (g * (((j - (R - 1)) % N : ℕ) : ℚ))
    rw [show j + 1 - R = j - (R - 1) by omega]

theorem free_plan {d0 : Decoder} {N R W low : ℕ} {v g : ℚ} {p q : ℤ} {T : ℕ → ℤ} (he : FreeWheel d0 N R W low v g p q T) :
    ∃ x, DecPlan d0 (fun j => (0, T j)) x ∧ ∀ j, R ≤ j + 1 →
      EvenReports d0 (x (j + 1)).1 N (R - 1) g T j ∧
      SpeedIn g p q (x (j + 1)).1.rpm := by
  obtain ⟨x, h1, -, h2⟩ := free_plan_all he
  exact ⟨x, h1, h2⟩

omit [FloatFmt] in
/-- The teeth are the triggers. -/
theorem free_feed {T : ℕ → ℤ} (h : ∀ n, T n < T (n + 1)) : WheelFeed (fun j => (0, T j)) id T :=
  ⟨fun j => Nat.le_succ j, fun _ => le_refl _, fun j => (h j).le, fun n => ⟨n, rfl, rfl⟩⟩

/-- Every state of a run from the tooth after the required ones on. -/
theorem free_follows {d0 : Decoder} {N R W low m0 k1 : ℕ} {v g O : ℚ} {p q : ℤ} {T : ℕ → ℤ} {θ : ℤ → ℚ} {t : CrankTol}
    {eb e1 : Engine} {n1 E1 : ℤ} {Gd : ℤ → Engine → Prop} (he : FreeWheel d0 N R W low v g p q T) (ho : d0.offset = .fin O)
    (turns : CrankTurnsFrom θ t id (R - 1) m0 g T) (hc : t.Sane) (s0 : 1 / 2 ^ 18 ≤ t.speed)
    (hG : ∀ n e, Gd n e → TeethGiven T n e) (hb : EngBoot eb) (hd : eb.cfg.decoder = decoderInit d0)
    (h1 : EngTimed Honest Gd eb n1 E1 e1) (hk1 : Decoded (k1 + 1) e1) (hn : m0 ≤ k1) (hm0 : R - 1 ≤ m0) :
    Follows θ t id N (R - 1) m0 g O q T id k1 Gd n1 E1 e1 := by
  intro n E e h
  obtain ⟨hsh, hq8⟩ := pace_shape he.pace turns hc.speed1
  have hq0 : 0 < q := by have := hsh.p5; have := hsh.pq; omega
  obtain ⟨x, hp, hx⟩ := free_plan he
  obtain ⟨-, i1, hi1⟩ := timed_decoded hp (G := Gd) hG hb hd h1
  obtain rfl := hk1.unique hi1.count
  obtain ⟨j', l1, hj'⟩ := on_decoded hp (G := Gd) hG hi1 h
  obtain ⟨gy, -⟩ := timed_decoded hp (G := Gd) hG hb hd (on_timed h1 h)
  obtain ⟨j, rfl⟩ : ∃ j, j' = j + 1 := ⟨j' - 1, by omega⟩
  have hT := he.pace.wheel.teeth.later
  obtain ⟨r, fl⟩ := hx j (by omega)
  obtain ⟨a, b, hdec⟩ := hj'.decoder
  obtain ⟨kk, kk1, kk2, kk3⟩ := hG _ _ gy
  have hlen : e.given.length = kk := by rw [kk1]; simp
  have hgl := hj'.count.given
  rw [hlen] at hgl
  refine ⟨gy, j, by omega, by dsimp only [id]; omega, hj'.count, by rw [hdec]; exact r.valid, ?_, by rw [hdec]; exact r.angle, ?_,
    kk2 j (by omega), ?_, ?_⟩
  · rw [hdec]
    exact (congrArg DecConfig.offset r.cfg).trans ho
  · rw [hdec]
    exact fl.floor hq0 hq8
  · have c5 : T kk ≤ T (j + 1 + 1) := monotone_nat_of_le_succ (fun n => (hT n).le) (by omega)
    have h1 := (he.pace.band j).2
    have h2 := (he.pace.band (j + 1)).2
    have h4 := he.pace.slow
    dsimp only [id]
    omega
  · rw [hdec]
    exact knows_recount (r.knows he.pace turns s0 hc.speed1 (by omega) hm0 (by have := he.pace.wheel.cfg.R2; omega)) a b

end Verif
