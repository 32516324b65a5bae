/-
The even-wheel decoder fed with the triggers of a crank wheel and a cam.
-/
import Verif.Spec.EvenRun
import Verif.Proofs.CamPlan
import Verif.Proofs.Expire

namespace Verif

/-- The count of teeth after tooth `n`, before its cam pulse. -/
def teethUp (N c n : ℕ) : ℕ := (n + (N - c - 1)) % N + 1

/-- The count of teeth before tooth `n`. -/
def teethDown (N c : ℕ) : ℕ → ℕ
  | 0 => N - c - 1
  | n + 1 => if n % N = c then 0 else teethUp N c n

theorem teethUp_pulse {N c n : ℕ} (hc : c < N) (h : n % N = c) : teethUp N c n = N := by
  unfold teethUp
  have : n + (N - c - 1) = (N - 1) + N * (n / N) := by
    have := Nat.div_add_mod n N
    generalize N * (n / N) = x at *
    omega
  rw [this, Nat.add_mul_mod_self_left, Nat.mod_eq_of_lt (by omega)]
  omega

theorem teethUp_step {N c n : ℕ} (hc : c < N) : teethUp N c n = teethDown N c n + 1 := by
  cases n with
  | zero =>
      unfold teethUp teethDown
      rw [Nat.zero_add, Nat.mod_eq_of_lt (by omega)]
  | succ n =>
      show _ = (if n % N = c then 0 else teethUp N c n) + 1
      have e := Nat.div_add_mod n N
      have hlt := Nat.mod_lt n (by omega : 0 < N)
      split_ifs with h
      · unfold teethUp
        have : n + 1 + (N - c - 1) = 0 + N * (n / N + 1) := by
          rw [Nat.mul_add]
          generalize N * (n / N) = x at *
          omega
        rw [this, Nat.add_mul_mod_self_left, Nat.zero_mod]
      · unfold teethUp
        generalize n % N = r at *
        rcases Nat.lt_or_ge r c with hlo | hhi
        · have h1 : n + (N - c - 1) = (r + (N - c - 1)) + N * (n / N) := by
            generalize N * (n / N) = x at *
            omega
          have h2 : n + 1 + (N - c - 1) = (r + 1 + (N - c - 1)) + N * (n / N) := by
            generalize N * (n / N) = x at *
            omega
          clear e
          rw [h1, h2, Nat.add_mul_mod_self_left, Nat.add_mul_mod_self_left, Nat.mod_eq_of_lt (by omega), Nat.mod_eq_of_lt (by omega)]
          omega
        · have h1 : n + (N - c - 1) = (r - c - 1) + N * (n / N + 1) := by
            rw [Nat.mul_add]
            generalize N * (n / N) = x at *
            omega
          have h2 : n + 1 + (N - c - 1) = (r - c) + N * (n / N + 1) := by
            rw [Nat.mul_add]
            generalize N * (n / N) = x at *
            omega
          clear e
          rw [h1, h2, Nat.add_mul_mod_self_left, Nat.add_mul_mod_self_left, Nat.mod_eq_of_lt (by omega), Nat.mod_eq_of_lt (by omega)]
          omega

theorem teethUp_le {N c n : ℕ} (hc : c < N) : teethUp N c n ≤ N := by
  unfold teethUp
  exact Nat.mod_lt _ (by omega)

theorem teethUp_angle {N c m n : ℕ} (hc : c < N) (hm : m % N = c) (hn : m ≤ n) : teethUp N c n % N = (n - m) % N := by
  unfold teethUp
  rw [Nat.mod_add_mod]
  have e := Nat.div_add_mod m N
  have : n + (N - c - 1) + 1 = (n - m) + N * (m / N + 1) := by
    rw [Nat.mul_add]
    generalize N * (m / N) = x at *
    omega
  rw [this, Nat.add_mul_mod_self_left]

theorem teethDown_angle {N c n : ℕ} (hc : c < N) : teethDown N c (n + 1) % N = teethUp N c n % N := by
  show (if n % N = c then 0 else teethUp N c n) % N = _
  split_ifs with h
  · rw [teethUp_pulse hc h, Nat.zero_mod, Nat.mod_self]
  · rfl

variable [FloatFmt]
open FloatFmt Fl

/-- The decoder and the time of its pending expiry, after `n` teeth, with the count of teeth at `k`. -/
structure EvenAt (d0 : Decoder) (N R : ℕ) (g : ℚ) (p q : ℤ) (T : ℕ → ℤ) (n k : ℕ) (d : Decoder) (ex : Option Time) : Prop where
  cfg : d.cfg = (decoderInit d0).cfg
  cur : d.currentTriggersRpm.toNat = min n 37
  hist : 0 < n → HistOk d T (n - 1) (n - 1)
  few : n < R → d.state = .nosync ∧ ex = none
  many : R ≤ n → d.state ≠ .nosync
  count : d.triggersSinceLastSync.toNat ≤ k
  sync : d.state = .sync → d.valid = true ∧ d.triggersSinceLastSync.toNat = k ∧ d.lastTriggerAngle = .fin (g * ((k % N : ℕ) : ℚ))
  seen : R ≤ n → rpmFromTimeDiff (stamp (T (n - 1)) - stamp (T (n - 2))) (.fin g) = .ok d.toothRpm ∧
    SpeedIn g p q d.rpm ∧
    ∃ E, ex = some (stamp E) ∧ T (n - 1) + q + 256 ≤ E ∧ E < T (n - 1) + 2 ^ 30

omit [FloatFmt] in
theorem even_span {T : ℕ → ℤ} {p q : ℤ} (h : ∀ n, p ≤ T (n + 1) - T n ∧ T (n + 1) - T n ≤ q) (n w : ℕ) :
    p * w ≤ T (n + w) - T n ∧ T (n + w) - T n ≤ q * w := by
  induction w with
  | zero => simp
  | succ w ih =>
      have := h (n + w)
      rw [← Nat.add_assoc]
      push_cast
      constructor <;> linarith [this.1, this.2, ih.1, ih.2]

/-- The expiry after a tooth. -/
theorem even_expiry {T : ℕ → ℤ} {p q : ℤ} {n : ℕ} {x : Time} (hp : 0 ≤ p) (h1 : p ≤ T (n + 1) - T n) (h2 : T (n + 1) - T n ≤ q)
    (room : (q : ℚ) + 257 ≤ 3 / 2 * p * (1 - 1 / 2 ^ 22)) (slow : q ≤ 2 ^ 22)
    (hx : Fl.toU32 (Fl.ofU32 (stamp (T (n + 1)) - stamp (T n)) * Fl.fin (3 / 2)) = .ok x) :
    ∃ E, stamp (T (n + 1)) + x = stamp E ∧ T (n + 1) + q + 256 ≤ E ∧ E < T (n + 1) + 2 ^ 30 := by
  have hgap : ((stamp (T (n + 1)) - stamp (T n)).toNat : ℤ) = T (n + 1) - T n := by
    rw [stamp_sub]; exact stamp_toNat (by omega) (by omega)
  obtain ⟨y, hy, hy1, hy2⟩ := lengthen_close (e := stamp (T (n + 1)) - stamp (T n)) (v := 1 / 2) (by omega) (by norm_num) (by norm_num)
  have h12 : (Fl.fin (3 / 2) : Fl) = Fl.fin 1 + Fl.fin (1 / 2) := by
    rw [fin_add]
    have := rnd_dyadic 3 (-1) (by norm_num) (by norm_num)
    norm_num at this ⊢
    exact this.symm
  rw [h12, hy] at hx
  obtain rfl := Except.ok.inj hx
  have hq : ((stamp (T (n + 1)) - stamp (T n)).toNat : ℚ) = ((T (n + 1) - T n : ℤ) : ℚ) := by exact_mod_cast hgap
  rw [hq] at hy1 hy2
  have h1' : (p : ℚ) ≤ ((T (n + 1) - T n : ℤ) : ℚ) := by exact_mod_cast h1
  have h2' : ((T (n + 1) - T n : ℤ) : ℚ) ≤ q := by exact_mod_cast h2
  have h3' : (q : ℚ) ≤ 2 ^ 22 := by exact_mod_cast slow
  generalize ((T (n + 1) - T n : ℤ) : ℚ) = D at *
  refine ⟨T (n + 1) + y.toNat, ?_, ?_, ?_⟩
  · unfold stamp
    rw [BitVec.ofInt_add]
    congr 1
    simp
  · have : ((q + 256 : ℤ) : ℚ) ≤ ((y.toNat : ℤ) : ℚ) := by
      push_cast
      norm_num at hy1 room ⊢
      linarith
    have : q + 256 ≤ (y.toNat : ℤ) := by exact_mod_cast this
    omega
  · have : ((y.toNat : ℤ) : ℚ) < ((2 ^ 30 : ℤ) : ℚ) := by
      push_cast
      norm_num at hy2 h3'
      linarith
    have : (y.toNat : ℤ) < 2 ^ 30 := by exact_mod_cast this
    omega

/-- An average speed is one of those of the wheel. -/
theorem even_band {T : ℕ → ℤ} {p q : ℤ} {n w : ℕ} {g : ℚ} {r : BitVec 32} (hp0 : 0 < p) (hq0 : 0 < q) (hg : 0 < g)
    (band : ∀ n, p ≤ T (n + 1) - T n ∧ T (n + 1) - T n ≤ q) (w1 : 1 ≤ w) (w2 : w ≤ n + 1)
    (h : speed (g * w) (T (n + 1) - T (n + 1 - w)) * (1 - 1 / 2 ^ 21) - 1 ≤ (r.toNat : ℚ))
    (h' : (r.toNat : ℚ) ≤ speed (g * w) (T (n + 1) - T (n + 1 - w)) * (1 + 1 / 2 ^ 21)) : SpeedIn g p q r := by
  have hs := even_span band (n + 1 - w) w
  rw [Nat.sub_add_cancel w2] at hs
  have hqQ : (0 : ℚ) < q := by exact_mod_cast hq0
  have hpQ : (0 : ℚ) < p := by exact_mod_cast hp0
  have hw : (1 : ℚ) ≤ w := by exact_mod_cast w1
  have hD : ((T (n + 1) - T (n + 1 - w) : ℤ) : ℚ) ≤ q * w := by exact_mod_cast hs.2
  have hD' : (p : ℚ) * w ≤ ((T (n + 1) - T (n + 1 - w) : ℤ) : ℚ) := by exact_mod_cast hs.1
  have hD0 : (0 : ℚ) < ((T (n + 1) - T (n + 1 - w) : ℤ) : ℚ) := lt_of_lt_of_le (by positivity) hD'
  refine speed_in ?_ ?_ h h'
  · unfold speed
    generalize ((T (n + 1) - T (n + 1 - w) : ℤ) : ℚ) = D at *
    rw [div_le_div_iff₀ hqQ (by linarith)]
    have := mul_le_mul_of_nonneg_left hD hg.le
    nlinarith
  · unfold speed
    generalize ((T (n + 1) - T (n + 1 - w) : ℤ) : ℚ) = D at *
    rw [div_le_div_iff₀ (by linarith) hpQ]
    have := mul_le_mul_of_nonneg_left hD' hg.le
    nlinarith

/-- The teeth counted and the state, before the speeds are computed. -/
theorem even_booked {d d0 : Decoder} {N R W low n k : ℕ} {v g : ℚ} {p q : ℤ} {T : ℕ → ℤ} {ex : Option Time}
    (hw : EvenSetup d0 N R W low v g T) (h : EvenAt d0 N R g p q T n k d ex) (hk : k < N) (hR37 : R ≤ 37) :
    ∃ d2, evenAdvance (evenBook d (stamp (T n))) (stamp (T n)) = d2 ∧ d2.cfg = d.cfg ∧ d2.currentTriggersRpm.toNat = min (n + 1) 37 ∧
      d2.triggersSinceLastSync.toNat = d.triggersSinceLastSync.toNat + 1 ∧ HistOk d2 T n n ∧
      (n + 1 < R → d2.state = .nosync) ∧ (R ≤ n + 1 → d.state ≠ .sync → d2.state = .rpm) ∧
      (d.state = .sync → d2.state = .sync ∧ d2.lastTriggerTime = stamp (T n) ∧
        d2.lastTriggerAngle = .fin (g * (((k + 1) % N : ℕ) : ℚ))) := by
  have hc := cfg_even hw.cfg h.cfg
  have hg0 : 0 < g := by have := hc.g1; linarith
  obtain ⟨c, s, hb, hs, hcc⟩ := evenBook_cur d (stamp (T n))
  have hcur : c.toNat = min (n + 1) 37 := by rw [hcc, h.cur]; split_ifs <;> omega
  have hcnt : (d.triggersSinceLastSync + 1).toNat = d.triggersSinceLastSync.toNat + 1 := by
    have := hc.count
    have := d.numTriggers.isLt
    have := h.count
    generalize d.triggersSinceLastSync = k at *
    bv_omega
  have hh : HistOk (pushTime d (stamp (T n))) T n n := by
    rcases Nat.eq_zero_or_pos n with rfl | hn
    · intro i hi hn
      have : i = 0 := by omega
      subst this
      rfl
    · have := histOk_push (h.hist hn)
      rw [Nat.sub_add_cancel hn] at this
      exact this
  rw [hc.required, hcur] at hs
  rw [hb]
  by_cases hsy : d.state = .sync
  · have hse : s = .sync := by rw [hs, if_neg (by rw [hsy]; exact fun h => nomatch h.1), hsy]
    obtain ⟨-, hk', ha⟩ := h.sync hsy
    subst hse
    rw [evenAdvance_sync (d := { pushTime d (stamp (T n)) with triggersSinceLastSync := d.triggersSinceLastSync + 1, currentTriggersRpm := c, state := .sync })
      (g := g) rfl hc.pitch]
    refine ⟨_, rfl, rfl, hcur, hcnt, hh, fun hlt => ?_, fun _ h => absurd hsy h, fun _ => ⟨rfl, rfl, ?_⟩⟩
    · have := (h.few (by omega)).1
      rw [hsy] at this; cases this
    · show (if Fl.le (Fl.fin 720) (d.lastTriggerAngle + .fin g) then (d.lastTriggerAngle + .fin g) - Fl.fin 720 else d.lastTriggerAngle + .fin g) = _
      rw [ha, Nat.mod_eq_of_lt hk]
      exact even_angle hg0 hw.cycle hw.grid hk
  · have hse : s ≠ .sync := by
      rw [hs]
      split_ifs
      · decide
      · exact hsy
    have hadv : evenAdvance { pushTime d (stamp (T n)) with triggersSinceLastSync := d.triggersSinceLastSync + 1, currentTriggersRpm := c, state := s } (stamp (T n)) =
        { pushTime d (stamp (T n)) with triggersSinceLastSync := d.triggersSinceLastSync + 1, currentTriggersRpm := c, state := s } := by
      unfold evenAdvance
      exact if_neg hse
    rw [hadv]
    refine ⟨_, rfl, rfl, hcur, hcnt, hh, fun hlt => ?_, fun hle _ => ?_, fun h => absurd h hsy⟩
    · show s = _
      rw [hs, if_neg (fun h => by omega)]
      exact (h.few (by omega)).1
    · show s = _
      rw [hs]
      split_ifs with h1
      · rfl
      · cases hst : d.state
        · exact absurd ⟨hst, by omega⟩ h1
        · rfl
        · exact absurd hst hsy

theorem even_kept {d : Decoder} {t : Time} : (evenAdvance (evenBook d t) t).valid = d.valid := by
  obtain ⟨c, s, hb, -⟩ := evenBook_frame d t
  obtain ⟨a, lt, ha⟩ := evenAdvance_frame (evenBook d t) t
  rw [ha, hb]
  rfl

/-- A tooth. -/
theorem even_plan_tooth {d d0 : Decoder} {N R W low n k : ℕ} {v g : ℚ} {p q : ℤ} {T : ℕ → ℤ} {ex : Option Time}
    (hw : EvenSetup d0 N R W low v g T) (h : EvenAt d0 N R g p q T n k d ex) (hk : k < N) (hR37 : R ≤ 37) (hWR : W < R)
    (band : ∀ n, p ≤ T (n + 1) - T n ∧ T (n + 1) - T n ≤ q) (hp : 0 ≤ p)
    (room : (q : ℚ) + 257 ≤ 3 / 2 * p * (1 - 1 / 2 ^ 22)) (slow : q ≤ 2 ^ 22) :
    ∃ o, decode d 0 (stamp (T n)) = .ok o ∧ EvenAt d0 N R g p q T (n + 1) (k + 1) o.d (o.expire.or ex) ∧
      (d.state = .sync → o.d.state = .sync ∧ o.d.lastTriggerTime = stamp (T n)) := by
  have hty : d.type = .evenCamsync := (congrArg DecConfig.type h.cfg).trans hw.type
  have hW2 := hw.cfg.W2
  have hg0 : 0 < g := by have := hw.cfg.g1; linarith
  have hcount := h.count
  have hval := even_kept (d := d) (t := stamp (T n))
  obtain ⟨d2, hd2, e1, e2, e3, e4, e5, e6, e7⟩ := even_booked hw h hk hR37
  rw [hd2] at hval
  have hcfg2 : d2.cfg = (decoderInit d0).cfg := e1.trans h.cfg
  rcases Nat.lt_or_ge (n + 1) R with hlt | hge
  · have hst := e5 hlt
    have hold := (h.few (by omega)).1
    have hup : evenTriggerUpdate d (stamp (T n)) = .ok (d2, false) := by
      unfold evenTriggerUpdate
      simp only
      rw [hd2, if_neg (by rw [hst]; decide)]
      rfl
    refine ⟨_, even_tooth_ok hty hup, ?_, fun h => by rw [hold] at h; cases h⟩
    have hfin : decodeFinish d.state d2 (expireReq d2 false) = { d := d2, expire := none, lost := false } := by
      unfold decodeFinish
      rw [if_neg (by rw [hst]; decide), if_neg (by rw [hold]; decide)]
      rfl
    rw [hfin]
    refine ⟨hcfg2, e2, fun _ => e4, fun _ => ⟨hst, (h.few (by omega)).2⟩, fun h => by omega, by rw [e3]; omega, fun h => ?_, fun h => by omega⟩
    rw [show d2.state = .nosync from hst] at h
    cases h
  · obtain ⟨j, rfl⟩ : ∃ j, n = j + 1 := ⟨n - 1, by omega⟩
    obtain ⟨tr, r, cc, x, hupd, htr, hx, w, hw1, hw2, hr, hr'⟩ := even_update (cfg_even hw.cfg hcfg2) hw.teeth e4 (by omega) (by omega) (by omega) (by omega)
    have hb := band j
    have hroom0 : 0 < q := by
      by_contra hn
      have h1 : p ≤ q := by omega
      have : (p : ℚ) ≤ q := by exact_mod_cast h1
      have : (q : ℚ) ≤ 0 := by exact_mod_cast (by omega : q ≤ 0)
      have : (0 : ℚ) ≤ p := by exact_mod_cast hp
      norm_num at room
      linarith
    have hp1 : 0 < p := by
      rcases eq_or_lt_of_le hp with h0 | h0
      · rw [← h0] at room
        have : (0 : ℚ) < q := by exact_mod_cast hroom0
        norm_num at room
        linarith
      · exact h0
    obtain ⟨E, hE, hE1, hE2⟩ := even_expiry hp hb.1 hb.2 room slow hx
    have hst : d2.state = .rpm ∨ d2.state = .sync := by
      by_cases hsy : d.state = .sync
      · exact Or.inr (e7 hsy).1
      · exact Or.inl (e6 hge hsy)
    have hup : evenTriggerUpdate d (stamp (T (j + 1))) =
        .ok ({ d2 with toothRpm := tr, rpm := r, curRpmChange := cc, expiration := stamp (T (j + 1)) + x }, true) := by
      unfold evenTriggerUpdate
      simp only
      rw [hd2, if_pos hst, hupd, except_bind_ok]
      rfl
    have hseen : R ≤ j + 1 + 1 → rpmFromTimeDiff (stamp (T (j + 1 + 1 - 1)) - stamp (T (j + 1 + 1 - 2))) (.fin g) = .ok tr ∧
        SpeedIn g p q r ∧
        ∃ E, some (stamp (T (j + 1)) + x) = some (stamp E) ∧ T (j + 1 + 1 - 1) + q + 256 ≤ E ∧ E < T (j + 1 + 1 - 1) + 2 ^ 30 := fun _ =>
      ⟨htr, even_band hp1 hroom0 hg0 band hw1 hw2 hr hr', E, by rw [hE], hE1, hE2⟩
    refine ⟨_, even_tooth_ok hty hup, ?_⟩
    by_cases hsy : d.state = .sync
    · obtain ⟨f1, f2, f3⟩ := e7 hsy
      rw [finish_sync (by exact f1)]
      have hk' := (h.sync hsy).2.1
      refine ⟨⟨hcfg2, e2, fun _ => e4, fun h => by omega, fun _ => ?_, ?_, fun _ => ⟨rfl, ?_, f3⟩, hseen⟩, fun _ => ⟨f1, f2⟩⟩
      · show d2.state ≠ _
        rw [f1]; decide
      · show d2.triggersSinceLastSync.toNat ≤ _
        rw [e3]; omega
      · show d2.triggersSinceLastSync.toNat = _
        rw [e3, hk']
    · have f1 := e6 hge hsy
      have hfin : ∀ e, decodeFinish d.state { d2 with toothRpm := tr, rpm := r, curRpmChange := cc, expiration := stamp (T (j + 1)) + x } e =
          { d := { d2 with toothRpm := tr, rpm := r, curRpmChange := cc, expiration := stamp (T (j + 1)) + x }, expire := e, lost := false } := by
        intro e
        unfold decodeFinish
        rw [if_neg (by show ¬ d2.state = _; rw [f1]; decide), if_neg hsy]
      rw [hfin]
      refine ⟨⟨hcfg2, e2, fun _ => e4, fun h => by omega, fun _ => ?_, ?_, fun hc => ?_, hseen⟩, fun h => absurd h hsy⟩
      · show d2.state ≠ _
        rw [f1]; decide
      · show d2.triggersSinceLastSync.toNat ≤ _
        rw [e3]; omega
      · have hc' : d2.state = .sync := hc
        rw [f1] at hc'
        cases hc'

/-- The cam pulse. -/
theorem even_plan_pulse {d d0 : Decoder} {N R W low n : ℕ} {v g : ℚ} {p q : ℤ} {T : ℕ → ℤ} {ex : Option Time} {t : Time}
    (hw : EvenSetup d0 N R W low v g T) (h : EvenAt d0 N R g p q T n N d ex) :
    ∃ o, decode d 1 t = .ok o ∧ EvenAt d0 N R g p q T n 0 o.d (o.expire.or ex) ∧ (R ≤ n → o.d.state = .sync) ∧
      o.d.lastTriggerTime = d.lastTriggerTime ∧ o.d.rpm = d.rpm := by
  have hty : d.type = .evenCamsync := (congrArg DecConfig.type h.cfg).trans hw.type
  have hc := cfg_even hw.cfg h.cfg
  refine ⟨_, even_pulse hty, ?_⟩
  rcases Nat.lt_or_ge n R with hlt | hge
  · have hst := (h.few hlt).1
    have hup : evenSyncUpdate d = { d with triggersSinceLastSync := 0 } := by
      unfold evenSyncUpdate
      rw [if_neg (by rw [hst]; decide), if_neg (by rw [hst]; decide)]
    rw [hup]
    have hfin : decodeFinish d.state { d with triggersSinceLastSync := 0 } none = { d := { d with triggersSinceLastSync := 0 }, expire := none, lost := false } := by
      unfold decodeFinish
      rw [if_neg (by show ¬ d.state = _; rw [hst]; decide), if_neg (by rw [hst]; decide)]
    rw [hfin]
    refine ⟨⟨h.cfg, h.cur, h.hist, h.few, h.many, Nat.zero_le _, fun hs => ?_, fun h => by omega⟩, fun h => by omega, rfl, rfl⟩
    have hs' : d.state = .sync := hs
    rw [hst] at hs'
    cases hs'
  · have hup : evenSyncUpdate d = { d with state := .sync, loss := .noLoss, lastTriggerAngle := Fl.fin 0, triggersSinceLastSync := 0 } := by
      unfold evenSyncUpdate
      by_cases h1 : d.state = .rpm
      · rw [if_pos h1]
      · have h2 : d.state = .sync := by
          cases hst : d.state
          · exact absurd hst (h.many hge)
          · exact absurd hst h1
          · rfl
        have h3 : d.triggersSinceLastSync = d.numTriggers := by
          apply BitVec.eq_of_toNat_eq
          rw [(h.sync h2).2.1, hc.count]
        rw [if_neg h1, if_pos h2, if_pos h3]
    rw [hup, finish_sync (by rfl)]
    refine ⟨⟨h.cfg, h.cur, h.hist, fun h => by omega, fun _ => fun h => (nomatch h), Nat.zero_le _, fun _ => ⟨rfl, rfl, ?_⟩, h.seen⟩, fun _ => rfl, rfl, rfl⟩
    show Fl.fin 0 = _
    rw [Nat.zero_mod]
    simp

/-- What holds between tooth `n`, `z` being the state after it, and the next, `y'` being the state before that one. -/
structure EvenBeat (d0 : Decoder) (N R c : ℕ) (g : ℚ) (p q : ℤ) (T P : ℕ → ℤ) (n : ℕ) (y z y' : Decoder × Option Time) : Prop where
  tooth : ∃ o, decode y.1 0 (stamp (T n)) = .ok o ∧ z = (o.d, o.expire.or y.2)
  pulse : n % N = c → ∃ o, decode z.1 1 (stamp (P n)) = .ok o ∧ y' = (o.d, o.expire.or z.2)
  none : n % N ≠ c → y' = z
  up : EvenAt d0 N R g p q T (n + 1) (teethUp N c n) z.1 z.2
  down : EvenAt d0 N R g p q T (n + 1) (teethDown N c (n + 1)) y'.1 y'.2
  keep : y.1.state = .sync → z.1.state = .sync ∧ z.1.lastTriggerTime = stamp (T n)
  same : z.1.state = .sync → y'.1.state = .sync
  gain : n % N = c → R ≤ n + 1 → y'.1.state = .sync
  time : y'.1.lastTriggerTime = z.1.lastTriggerTime
  rpm : y'.1.rpm = z.1.rpm

theorem even_beat {d0 : Decoder} {N R W low c m n : ℕ} {v g : ℚ} {p q : ℤ} {T P : ℕ → ℤ} (he : EvenWheel d0 N R W low c m v g p q T P)
    (y : Decoder × Option Time) (h : EvenAt d0 N R g p q T n (teethDown N c n) y.1 y.2) : ∃ y' z, EvenBeat d0 N R c g p q T P n y z y' := by
  have hw := he.wheel
  have hp : 0 ≤ p := by
    have h1 := he.narrow
    have h2 := (he.band 0).1
    have h3 := (he.band 0).2
    have h4 := hw.teeth.later 0
    omega
  have hup := teethUp_step (n := n) he.place
  have hle := teethUp_le (n := n) he.place
  obtain ⟨o, ho, hz, hk⟩ := even_plan_tooth hw h (by omega) he.required he.window he.band hp he.room he.slow
  rw [← hup] at hz
  by_cases hpl : n % N = c
  · have hz' := hz
    rw [teethUp_pulse he.place hpl] at hz'
    obtain ⟨o', ho', hy, hg, ht, hr⟩ := even_plan_pulse (t := stamp (P n)) hw hz'
    have hd : teethDown N c (n + 1) = 0 := if_pos hpl
    refine ⟨(o'.d, o'.expire.or (o.expire.or y.2)), (o.d, o.expire.or y.2), ⟨o, ho, rfl⟩, fun _ => ⟨o', ho', rfl⟩, fun h => absurd hpl h, hz, by rw [hd]; exact hy,
      hk, fun hs => hg ?_, fun _ => hg, ht, hr⟩
    by_contra hlt
    have := (hz.few (by omega)).1
    rw [show o.d.state = _ from hs] at this
    cases this
  · have hd : teethDown N c (n + 1) = teethUp N c n := if_neg hpl
    exact ⟨(o.d, o.expire.or y.2), (o.d, o.expire.or y.2), ⟨o, ho, rfl⟩, fun h => absurd h hpl, fun _ => rfl, hz, by rw [hd]; exact hz, hk, id,
      fun h => absurd h hpl, rfl, rfl⟩

/-- The states of the decoder before each tooth (`y`) and between the tooth and its cam pulse (`z`). -/
theorem even_states {d0 : Decoder} {N R W low c m : ℕ} {v g : ℚ} {p q : ℤ} {T P : ℕ → ℤ} (he : EvenWheel d0 N R W low c m v g p q T P) :
    ∃ y z : ℕ → Decoder × Option Time, y 0 = (decoderInit d0, none) ∧ ∀ n, EvenBeat d0 N R c g p q T P n (y n) (z n) (y (n + 1)) := by
  have hR2 := he.wheel.cfg.R2
  have start : EvenAt d0 N R g p q T 0 (teethDown N c 0) (decoderInit d0) none :=
    ⟨rfl, rfl, fun h => by omega, fun _ => ⟨rfl, rfl⟩, fun h => by omega, Nat.zero_le _, fun h => (nomatch h), fun h => by omega⟩
  choose f z hf using fun n (y : { y : Decoder × Option Time // EvenAt d0 N R g p q T n (teethDown N c n) y.1 y.2 }) => even_beat he y.1 y.2
  let x : ∀ n, { y : Decoder × Option Time // EvenAt d0 N R g p q T n (teethDown N c n) y.1 y.2 } := fun n =>
    Nat.rec ⟨(decoderInit d0, none), start⟩ (fun n y => ⟨f n y, (hf n y).down⟩) n
  exact ⟨fun n => (x n).1, fun n => z n (x n), rfl, fun n => hf n (x n)⟩

/-- What the decoder reports after a trigger of tooth `n`, or of the cam pulse after it. -/
structure EvenReports (d0 d : Decoder) (N m : ℕ) (g : ℚ) (T : ℕ → ℤ) (n : ℕ) : Prop where
  cfg : d.cfg = (decoderInit d0).cfg
  valid : d.valid = true
  time : d.lastTriggerTime = stamp (T n)
  angle : d.lastTriggerAngle = .fin (toothReads id N m g n)
  speed : rpmFromTimeDiff (stamp (T n) - stamp (T (n - 1))) (.fin g) = .ok d.toothRpm

/-- The triggers of the wheel and the cam, and the decoder fed with them. -/
theorem even_plan {d0 : Decoder} {N R W low c m : ℕ} {v g : ℚ} {p q : ℤ} {T P : ℕ → ℤ} (he : EvenWheel d0 N R W low c m v g p q T P) :
    ∃ x, DecPlan d0 (camEvent (fun n => n % N = c) T P) x ∧ (∀ j, m < (camSlot (fun n => n % N = c) j).tooth →
      EvenReports d0 (x (j + 1)).1 N m g T (camSlot (fun n => n % N = c) j).tooth ∧
      SpeedIn g p q (x (j + 1)).1.rpm) ∧
      ∃ w : ℕ → BitVec 32, ∀ j, m < (camSlot (fun n => n % N = c) j).tooth → (x (j + 1)).1.rpm = w (camSlot (fun n => n % N = c) j).tooth := by
  obtain ⟨y, z, h0, hb⟩ := even_states he
  have pend : ∀ {n k : ℕ} {d : Decoder} {ex : Option Time} {t : Time}, EvenAt d0 N R g p q T (n + 1) k d ex → ex = some t →
      ∃ E : ℤ, t = stamp E ∧ T (n + 1) + 256 ≤ E ∧ E < T n + 2 ^ 30 := by
    intro n k d ex t h hex
    rcases Nat.lt_or_ge (n + 1) R with hlt | hge
    · have := (h.few hlt).2
      rw [hex] at this
      cases this
    · obtain ⟨-, -, E, h1, h2, h3⟩ := h.seen hge
      rw [hex] at h1
      have hbd := (he.band n).2
      exact ⟨E, Option.some.inj h1, by rw [Nat.add_sub_cancel] at h2; omega, h3⟩
  obtain ⟨x, hp, after⟩ := slot_plan (pl := fun n => n % N = c) (y := y) (z := z) he.wheel.teeth.later he.between h0 (fun n => (hb n).tooth)
    (fun n => (hb n).pulse) (fun n => (hb n).none) (fun n t h => h.elim (pend (hb n).up) (pend (hb n).down))
  have sync : ∀ n, m ≤ n → (y (n + 1)).1.state = .sync := by
    intro n hn
    induction n, hn using Nat.le_induction with
    | base => exact (hb m).gain he.pulse he.enough
    | succ n hn ih => exact (hb (n + 1)).same ((hb (n + 1)).keep ih).1
  have reports : ∀ {n k : ℕ} {d : Decoder} {ex : Option Time}, m < n → EvenAt d0 N R g p q T (n + 1) k d ex → d.state = .sync →
      k % N = teethUp N c n % N → d.lastTriggerTime = stamp (T n) → EvenReports d0 d N m g T n ∧
        SpeedIn g p q d.rpm := by
    intro n k d ex hn h hs hk ht
    obtain ⟨a1, -, a3⟩ := h.sync hs
    obtain ⟨b1, b2, -⟩ := h.seen (by have := he.enough; omega)
    refine ⟨⟨h.cfg, a1, ht, ?_, b1⟩, b2⟩
    rw [a3, hk, teethUp_angle he.place he.pulse hn.le]
    rfl
  have key : ∀ n, m < n → (EvenReports d0 (z n).1 N m g T n ∧ SpeedIn g p q (z n).1.rpm) ∧
      (EvenReports d0 (y (n + 1)).1 N m g T n ∧ SpeedIn g p q (y (n + 1)).1.rpm) := by
    intro n hn
    have hs : (y n).1.state = .sync := by
      have := sync (n - 1) (by omega)
      rw [Nat.sub_add_cancel (by omega : 1 ≤ n)] at this
      exact this
    obtain ⟨k1, k2⟩ := (hb n).keep hs
    exact ⟨reports hn (hb n).up k1 rfl k2, reports hn (hb n).down ((hb n).same k1) (teethDown_angle he.place) ((hb n).time.trans k2)⟩
  refine ⟨x, hp, fun j hj => ?_, fun n => (z n).1.rpm, fun j hj => by
    rcases after j with h1 | h1
    · rw [h1]
    · rw [h1]; exact (hb _).rpm⟩
  rcases after j with h1 | h1
  · rw [h1]; exact (key _ hj).1
  · rw [h1]; exact (key _ hj).2

/-- The pace of the wheel, from what the crank's speed is known to. -/
theorem pace_shape {d0 : Decoder} {N R W low m m0 : ℕ} {v g : ℚ} {p q : ℤ} {T : ℕ → ℤ} {θ : ℤ → ℚ} {t : CrankTol}
    (he : EvenPace d0 N R W low v g p q T) (turns : CrankTurnsFrom θ t id m m0 g T) (s1 : t.speed ≤ 1 / 10) :
    WheelShape id N g p q ∧ 8 * (q : ℚ) ≤ 4000000 / 6 * g := by
  have hg := he.pitch
  have hb := he.band m0
  have hf := turns.fast (m0 + 1) (by omega)
  rw [Nat.add_sub_cancel] at hf
  have h1 : (p : ℚ) ≤ (T (m0 + 1) : ℚ) - T m0 := by exact_mod_cast hb.1
  have hnar : (q : ℚ) ≤ 23 / 16 * p := by
    have : ((16 * q : ℤ) : ℚ) ≤ ((23 * p : ℤ) : ℚ) := by exact_mod_cast he.narrow
    push_cast at this
    linarith
  have hpq : p ≤ q := by omega
  have hpqQ : (p : ℚ) ≤ q := by exact_mod_cast hpq
  have hroom := he.room
  have hp5 : 5 ≤ p := by
    have : ((5 : ℤ) : ℚ) ≤ p := by
      norm_num at hroom ⊢
      linarith
    exact_mod_cast this
  have h60 : 60 * (p : ℚ) ≤ 4000000 / 6 * g := by
    have h2 : t.speed * (4000000 / 6 * g) ≤ 1 / 10 * (4000000 / 6 * g) := mul_le_mul_of_nonneg_right s1 (by linarith)
    have h3 : ((id (m0 + 1) : ℕ) : ℚ) - ((id m0 : ℕ) : ℚ) = 1 := by simp
    rw [h3, mul_one] at hf
    linarith
  exact ⟨⟨fun j => by simp only [id]; omega, he.wheel.cycle, hg, hp5, hpq, by linarith, by linarith, hnar⟩, by linarith⟩

theorem EvenWheel.pace {d0 : Decoder} {N R W low c m : ℕ} {v g : ℚ} {p q : ℤ} {T P : ℕ → ℤ} (he : EvenWheel d0 N R W low c m v g p q T P) :
    EvenPace d0 N R W low v g p q T :=
  ⟨he.wheel.even, by have := he.place; omega, he.band, he.pitch, he.narrow, he.room, he.slow⟩

theorem even_pace {d0 : Decoder} {N R W low c m : ℕ} {v g : ℚ} {p q : ℤ} {T P : ℕ → ℤ} {θ : ℤ → ℚ} {t : CrankTol}
    (he : EvenWheel d0 N R W low c m v g p q T P) (turns : CrankTurns θ t id m g T) (s1 : t.speed ≤ 1 / 10) :
    WheelShape id N g p q ∧ 8 * (q : ℚ) ≤ 4000000 / 6 * g := pace_shape he.pace turns s1

/-- What the firmware knows of the crank. -/
theorem EvenReports.knows {d0 d : Decoder} {N R W low m m0 n : ℕ} {v g : ℚ} {p q : ℤ} {T : ℕ → ℤ} {θ : ℤ → ℚ} {t : CrankTol}
    (h : EvenReports d0 d N m g T n) (he : EvenPace d0 N R W low v g p q T) (turns : CrankTurnsFrom θ t id m m0 g T)
    (s0 : 1 / 2 ^ 18 ≤ t.speed) (s1 : t.speed ≤ 1 / 10) (hn : m0 ≤ n) (hm0 : m ≤ m0) (hn0 : 0 < n) : KnowsCrank θ t (T n) d := by
  obtain ⟨shape, -⟩ := pace_shape he turns s1
  have hg1 := he.pitch
  have hcyc := he.wheel.cycle
  obtain ⟨j, rfl⟩ : ∃ j, n = j + 1 := ⟨n - 1, by omega⟩
  obtain ⟨w, w0, w1, even, last⟩ := turns.speed (j + 1) hn
  have fast := turns.fast (j + 1) hn
  have slow := turns.slow (j + 1) hn
  have place := turns.place (j + 1) hn
  have h3 : ((id (j + 1) : ℕ) : ℚ) - ((id j : ℕ) : ℚ) = 1 := by simp
  rw [Nat.add_sub_cancel, h3, mul_one] at last fast slow
  have hlater := he.wheel.teeth.later j
  have hb := he.band j
  have hsl := he.slow
  have hspan : ((stamp (T (j + 1)) - stamp (T j)).toNat : ℤ) = T (j + 1) - T j := by
    rw [stamp_sub]
    exact stamp_toNat (by omega) (by omega)
  have hD : ((stamp (T (j + 1)) - stamp (T j)).toNat : ℚ) = (T (j + 1) : ℚ) - T j := by exact_mod_cast hspan
  have hD0 : (0 : ℚ) < (T (j + 1) : ℚ) - T j := by
    have : ((T j : ℤ) : ℚ) < T (j + 1) := by exact_mod_cast hlater
    linarith
  have hg2 := he.wheel.cfg.g360
  obtain ⟨r, hr, hr1, hr2⟩ := rpm_close (t := stamp (T (j + 1)) - stamp (T j)) (q := g) (by omega) (by linarith) (by norm_num; linarith) (by
    rw [hD, div_le_iff₀ (by linarith)]
    linarith)
  have hrd : r = d.toothRpm := by
    have := h.speed
    rw [Nat.add_sub_cancel, hr] at this
    exact Except.ok.inj this
  rw [hD, hrd] at hr1 hr2
  obtain ⟨t0, t1⟩ := toothReads_range (n0 := m) shape (j + 1)
  refine ⟨h.time, ⟨_, h.angle, t0, t1, ?_⟩, w, w0, w1, ?_, even⟩
  · refine ⟨((j + 1 - m) / N : ℕ), ?_⟩
    have h1 := Nat.div_add_mod (j + 1 - m) N
    have h2 : (N : ℚ) * (((j + 1 - m) / N : ℕ) : ℚ) + (((j + 1 - m) % N : ℕ) : ℚ) = ((j + 1 : ℕ) : ℚ) - m := by
      rw [← Nat.cast_sub (hm0.trans hn)]
      exact_mod_cast h1
    change |θ (T (j + 1)) - g * (((j + 1 : ℕ) : ℚ) - ((m : ℕ) : ℚ))| ≤ t.angle at place
    rw [Int.cast_natCast]
    show |θ (T (j + 1)) - g * (((j + 1 - m) % N : ℕ) : ℚ) - 720 * _| ≤ _
    generalize (((j + 1 - m) / N : ℕ) : ℚ) = x at *
    generalize (((j + 1 - m) % N : ℕ) : ℚ) = y at *
    rw [← h2] at place
    have h3 : θ (T (j + 1)) - g * y - 720 * x = θ (T (j + 1)) - g * (N * x + y) := by linear_combination x * hcyc
    rw [h3]
    exact place
  · exact speed_close hD0 s0 s1 last (by linarith) hr1 hr2

/-- Every state of a run from the first tooth after the synchronising cam pulse on. -/
theorem even_follows {d0 : Decoder} {N R W low c m j1 : ℕ} {v g O : ℚ} {p q : ℤ} {T P : ℕ → ℤ} {θ : ℤ → ℚ} {t : CrankTol}
    {eb e1 : Engine} {n1 E1 : ℤ} {Gd : ℤ → Engine → Prop} (he : EvenWheel d0 N R W low c m v g p q T P) (ho : d0.offset = .fin O)
    (turns : CrankTurns θ t id m g T) (hc : t.Sane) (s0 : 1 / 2 ^ 18 ≤ t.speed)
    (hG : ∀ n e, Gd n e → EventsGiven (camEvent (fun n => n % N = c) T P) n e) (hb : EngBoot eb) (hd : eb.cfg.decoder = decoderInit d0)
    (h1 : EngTimed Honest Gd eb n1 E1 e1) (hj1 : Decoded (j1 + 1) e1) (hn : m < (camSlot (fun n => n % N = c) j1).tooth) :
    Follows θ t id N m (m + 1) g O q T (fun j => (camSlot (fun n => n % N = c) j).tooth) j1 Gd n1 E1 e1 := by
  intro n E e h
  obtain ⟨hsh, hq8⟩ := even_pace he turns hc.speed1
  have hq0 : 0 < q := by have := hsh.p5; have := hsh.pq; omega
  obtain ⟨x, hp, hx, -⟩ := even_plan he
  obtain ⟨-, i1, hi1⟩ := timed_decoded hp (G := Gd) hG hb hd h1
  obtain rfl := hj1.unique hi1.count
  obtain ⟨j', l1, hj'⟩ := on_decoded hp (G := Gd) hG hi1 h
  obtain ⟨gy, -⟩ := timed_decoded hp (G := Gd) hG hb hd (on_timed h1 h)
  obtain ⟨j, rfl⟩ : ∃ j, j' = j + 1 := ⟨j' - 1, by omega⟩
  have hT := he.wheel.teeth.later
  have hP := he.between
  have hf := cam_feed (pl := fun n => n % N = c) hT hP
  have hle : m < (camSlot (fun n => n % N = c) j).tooth := lt_of_lt_of_le hn (hf.le (by omega : j1 ≤ j))
  obtain ⟨r, fl⟩ := hx j hle
  obtain ⟨a, b, hdec⟩ := hj'.decoder
  have hpass := events_passed (hG _ _ gy) hj'.count
  have haf := hf.after j
  obtain ⟨kk, kk1, kk2, kk3⟩ := hG _ _ gy
  have hlen : e.given.length = kk := by rw [kk1]; simp
  have hgl := hj'.count.given
  rw [hlen] at hgl
  refine ⟨gy, j, by omega, by dsimp only; omega, hj'.count, by rw [hdec]; exact r.valid, ?_, by rw [hdec]; exact r.angle, ?_,
    le_trans haf hpass, ?_, ?_⟩
  · rw [hdec]
    exact (congrArg DecConfig.offset r.cfg).trans ho
  · rw [hdec]
    exact fl.floor hq0 hq8
  · have c1 := (cam_near (pl := fun n => n % N = c) hT hP j).2
    have c2 := (cam_near (pl := fun n => n % N = c) hT hP (j + 1)).2
    have c3 := (cam_near (pl := fun n => n % N = c) hT hP (j + 1 + 1)).1
    have c4 := hf.order (by omega : kk ≤ j + 1 + 1)
    have c5 : T ((camSlot (fun n => n % N = c) (j + 1 + 1)).tooth + 1) ≤ T ((camSlot (fun n => n % N = c) j).tooth + 1 + 1 + 1) :=
      monotone_nat_of_le_succ (fun n => (hT n).le) (by omega)
    have h1 := (he.band (camSlot (fun n => n % N = c) j).tooth).2
    have h2 := (he.band ((camSlot (fun n => n % N = c) j).tooth + 1)).2
    have h3 := (he.band ((camSlot (fun n => n % N = c) j).tooth + 1 + 1)).2
    have h4 := he.slow
    dsimp only
    omega
  · rw [hdec]
    exact knows_recount (r.knows he.pace turns s0 hc.speed1 hle (Nat.le_succ m) (by omega)) a b

end Verif
