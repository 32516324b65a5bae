/-
C102: an even wheel without a cam gains its position once it turns steadily.
-/
import Verif.Props.Even

namespace Verif

variable [FloatFmt]
open FloatFmt

/-- Too many teeth counted. -/
theorem high_checks {d : Decoder} (h : d.numTriggers.toNat < d.triggersSinceLastSync.toNat) : (evenChecks d).state = .nosync := by
  unfold evenChecks
  simp only
  by_cases e : evenExcessive d = true
  · rw [if_pos e, if_pos (by exact h)]
  · rw [if_neg e, if_pos h]

/-- A tooth that finds too many counted. -/
theorem high_tooth {d d1 : Decoder} {t : Time} {b : Bool} (hs : d.state ≠ .sync)
    (hN : d.numTriggers.toNat < (d.triggersSinceLastSync + 1).toNat) (h : evenTriggerUpdate d t = .ok (d1, b)) :
    d1.state = .nosync ∧ d1.valid = d.valid ∧ d1.triggersSinceLastSync = d.triggersSinceLastSync + 1 ∧ d1.cfg = d.cfg := by
  obtain ⟨_, _, _, _, _, _, _, _, hfr, -⟩ := evenTriggerUpdate_frame h
  refine ⟨?_, by rw [hfr]; rfl, by rw [hfr], by rw [hfr]; rfl⟩
  unfold evenTriggerUpdate at h
  obtain ⟨c, s, hb, hs', -⟩ := evenBook_frame d t
  obtain ⟨a, lt, ha⟩ := evenAdvance_frame (evenBook d t) t
  simp only at h
  have e1 : (evenAdvance (evenBook d t) t).numTriggers = d.numTriggers := by rw [ha, hb]; rfl
  have e2 : (evenAdvance (evenBook d t) t).triggersSinceLastSync = d.triggersSinceLastSync + 1 := by rw [ha, hb]
  have e3 : (evenAdvance (evenBook d t) t).state ≠ .sync := by
    rw [ha, hb]
    show s ≠ _
    rcases hs' with h | h
    · rw [h]; exact hs
    · rw [h.2]; decide
  generalize evenAdvance (evenBook d t) t = d2 at *
  split_ifs at h with hst
  · rw [bind_eq_ok] at h; obtain ⟨d3, hd3, h⟩ := h
    simp only [except_pure, Except.ok.injEq, Prod.mk.injEq] at h
    rw [← h.1]
    unfold evenUpdateRpm at hd3
    simp only [bind_eq_ok] at hd3
    obtain ⟨t0, -, t1, -, tr, -, d4, hd4, e, -, h3⟩ := hd3
    simp only [except_pure, Except.ok.injEq] at h3
    rw [← h3]
    obtain ⟨r, cc, hd4'⟩ := evenWindowRpm_frame hd4
    refine high_checks (d := d4) ?_
    rw [hd4']
    show d2.numTriggers.toNat < d2.triggersSinceLastSync.toNat
    rw [e1, e2]; exact hN
  · simp only [except_pure, Except.ok.injEq, Prod.mk.injEq] at h
    rw [← h.1]
    cases hd : d2.state
    · rfl
    · exact absurd (Or.inl hd) hst
    · exact absurd hd e3

/-- A trigger on a wheel without a cam. -/
theorem free_tooth {d : Decoder} {k : Int} {t : Time} {o : DecOut} (ht : d.type = .evenNosync) (h : decode d k t = .ok o) :
    ∃ d1 b, evenTriggerUpdate d t = .ok (d1, b) ∧ (d1.state = .nosync → d.state ≠ .sync → o = { d := d1, expire := expireReq d1 b, lost := false }) := by
  unfold decode at h
  simp only [ht] at h
  unfold decodeEvenNosync at h
  simp only at h
  rw [bind_eq_ok] at h; obtain ⟨⟨d1, b⟩, h1, h⟩ := h
  refine ⟨d1, b, h1, fun hs hn => ?_⟩
  simp only at h
  rw [if_neg (by rw [hs]; decide), if_neg hn] at h
  exact (Except.ok.inj h).symm

/-- A trigger when too many teeth were counted changes nothing but the count. -/
theorem high_step {d : Decoder} {k : Int} {t : Time} {o : DecOut} (ht : d.type = .evenNosync) (hs : d.state ≠ .sync)
    (hN : d.numTriggers.toNat < (d.triggersSinceLastSync + 1).toNat) (h : decode d k t = .ok o) :
    o.d.state = .nosync ∧ o.d.valid = d.valid ∧ o.d.triggersSinceLastSync = d.triggersSinceLastSync + 1 ∧ o.d.cfg = d.cfg := by
  obtain ⟨d1, b, h1, h2⟩ := free_tooth ht h
  obtain ⟨a1, a2, a3, a4⟩ := high_tooth hs hN h1
  rw [h2 a1 hs]
  exact ⟨a1, a2, a3, a4⟩

/-- The decoder of an even wheel without a cam is stuck: once as many teeth have been counted without a position as the
wheel has in a cycle, no tooth and no pulse on the other input, whenever it comes, gives a position again, until the decoder is reset.
(The count is a 32-bit number and would begin again after 2^32 teeth.) -/
theorem C102_stuck {d d' : Decoder} {ks : List (Int × Time)} (ht : d.type = .evenNosync) (hs : d.state ≠ .sync) (hv : d.valid = false)
    (hN : d.numTriggers.toNat ≤ d.triggersSinceLastSync.toNat) (few : d.triggersSinceLastSync.toNat + ks.length < 2 ^ 32)
    (h : d.run (ks.map fun x => .trigger x.1 x.2) = .ok d') : d'.valid = false ∧ d'.state ≠ .sync := by
  induction ks generalizing d with
  | nil => rw [← Except.ok.inj h]; exact ⟨hv, hs⟩
  | cons x ks ih =>
      rw [List.map_cons, Decoder.run, bind_eq_ok] at h
      obtain ⟨o, ho, h⟩ := h
      change decode d x.1 x.2 = .ok o at ho
      rw [List.length_cons] at few
      have hc : (d.triggersSinceLastSync + 1).toNat = d.triggersSinceLastSync.toNat + 1 := by
        generalize d.triggersSinceLastSync = k at *
        bv_omega
      obtain ⟨a1, a2, a3, a4⟩ := high_step ht hs (by omega) ho
      refine ih ((congrArg DecConfig.type a4).trans ht) (by rw [a1]; decide) (a2.trans hv) ?_ (by rw [a3, hc]; omega) h
      rw [a3, hc, show o.d.numTriggers = d.numTriggers from congrArg DecConfig.numTriggers a4]
      omega

/-- With more teeth required for a speed than the wheel has in a cycle, an even wheel without a cam never gives a position, whatever
happens to it (in fewer than 2^32 events). -/
theorem C102_required {d0 d : Decoder} {evs : List DecEv} (ht : d0.type = .evenNosync)
    (hR : d0.numTriggers.toNat < d0.requiredTriggersRpm.toNat) (few : evs.length < 2 ^ 32) (h : DecRun d0 evs d) :
    d.valid = false ∧ d.state = .nosync := by
  have key : d.cfg = (decoderInit d0).cfg ∧ d.valid = false ∧ d.state = .nosync ∧
      d.currentTriggersRpm.toNat ≤ d.triggersSinceLastSync.toNat ∧ d.triggersSinceLastSync.toNat ≤ evs.length := by
    induction h with
    | start => exact ⟨rfl, rfl, rfl, le_refl _, Nat.zero_le _⟩
    | @on d evs ev o hr ho ih =>
        rw [List.length_cons] at few ⊢
        obtain ⟨hcfg, hval, hs, hle, hlen⟩ := ih (by omega)
        cases ev with
        | trigger k t =>
            change decode d k t = .ok o at ho
            have hty : d.type = .evenNosync := (congrArg DecConfig.type hcfg).trans ht
            have hc : (d.triggersSinceLastSync + 1).toNat = d.triggersSinceLastSync.toNat + 1 := by
              generalize d.triggersSinceLastSync = k at *
              bv_omega
            obtain ⟨d1, b, h1, h2⟩ := free_tooth hty ho
            obtain ⟨c, s, hb, hs', hcc⟩ := evenBook_cur d t
            have hcur : d1.currentTriggersRpm = c := (evenTriggerUpdate_cur h1).trans (by rw [hb])
            obtain ⟨_, _, _, s2, _, _, c2, _, hfr, -, hns, -, hq⟩ := evenTriggerUpdate_frame h1
            have hst : d1.state = .nosync := by
              by_cases hN : d.numTriggers.toNat < (d.triggersSinceLastSync + 1).toNat
              · exact (high_tooth (by rw [hs]; decide) hN h1).1
              · have e1 : d.numTriggers = d0.numTriggers := congrArg DecConfig.numTriggers hcfg
                have e2 : d.requiredTriggersRpm = d0.requiredTriggersRpm := congrArg DecConfig.requiredTriggersRpm hcfg
                by_contra hne
                rw [hfr] at hne hcur
                rcases hq hne with h | h
                · exact h hs
                · change c2 = c at hcur
                  rw [hcur, e2] at h
                  rw [e1] at hN
                  split_ifs at hcc <;> omega
            rw [h2 hst (by rw [hs]; decide)]
            refine ⟨?_, ?_, hst, ?_, ?_⟩
            · show d1.cfg = _
              rw [hfr]; exact hcfg
            · show d1.valid = _
              rw [hfr]; exact hval
            · show d1.currentTriggersRpm.toNat ≤ d1.triggersSinceLastSync.toNat
              rw [hcur, show d1.triggersSinceLastSync = d.triggersSinceLastSync + 1 by rw [hfr], hc]
              split_ifs at hcc <;> omega
            · show d1.triggersSinceLastSync.toNat ≤ _
              rw [show d1.triggersSinceLastSync = d.triggersSinceLastSync + 1 by rw [hfr], hc]
              omega
        | expire => rw [← Except.ok.inj ho]; exact ⟨hcfg, rfl, rfl, le_refl _, Nat.zero_le _⟩
        | desync r => rw [← Except.ok.inj ho]; exact ⟨hcfg, rfl, rfl, le_refl _, Nat.zero_le _⟩
  exact ⟨key.2.1, key.2.2.1⟩

theorem run_history {d0 : Decoder} {l bs : List DecEv} {d e : Decoder} (hb : DecRun d0 bs d) (hr : d.run l = .ok e) : DecRun d0 (l.reverse ++ bs) e := by
  induction l generalizing d bs with
  | nil => rw [← Except.ok.inj hr]; exact hb
  | cons a l ih =>
      rw [Decoder.run, bind_eq_ok] at hr
      obtain ⟨o, ho, hr⟩ := hr
      rw [List.reverse_cons, List.append_assoc]
      exact ih (.on hb ho) hr

omit [FloatFmt] in
/-- The hypotheses are met: a wheel of 4 teeth, of which 5 are required. -/
example : ∃ d, @DecRun binary32 { demoEven with type := .evenNosync, requiredTriggersRpm := 5 } (teeth [280000, 240000, 200000, 160000, 120000, 80000, 40000]) d ∧
    d.currentTriggersRpm.toNat = 7 ∧ d.valid = false := by
  let _ := binary32
  obtain ⟨d, h1, h2⟩ := okAnd_ok (x := (decoderInit { demoEven with type := .evenNosync, requiredTriggersRpm := 5 }).run (teeth [40000, 80000, 120000, 160000, 200000, 240000, 280000]))
    (p := fun d => d.currentTriggersRpm.toNat = 7) (by decide +kernel)
  simp only [decide_eq_true_eq] at h2
  have h : DecRun { demoEven with type := .evenNosync, requiredTriggersRpm := 5 } (teeth [280000, 240000, 200000, 160000, 120000, 80000, 40000]) d := run_history .start h1
  exact ⟨d, h, h2, (C102_required rfl (by decide) (by decide) h).1⟩

/-- The decoder after `n` teeth. -/
structure FreeAt (d0 : Decoder) (N R a : ℕ) (g : ℚ) (T : ℕ → ℤ) (n : ℕ) (d : Decoder) : Prop where
  cfg : d.cfg = (decoderInit d0).cfg
  cur : d.currentTriggersRpm.toNat = min n 37
  hist : 0 < n → HistOk d T (n - 1) (n - 1)
  few : n < R → d.state = .nosync ∧ d.valid = false ∧ d.triggersSinceLastSync.toNat = n ∧ d.lastTriggerAngle = .fin (g * ((a % N : ℕ) : ℚ))
  many : R ≤ n → d.state = .sync ∧ d.valid = true ∧ d.triggersSinceLastSync = 0 ∧ d.lastTriggerTime = stamp (T (n - 1)) ∧
    d.lastTriggerAngle = .fin (g * (((a + (n - R)) % N : ℕ) : ℚ))

/-- What a tooth of the wheel does. -/
structure FreeTooth (d0 : Decoder) (N R a : ℕ) (g : ℚ) (T : ℕ → ℤ) (n : ℕ) (o : DecOut) : Prop where
  at' : FreeAt d0 N R a g T (n + 1) o.d
  kept : o.lost = false
  few : n + 1 < R → o.expire = none
  many : R ≤ n + 1 → 1 ≤ n ∧ rpmFromTimeDiff (stamp (T n) - stamp (T (n - 1))) (.fin g) = .ok o.d.toothRpm ∧
    (∃ x, o.expire = some (stamp (T n) + x) ∧ Fl.toU32 (Fl.ofU32 (stamp (T n) - stamp (T (n - 1))) * Fl.fin (3 / 2)) = .ok x) ∧
    ∃ w, 1 ≤ w ∧ w ≤ n ∧ speed (g * w) (T n - T (n - w)) * (1 - 1 / 2 ^ 21) - 1 ≤ (o.d.rpm.toNat : ℚ) ∧
      (o.d.rpm.toNat : ℚ) ≤ speed (g * w) (T n - T (n - w)) * (1 + 1 / 2 ^ 21)

/-- The teeth counted and the state, before the speeds are computed. -/
theorem free_booked {d d0 : Decoder} {N R W low a n : ℕ} {v g : ℚ} {T : ℕ → ℤ}
    (hw : EvenTeeth d0 N R W low v g T) (hRN : R ≤ N) (hR37 : R ≤ 37) (h : FreeAt d0 N R a g T n d) :
    ∃ d2, evenAdvance (evenBook d (stamp (T n))) (stamp (T n)) = d2 ∧ d2.cfg = d.cfg ∧ d2.valid = d.valid ∧
      d2.currentTriggersRpm.toNat = min (n + 1) 37 ∧ HistOk d2 T n n ∧
      (n + 1 < R → d2.state = .nosync) ∧ (n < R → d2.triggersSinceLastSync.toNat = n + 1 ∧ d2.lastTriggerAngle = .fin (g * ((a % N : ℕ) : ℚ))) ∧
      (R ≤ n + 1 → (d2.state = .rpm ∨ d2.state = .sync) ∧ d2.triggersSinceLastSync.toNat ≤ N ∧ 
        d2.lastTriggerAngle = .fin (g * (((a + (n + 1 - R)) % N : ℕ) : ℚ))) := by
  have hc := cfg_even hw.cfg h.cfg
  have hg0 : 0 < g := by have := hc.g1; linarith
  have hN := hc.count
  have hNlt := d.numTriggers.isLt
  obtain ⟨c, s, hb, hs, hcc⟩ := evenBook_cur d (stamp (T n))
  have hcur : c.toNat = min (n + 1) 37 := by rw [hcc, h.cur]; split_ifs <;> omega
  have hh : HistOk (pushTime d (stamp (T n))) T n n := by
    rcases Nat.eq_zero_or_pos n with rfl | hn
    · intro i hi hn
      have : i = 0 := by omega
      subst this
      rfl
    · have := histOk_push (h.hist hn)
      rw [Nat.sub_add_cancel hn] at this
      exact this
  rw [hc.required, hcur] at hs
  rw [hb]
  rcases Nat.lt_or_ge n R with hlt | hge
  · obtain ⟨a1, a2, a3, a4⟩ := h.few hlt
    have hcnt : (d.triggersSinceLastSync + 1).toNat = n + 1 := by
      generalize d.triggersSinceLastSync = k at *
      bv_omega
    have hse : s ≠ .sync := by
      rw [hs]
      split_ifs
      · decide
      · rw [a1]; decide
    have hadv : evenAdvance { pushTime d (stamp (T n)) with triggersSinceLastSync := d.triggersSinceLastSync + 1, currentTriggersRpm := c, state := s } (stamp (T n)) =
        { pushTime d (stamp (T n)) with triggersSinceLastSync := d.triggersSinceLastSync + 1, currentTriggersRpm := c, state := s } := by
      unfold evenAdvance
      exact if_neg hse
    rw [hadv]
    refine ⟨_, rfl, rfl, rfl, hcur, hh, fun hlt => ?_, fun _ => ⟨hcnt, a4⟩, fun hle => ⟨Or.inl ?_, by show (d.triggersSinceLastSync + 1).toNat ≤ N; omega, ?_⟩⟩
    · show s = _
      rw [hs, if_neg (fun h => by omega)]
      exact a1
    · show s = _
      rw [hs, if_pos ⟨a1, by omega⟩]
    · show d.lastTriggerAngle = _
      rw [a4, show n + 1 - R = 0 by omega, Nat.add_zero]
  · obtain ⟨a1, a2, a3, a4, a5⟩ := h.many hge
    have hse : s = .sync := by rw [hs, if_neg (by rw [a1]; exact fun h => nomatch h.1), a1]
    subst hse
    rw [evenAdvance_sync (d := { pushTime d (stamp (T n)) with triggersSinceLastSync := d.triggersSinceLastSync + 1, currentTriggersRpm := c, state := .sync })
      (g := g) rfl hc.pitch]
    have hR2 := hc.R2
    refine ⟨_, rfl, rfl, rfl, hcur, hh, fun hlt => by omega, fun h => by omega, fun _ => ⟨Or.inr rfl, ?_, ?_⟩⟩
    · show (d.triggersSinceLastSync + 1).toNat ≤ N
      rw [a3]
      show 1 ≤ N
      omega
    · show (if Fl.le (Fl.fin 720) (d.lastTriggerAngle + .fin g) then (d.lastTriggerAngle + .fin g) - Fl.fin 720 else d.lastTriggerAngle + .fin g) = _
      rw [a5, even_angle hg0 hw.cycle hw.grid (Nat.mod_lt _ (by omega)), Nat.mod_add_mod, show a + (n - R) + 1 = a + (n + 1 - R) by omega]

theorem free_tooth_ok {d d1 : Decoder} {k : Int} {t : Time} {b : Bool} (ht : d.type = .evenNosync)
    (h : evenTriggerUpdate d t = .ok (d1, b)) (hs : d1.state = .rpm ∨ d1.state = .sync) : decode d k t = .ok
      { d := { d1 with state := .sync, loss := .noLoss, valid := true, lastTriggerTime := t, triggersSinceLastSync := 0 },
        expire := expireReq d1 b, lost := false } := by
  unfold decode
  simp only [ht]
  unfold decodeEvenNosync
  simp only
  rw [h, except_bind_ok]
  simp only
  rw [if_pos hs]
  rfl

theorem free_tooth_wait {d d1 : Decoder} {k : Int} {t : Time} {b : Bool} (ht : d.type = .evenNosync)
    (h : evenTriggerUpdate d t = .ok (d1, b)) (hs : d1.state = .nosync) (hn : d.state ≠ .sync) : decode d k t = .ok
      { d := d1, expire := expireReq d1 b, lost := false } := by
  unfold decode
  simp only [ht]
  unfold decodeEvenNosync
  simp only
  rw [h, except_bind_ok]
  simp only
  rw [if_neg (by rw [hs]; decide), if_neg hn]
  rfl

/-- A tooth. -/
theorem free_next {d d0 : Decoder} {N R W low a n : ℕ} {v g : ℚ} {T : ℕ → ℤ} {k : Int} (ht : d0.type = .evenNosync)
    (hw : EvenTeeth d0 N R W low v g T) (hWR : W < R) (hRN : R ≤ N) (hR37 : R ≤ 37) (h : FreeAt d0 N R a g T n d) :
    ∃ o, decode d k (stamp (T n)) = .ok o ∧ FreeTooth d0 N R a g T n o := by
  have hty : d.type = .evenNosync := (congrArg DecConfig.type h.cfg).trans ht
  have hW2 := hw.cfg.W2
  obtain ⟨d2, hd2, e1, e2, e3, e4, e5, e6, e7⟩ := free_booked hw hRN hR37 h
  have hcfg2 : d2.cfg = (decoderInit d0).cfg := e1.trans h.cfg
  rcases Nat.lt_or_ge (n + 1) R with hlt | hge
  · have hst := e5 hlt
    obtain ⟨a1, a2, -, -⟩ := h.few (by omega)
    obtain ⟨b1, b2⟩ := e6 (by omega)
    have hup : evenTriggerUpdate d (stamp (T n)) = .ok (d2, false) := by
      unfold evenTriggerUpdate
      simp only
      rw [hd2, if_neg (by rw [hst]; decide)]
      rfl
    exact ⟨_, free_tooth_wait hty hup hst (by rw [a1]; decide), ⟨hcfg2, e3, fun _ => e4, fun _ => ⟨hst, e2.trans a2, b1, b2⟩, fun h => by omega⟩, rfl,
      fun _ => rfl, fun h => by omega⟩
  · obtain ⟨j, rfl⟩ : ∃ j, n = j + 1 := ⟨n - 1, by omega⟩
    obtain ⟨f1, f2, f3⟩ := e7 hge
    obtain ⟨tr, r, cc, x, hupd, htr, hx, w, hw1, hw2, hr⟩ := even_update (cfg_even hw.cfg hcfg2) hw.teeth e4 (by omega) f2 (by omega) (by omega)
    have hup : evenTriggerUpdate d (stamp (T (j + 1))) =
        .ok ({ d2 with toothRpm := tr, rpm := r, curRpmChange := cc, expiration := stamp (T (j + 1)) + x }, true) := by
      unfold evenTriggerUpdate
      simp only
      rw [hd2, if_pos f1, hupd, except_bind_ok]
      rfl
    exact ⟨_, free_tooth_ok hty hup f1, ⟨hcfg2, e3, fun _ => e4, fun h => by omega, fun _ => ⟨rfl, rfl, rfl, rfl, f3⟩⟩, rfl, fun h => by omega,
      fun _ => ⟨by omega, htr, ⟨x, rfl, hx⟩, w, hw1, hw2, hr⟩⟩

/-- The teeth of the wheel so far. -/
def teethTo (T : ℕ → ℤ) (n : ℕ) : List DecEv := (List.range n).map fun j => .trigger 0 (stamp (T j))

theorem run_join (l l' : List DecEv) (d : Decoder) : d.run (l ++ l') = d.run l >>= fun d => d.run l' := by
  induction l generalizing d with
  | nil => rfl
  | cons x l ih =>
      rw [List.cons_append, Decoder.run, Decoder.run]
      cases d.on x with
      | error e => rfl
      | ok o => exact ih o.d

theorem run_teeth_succ {d : Decoder} {T : ℕ → ℤ} {n : ℕ} :
    d.run (teethTo T (n + 1)) = d.run (teethTo T n) >>= fun d => decode d 0 (stamp (T n)) >>= fun o => .ok o.d := by
  unfold teethTo
  rw [List.range_succ, List.map_append, run_join]
  rfl

theorem free_fed {d0 d : Decoder} {N R W low a : ℕ} {v g : ℚ} {T : ℕ → ℤ} (ht : d0.type = .evenNosync)
    (hw : EvenTeeth d0 N R W low v g T) (hWR : W < R) (hRN : R ≤ N) (hR37 : R ≤ 37) (h0 : FreeAt d0 N R a g T 0 d) (n : ℕ) :
    ∃ d', d.run (teethTo T n) = .ok d' ∧ FreeAt d0 N R a g T n d' := by
  induction n with
  | zero => exact ⟨d, rfl, h0⟩
  | succ n ih =>
      obtain ⟨d, h1, h2⟩ := ih
      obtain ⟨o, ho, h3⟩ := free_next (k := 0) ht hw hWR hRN hR37 h2
      refine ⟨o.d, ?_, h3.at'⟩
      rw [run_teeth_succ, h1, except_bind_ok, ho, except_bind_ok]

/-- Whatever happens, the angle is a multiple of the pitch. -/
theorem free_angle {d0 d : Decoder} {N R W low m : ℕ} {v g : ℚ} {T : ℕ → ℤ} (ht : d0.type = .evenNosync)
    (hw : EvenTeeth d0 N R W low v g T) (hN : 0 < N) (h : DecFresh d0 m d) :
    d.cfg = (decoderInit d0).cfg ∧ ∃ a < N, d.lastTriggerAngle = .fin (g * (a : ℚ)) := by
  have hg0 : 0 < g := by have := hw.cfg.g1; linarith
  have step : ∀ {d : Decoder} {ev : DecEv} {o : DecOut}, d.cfg = (decoderInit d0).cfg → (∃ a < N, d.lastTriggerAngle = .fin (g * (a : ℚ))) →
      d.on ev = .ok o → o.d.cfg = (decoderInit d0).cfg ∧ ∃ a < N, o.d.lastTriggerAngle = .fin (g * (a : ℚ)) := by
    intro d ev o hcfg ⟨a, ha, hang⟩ ho
    cases ev with
    | expire => rw [← Except.ok.inj ho]; exact ⟨hcfg, a, ha, hang⟩
    | desync r => rw [← Except.ok.inj ho]; exact ⟨hcfg, a, ha, hang⟩
    | trigger k t =>
        change decode d k t = .ok o at ho
        unfold decode at ho
        simp only [show d.type = .evenNosync from (congrArg DecConfig.type hcfg).trans ht] at ho
        unfold decodeEvenNosync at ho
        simp only at ho
        rw [bind_eq_ok] at ho; obtain ⟨⟨d1, b⟩, h1, ho⟩ := ho
        obtain ⟨_, _, _, _, _, _, _, _, hfr, -⟩ := evenTriggerUpdate_frame h1
        have key : d1.cfg = (decoderInit d0).cfg ∧ ∃ a < N, d1.lastTriggerAngle = .fin (g * (a : ℚ)) := by
          refine ⟨by rw [hfr]; exact hcfg, ?_⟩
          have e1 : d1.lastTriggerAngle = (evenAdvance (evenBook d t) t).lastTriggerAngle := by rw [hfr]
          rw [e1]
          obtain ⟨c, s, hb, -⟩ := evenBook_cur d t
          have e2 : (evenBook d t).lastTriggerAngle = .fin (g * (a : ℚ)) := by rw [hb]; exact hang
          have e3 : (evenBook d t).degreesPerTrigger = .fin g := by
            rw [hb]
            exact (congrArg DecConfig.degreesPerTrigger hcfg).trans hw.cfg.pitch
          by_cases hs : (evenBook d t).state = .sync
          · rw [evenAdvance_sync hs e3, e2]
            exact ⟨(a + 1) % N, Nat.mod_lt _ hN, even_angle hg0 hw.cycle hw.grid ha⟩
          · unfold evenAdvance
            rw [if_neg hs]
            exact ⟨a, ha, e2⟩
        simp only at ho
        split_ifs at ho <;> (rw [← Except.ok.inj ho]; exact key)
  induction h with
  | start => exact ⟨rfl, 0, hN, by rw [show (decoderInit d0).lastTriggerAngle = Fl.fin 0 from rfl]; simp⟩
  | keep _ ho _ ih => exact step ih.1 ih.2 ho
  | lose _ ho _ ih => exact step ih.1 ih.2 ho

/-- What a loss leaves. -/
theorem free_lost {d : Decoder} {ev : DecEv} {o : DecOut} (ht : d.type = .evenNosync) (h : d.on ev = .ok o) (hl : o.lost = true) :
    o.d.state = .nosync ∧ o.d.valid = false ∧ o.d.triggersSinceLastSync = 0 ∧ o.d.currentTriggersRpm = 0 := by
  cases ev with
  | expire => rw [← Except.ok.inj h]; exact ⟨rfl, rfl, rfl, rfl⟩
  | desync r => rw [← Except.ok.inj h]; exact ⟨rfl, rfl, rfl, rfl⟩
  | trigger k t =>
      change decode d k t = .ok o at h
      unfold decode at h
      simp only [ht] at h
      unfold decodeEvenNosync at h
      simp only at h
      rw [bind_eq_ok] at h; obtain ⟨⟨d1, b⟩, h1, h⟩ := h
      simp only at h
      split_ifs at h
      · rw [← Except.ok.inj h] at hl; cases hl
      · rw [← Except.ok.inj h]; exact ⟨rfl, rfl, rfl, rfl⟩
      · rw [← Except.ok.inj h] at hl; cases hl

/-- C102, the whole claim: an even wheel without a cam, with settings that fit it, after any history.  Once it turns steadily, the decoder
has a valid position within a hundred engine cycles. -/
def C102_full : Prop :=
  ∀ (d0 d : Decoder) (N R W low m : ℕ) (v g : ℚ) (T : ℕ → ℤ), d0.type = .evenNosync → EvenTeeth d0 N R W low v g T → W < R → R ≤ N → R ≤ 37 →
    DecFresh d0 m d → ∃ n ≤ 100 * N, ∃ d', d.run (teethTo T n) = .ok d' ∧ d'.valid = true

/-- C102 (partial: from the start, or from a loss of the position; without one, teeth that were too slow or uneven before are
counted).  An even wheel of any size without a cam, after any history that ends in a loss of the position, turns steadily for ever
after.  Then the position is valid from the tooth with the required number on, for ever: it advances by one pitch per tooth, round the engine cycle, from where
it was, and the reported time is the time of the tooth.  No step faults. -/
theorem C102_gains_partial {d0 d : Decoder} {N R W low : ℕ} {v g : ℚ} {T : ℕ → ℤ} (ht : d0.type = .evenNosync)
    (hw : EvenTeeth d0 N R W low v g T) (hWR : W < R) (hRN : R ≤ N) (hR37 : R ≤ 37) (h : DecFresh d0 0 d) :
    ∃ a < N, d.lastTriggerAngle = .fin (g * (a : ℚ)) ∧ ∀ n, ∃ d', d.run (teethTo T n) = .ok d' ∧ (n < R → d'.valid = false) ∧
      (R ≤ n → d'.valid = true ∧ d'.lastTriggerTime = stamp (T (n - 1)) ∧ d'.lastTriggerAngle = .fin (g * (((a + (n - R)) % N : ℕ) : ℚ))) := by
  have hR2 := hw.cfg.R2
  obtain ⟨hcfg, a, ha, hang⟩ := free_angle ht hw (by omega) h
  have zero : d.state = .nosync ∧ d.valid = false ∧ d.triggersSinceLastSync = 0 ∧ d.currentTriggersRpm = 0 := by
    cases h with
    | start => exact ⟨rfl, rfl, rfl, rfl⟩
    | lose hr ho hl => exact free_lost ((congrArg DecConfig.type (free_angle ht hw (by omega) hr).1).trans ht) ho hl
  obtain ⟨z1, z2, z3, z4⟩ := zero
  have h0 : FreeAt d0 N R a g T 0 d :=
    ⟨hcfg, by rw [z4]; rfl, fun h => by omega, fun _ => ⟨z1, z2, by rw [z3]; rfl, by rw [Nat.mod_eq_of_lt ha]; exact hang⟩, fun h => by omega⟩
  refine ⟨a, ha, hang, fun n => ?_⟩
  obtain ⟨d', h1, h2⟩ := free_fed ht hw hWR hRN hR37 h0 n
  exact ⟨d', h1, fun h => (h2.few h).2.1, fun h => ⟨(h2.many h).2.1, (h2.many h).2.2.2.1, (h2.many h).2.2.2.2⟩⟩

/-- An even wheel of 4 teeth per cycle, a window of 2 teeth, and 3 teeth required. -/
def demoFree : Decoder := { demoEven with type := .evenNosync, requiredTriggersRpm := 3 }

theorem demo_free_teeth (t0 : ℤ) : EvenTeeth demoFree 4 3 2 10 (3/8) 180 (fun n => 40000 * ((n : ℤ) + 1) + t0) := by
  obtain ⟨-, a2, a3, a4, a5⟩ := demo_even_setup
  refine ⟨⟨a2.count, rfl, a2.window, a2.tolerance, a2.pitch, a2.slowest, a2.v0, a2.v1, by norm_num, a2.W2, a2.W36, a2.g1, a2.g360, a2.grid⟩, a3, a4,
    ⟨fun n => ?_, fun n hn => ?_, fun n w h1 h2 h3 hw => ?_⟩⟩
  · push_cast; omega
  · have := a5.fast n hn
    simpa only [add_sub_add_right_eq_sub] using this
  · have := a5.steady n w h1 (by omega) h3 hw
    simpa only [add_sub_add_right_eq_sub] using this

/-- Every history is one since the last loss. -/
theorem fresh_run {d0 : Decoder} {l : List DecEv} {d d' : Decoder} {m : ℕ} (h : DecFresh d0 m d) (hr : d.run l = .ok d') : ∃ m', DecFresh d0 m' d' := by
  induction l generalizing d m with
  | nil => rw [← Except.ok.inj hr]; exact ⟨m, h⟩
  | cons ev l ih =>
      rw [Decoder.run, bind_eq_ok] at hr
      obtain ⟨o, ho, hr⟩ := hr
      by_cases hl : o.lost = true
      · exact ih (.lose h ho hl) hr
      · cases ev with
        | trigger k t => exact ih (.keep h ho (by simpa using hl)) hr
        | expire => rw [← Except.ok.inj ho] at hl; exact absurd rfl hl
        | desync r => rw [← Except.ok.inj ho] at hl; exact absurd rfl hl

theorem teethTo_stuck {d d' : Decoder} {T : ℕ → ℤ} {n : ℕ} (ht : d.type = .evenNosync) (hs : d.state ≠ .sync) (hv : d.valid = false)
    (hN : d.numTriggers.toNat ≤ d.triggersSinceLastSync.toNat) (few : d.triggersSinceLastSync.toNat + n < 2 ^ 32)
    (h : d.run (teethTo T n) = .ok d') : d'.valid = false := by
  have e : teethTo T n = ((List.range n).map fun j => ((0 : Int), stamp (T j))).map fun x => .trigger x.1 x.2 := by
    unfold teethTo
    rw [List.map_map]
    rfl
  rw [e] at h
  exact (C102_stuck ht hs hv hN (by simpa using few) h).1

omit [FloatFmt] in
/-- Before the engine fires, the starter turns the wheel at 9 rpm, just below the configured minimum of 10, for 5 teeth: no speed in the next hundred cycles,
however steady, gives a position. -/
theorem C102_full_false : ¬ @C102_full binary32 := by
  let _ := binary32
  intro hall
  obtain ⟨d, h1, h2⟩ := okAnd_ok (x := (decoderInit demoFree).run (teeth [13333333, 26666666, 39999999, 53333332, 66666665]))
    (p := fun d => d.type = .evenNosync ∧ d.state ≠ .sync ∧ d.valid = false ∧ d.numTriggers.toNat ≤ d.triggersSinceLastSync.toNat ∧
      d.triggersSinceLastSync.toNat ≤ 5) (by decide +kernel)
  obtain ⟨b1, b2, b3, b4, b5⟩ := by simpa only [decide_eq_true_eq] using h2
  obtain ⟨m, hm⟩ := fresh_run .start h1
  obtain ⟨n, hn, d', h3, h4⟩ := hall demoFree d 4 3 2 10 m (3/8) 180 (fun n => 40000 * ((n : ℤ) + 1) + 66666665) rfl (demo_free_teeth _) (by norm_num) (by norm_num)
    (by norm_num) hm
  rw [teethTo_stuck b1 b2 b3 b4 (by omega) h3] at h4
  cases h4

/-- What would be needed of the averaging window if it only had to fit into the engine cycle. -/
def C102_wide : Prop :=
  ∀ (d0 : Decoder) (N R W low : ℕ) (v g : ℚ) (T : ℕ → ℤ), d0.type = .evenNosync → EvenTeeth d0 N R W low v g T → W ≤ N → R ≤ N → R ≤ 37 →
    ∃ n ≤ 100 * N, ∃ d', (decoderInit d0).run (teethTo T n) = .ok d' ∧ d'.valid = true

/-- The same wheel, averaged over a whole engine cycle. -/
def wideFree : Decoder := { demoFree with rpmWindowSize := 4 }

theorem wide_free_teeth : EvenTeeth wideFree 4 3 4 10 (3/8) 180 (fun n => 40000 * ((n : ℤ) + 1) + 4000000) := by
  obtain ⟨a2, a3, a4, a5⟩ := demo_free_teeth 4000000
  refine ⟨⟨a2.count, a2.required, rfl, a2.tolerance, a2.pitch, a2.slowest, a2.v0, a2.v1, a2.R2, by norm_num, by norm_num, a2.g1, a2.g360, a2.grid⟩, a3, a4,
    ⟨a5.later, a5.fast, fun n w h1 h2 h3 hw => ?_⟩⟩
  have e1 := speed_const n (w := 1) (by omega) (by norm_num)
  have e2 := speed_const n hw (by omega)
  simp only [Nat.cast_one, mul_one] at e1
  simp only [add_sub_add_right_eq_sub]
  rw [e1, e2]
  norm_num

omit [FloatFmt] in
/-- An averaging window of a whole engine cycle is too wide: steady from the first tooth on, one second after the firmware starts, the wheel gets no position in a
hundred cycles.  While the history is filling up, the average is taken over one tooth time too many, and when it is full the count is too high. -/
theorem C102_wide_false : ¬ @C102_wide binary32 := by
  let _ := binary32
  intro hall
  obtain ⟨n, hn, d', h3, h4⟩ := hall wideFree 4 3 4 10 (3/8) 180 _ rfl wide_free_teeth (by norm_num) (by norm_num) (by norm_num)
  obtain ⟨d, h1, h2⟩ := okAnd_ok (x := (decoderInit wideFree).run (teethTo (fun n => 40000 * ((n : ℤ) + 1) + 4000000) 4))
    (p := fun d => d.type = .evenNosync ∧ d.state ≠ .sync ∧ d.valid = false ∧ d.numTriggers.toNat ≤ d.triggersSinceLastSync.toNat ∧
      d.triggersSinceLastSync.toNat ≤ 5) (by decide +kernel)
  obtain ⟨b1, b2, b3, b4, b5⟩ := by simpa only [decide_eq_true_eq] using h2
  rcases Nat.lt_or_ge n 5 with hlt | hge
  · have : ∀ n < 5, okAnd ((decoderInit wideFree).run (teethTo (fun n => 40000 * ((n : ℤ) + 1) + 4000000) n)) (fun d => d.valid = false) = true := by decide +kernel
    have := this n hlt
    rw [h3] at this
    simp only [okAnd, decide_eq_true_eq] at this
    rw [this] at h4
    cases h4
  · obtain ⟨k, rfl⟩ : ∃ k, n = 4 + k := ⟨n - 4, by omega⟩
    have e : teethTo (fun n => 40000 * ((n : ℤ) + 1) + 4000000) (4 + k) = teethTo (fun n => 40000 * ((n : ℤ) + 1) + 4000000) 4 ++
        teethTo (fun n => 40000 * (((4 + n : ℕ) : ℤ) + 1) + 4000000) k := by
      unfold teethTo
      rw [List.range_add, List.map_append, List.map_map]
      rfl
    rw [e, run_join, h1, except_bind_ok] at h3
    rw [teethTo_stuck b1 b2 b3 b4 (by omega) h3] at h4
    cases h4

omit [FloatFmt] in
/-- The hypotheses are met: three teeth after a stop, the position is back, where it was. -/
example : ∃ d, @DecFresh binary32 demoFree 0 d ∧ ∃ d', @Decoder.run binary32 d (teethTo (fun n => 40000 * ((n : ℤ) + 1) + 2000000) 1000) = .ok d' ∧ d'.valid = true ∧
    d.valid = false ∧ d.lastTriggerAngle = .fin 360 ∧ d'.lastTriggerAngle = .fin 540 := by
  let _ := binary32
  obtain ⟨d, h1, h2⟩ := okAnd_ok (x := (decoderInit demoFree).run (teeth [40000, 80000, 120000, 160000, 200000]))
    (p := fun d => d.valid = true ∧ d.lastTriggerAngle = .fin 360) (by decide +kernel)
  simp only [decide_eq_true_eq] at h2
  obtain ⟨m, hm⟩ := fresh_run .start h1
  have hf : DecFresh demoFree 0 (handleDecoderExpire d) := .lose hm (ev := .expire) rfl rfl
  obtain ⟨a, ha, ha', hall⟩ := C102_gains_partial rfl (demo_free_teeth 2000000) (by norm_num) (by norm_num) (by norm_num) hf
  obtain ⟨d', h3, -, h4⟩ := hall 1000
  obtain ⟨v1, -, v2⟩ := h4 (by norm_num)
  have e : d.lastTriggerAngle = .fin (180 * (a : ℚ)) := ha'
  have : a = 2 := by
    rw [h2.2] at e
    have : (360 : ℚ) = 180 * a := Fl.fin.inj e
    have : (a : ℚ) = ((2 : ℕ) : ℚ) := by push_cast; linarith
    exact_mod_cast this
  subst this
  exact ⟨_, hf, d', h3, v1, rfl, h2.2, by rw [v2]; norm_num⟩

end Verif
