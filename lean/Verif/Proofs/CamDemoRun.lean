/-
Runs of the whole firmware on a crank wheel and a cam, with something watched in each of their states.
-/
import Verif.Proofs.CycleRun
import Verif.Proofs.CamPlan

namespace Verif

attribute [local instance] binary32

/-- The shipped tables, the outputs `evs` and the decoder `d0`. -/
def camEngine (d0 : Decoder) (evs : Fin maxEvents → OEvent) : Engine :=
  { cfg := { demoConfig with decoder := decoderInit d0, events := (wheelStart evs).evs }
    vals := zeroCalc, tipin := Tipin.init, q := CbQ.init CbId, log := logBoot, buf := (wheelStart evs).buf,
    cur := (wheelStart evs).cur, pc := .idle, given := [] }

theorem camEngine_wheel (d0 : Decoder) (evs : Fin maxEvents → OEvent) : (camEngine d0 evs).cfg.events = (wheelEngine evs).cfg.events ∧
    (camEngine d0 evs).dma = (wheelEngine evs).dma := by
  unfold camEngine wheelEngine Engine.dma
  generalize wheelStart evs = s
  exact ⟨rfl, rfl⟩

theorem camEngine_boot (d0 : Decoder) {evs : Fin maxEvents → OEvent} (hu : Unarmed evs) : EngBoot (camEngine d0 evs) := by
  have h := wheelEngine_boot hu
  obtain ⟨h1, h2⟩ := camEngine_wheel d0 evs
  refine ⟨by rw [h2]; exact h.1, by rw [h1]; exact h.2, ⟨_, rfl⟩, rfl, rfl, rfl, rfl⟩

/-- The triggers come between 7500 and 30000 ticks apart, the first not long after the start. -/
structure EvPace (ev : ℕ → Int × ℤ) : Prop where
  gap : ∀ j, (ev j).2 + 7500 ≤ (ev (j + 1)).2 ∧ (ev (j + 1)).2 ≤ (ev j).2 + 30000
  first : 512 ≤ (ev 0).2 ∧ (ev 0).2 ≤ 40000

/-- The triggers up to `k` were handled, and `x` is seen. -/
def evGiven (ev : ℕ → Int × ℤ) (x : Engine → Bool) (k : ℕ) (e : Engine) : Bool :=
  decide (e.given = (List.range k).map (fun j => ((ev j).1, stamp (ev j).2))) && x e

/-- The firmware handling trigger `k` to the end, with buffers that end at tick `E`. -/
def evPhase (ev : ℕ → Int × ℤ) (x : Engine → Bool) (k : ℕ) (E : ℤ) (e : Engine) : Option Engine :=
  runG (evGiven ev x (k + 1)) (e.on (endingAt E) false)
    (.trigger (ev k).1 (stamp (ev k).2) :: List.replicate 28 (.work (stamp ((ev k).2 + 10))))

theorem ev_mono {ev : ℕ → Int × ℤ} (pc : EvPace ev) {j k : ℕ} (h : j ≤ k) : (ev j).2 ≤ (ev k).2 := by
  induction k, h using Nat.le_induction with
  | base => exact le_refl _
  | succ k _ ih => have := pc.gap k; omega

/-- Every trigger that passed 300 ticks ago has been handled. -/
theorem ev_handled {ev : ℕ → Int × ℤ} (pc : EvPace ev) {n : ℤ} {k : ℕ} {e : Engine} (hlen : e.given.length = k) (h2 : n < (ev k).2 + 256)
    (h3 : e.pc = .idle ∨ ∃ k', k = k' + 1 ∧ n < (ev k').2 + 300) : HandledBy (fun j => (ev j).2) 300 n e := by
  intro j hj
  replace hj : (ev j).2 + 300 ≤ n := hj
  rw [hlen]
  have hjk : j < k := by
    by_contra hc
    have := ev_mono pc (not_lt.mp hc)
    omega
  rcases h3 with h3 | ⟨k'', rfl, h3⟩
  · rcases (by omega : j + 1 < k ∨ j + 1 = k) with h4 | h4
    · exact .inl h4
    · exact .inr ⟨h4, .inl h3⟩
  · left
    by_contra hc
    have := ev_mono pc (by omega : k'' ≤ j)
    omega

/-- `seen` is what is checked in each state of a run, and `Ok` follows from it. -/
structure EvWatch (ev : ℕ → Int × ℤ) (d0 : Decoder) (seen : Engine → Bool) (Ok : ℤ → Engine → Prop) : Prop where
  on : ∀ (e : Engine) b c, seen (e.on b c) = seen e
  swept : ∀ (e : Engine) f K, seen (e.swept f K) = seen e
  boot : ∀ evs, seen (camEngine d0 evs) = true
  ok : ∀ {n : ℤ} {k : ℕ} {e : Engine}, evGiven ev seen k e = true → (∀ j < k, (ev j).2 ≤ n) → n < (ev k).2 + 256 →
    (e.pc = .idle ∨ ∃ k', k = k' + 1 ∧ n < (ev k').2 + 300) → Ok n e
  teeth : ∀ {n : ℤ} {e : Engine}, Ok n e → EventsGiven ev n e

variable {ev : ℕ → Int × ℤ} {d0 : Decoder} {seen : Engine → Bool} {Ok : ℤ → Engine → Prop}

/-- The tick at which the buffers end when trigger `k` is handled. -/
def evEnd (ev : ℕ → Int × ℤ) (k : ℕ) : ℤ := 128 * (((ev k).2 + 10) / 128 + 1)

/-- The swaps before trigger `k`, the buffers ending at `E`. -/
def evSwaps (ev : ℕ → Int × ℤ) (E : ℤ) (k : ℕ) : ℕ := ((evEnd ev k - E) / 128).toNat

/-- Tooth `k` handled to the end. -/
def evHandle (ev : ℕ → Int × ℤ) (seen : Engine → Bool) (k : ℕ) (e : Engine) : Option Engine := (evPhase ev seen k (evEnd ev k) e).filter idlePc

/-- The next `j` triggers from trigger `k`. -/
def evHandleAll (ev : ℕ → Int × ℤ) (seen : Engine → Bool) (k : ℕ) (E : ℤ) (e : Engine) : ℕ → Option Engine
  | 0 => some e
  | j + 1 => (evHandle ev seen k (e.swept (stamp E) (evSwaps ev E k))).bind fun e => evHandleAll ev seen (k + 1) (evEnd ev k) e j

/-- Between two triggers. -/
structure EvBetween (ev : ℕ → Int × ℤ) (seen : Engine → Bool) (P : ℤ → ℤ → Engine → Prop) (k : ℕ) (n E : ℤ) (e : Engine) (b : Bool → OutBuf) (c : Bool) : Prop where
  run : P n E (e.on b c)
  given : evGiven ev seen k e = true
  pc : e.pc = .idle
  passed : ∀ j < k, (ev j).2 ≤ n
  next : n ≤ (ev k).2

theorem evGiven_on (w : EvWatch ev d0 seen Ok) {k : ℕ} {e : Engine} (b : Bool → OutBuf) (c : Bool) (h : evGiven ev seen k e = true) :
    evGiven ev seen k (e.on b c) = true := by
  unfold evGiven at h ⊢
  rw [w.on]
  exact h

theorem evGiven_swept (w : EvWatch ev d0 seen Ok) {k : ℕ} {e : Engine} (f : Time) (K : ℕ) (h : evGiven ev seen k e = true) :
    evGiven ev seen k (e.swept f K) = true := by
  unfold evGiven at h ⊢
  rw [w.swept]
  exact h

theorem evEnd_near (k : ℕ) : (ev k).2 + 10 < evEnd ev k ∧ evEnd ev k ≤ (ev k).2 + 138 ∧ evEnd ev k % 128 = 0 := by
  unfold evEnd
  omega

theorem ev_sweep (w : EvWatch ev d0 seen Ok) {P : ℤ → ℤ → Engine → Prop} {e0 e : Engine} {b : Bool → OutBuf} {c : Bool} {n E : ℤ} {k : ℕ} (hb : EngBoot e0)
    (hP : RunOf Ok e0 P) (h : EvBetween ev seen P k n E e b c) (K : ℕ) (hK : K < 2 ^ 20) (hE : E + 128 * K - 256 ≤ (ev k).2) :
    ∃ n' b' c', n ≤ n' ∧ E + 128 * K - 256 ≤ n' ∧ EvBetween ev seen P k n' (E + 128 * K) (e.swept (stamp E) K) b' c' := by
  obtain ⟨n', b', c', h1, h2, h3, h4⟩ := clock_sweep hb .boot hP h.run K hK (fun m K' b c m1 m2 =>
    w.ok (k := k) (evGiven_on w _ _ (evGiven_swept w _ _ h.given)) (fun j hj => le_trans (h.passed j hj) m1)
      (by have := h.next; omega) (.inl h.pc))
  exact ⟨n', b', c', h1, h3, h4, evGiven_swept w _ _ h.given, h.pc, fun j hj => le_trans (h.passed j hj) h1, by have := h.next; omega⟩

theorem ev_handle (pc : EvPace ev) (w : EvWatch ev d0 seen Ok) {P : ℤ → ℤ → Engine → Prop} {e0 e e' : Engine} {b : Bool → OutBuf} {c : Bool} {n : ℤ} {k : ℕ} (hb : EngBoot e0)
    (hP : RunOf Ok e0 P) (h : EvBetween ev seen P k n (evEnd ev k) e b c) (hp : evHandle ev seen k e = some e') :
    ∃ n', (ev k).2 ≤ n' ∧ EvBetween ev seen P (k + 1) n' (evEnd ev k) e' b c := by
  obtain ⟨-, ci, -⟩ := clock_reach hb .boot (hP.clock h.run)
  have hmono := (pc.gap k).1
  have hnear := evEnd_near (ev := ev) k
  have hnext := h.next
  have hx : (e.on (endingAt (evEnd ev k)) false).on b c = e.on b c := on_on _ _ _ _ _
  unfold evHandle evPhase at hp
  generalize ht : EngAct.trigger (ev k).1 (stamp (ev k).2) :: List.replicate 28 (EngAct.work (stamp ((ev k).2 + 10))) = as at hp
  obtain ⟨hp, hidle⟩ := Option.filter_eq_some_iff.mp hp
  obtain ⟨m, m1, m2, m3, -⟩ := clock_run hP (n' := (ev k).2 + 10) (e := e.on (endingAt (evEnd ev k)) false) (by rw [hx]; exact h.run)
    (by rw [hx, ci.early, endingAt_earliest]) (by omega) (by omega)
    (fun x hx => w.ok (k := k + 1) (evGiven_on w _ _ hx) (fun j hj => by
      have := ev_mono pc (Nat.lt_succ_iff.mp hj)
      omega) (by omega) (.inr ⟨k, rfl, by omega⟩)) hp
  have hgl : evGiven ev seen (k + 1) e' = true := by
    rcases runG_last hp with ⟨h, -⟩ | h
    · rw [← ht] at h; cases h
    · exact h
  obtain ⟨-, -, hok⟩ := clock_reach hb .boot (hP.clock m3)
  obtain ⟨k', g1, g2, -⟩ := w.teeth hok
  have hk' : k' = k + 1 := by
    have h3 := hgl
    unfold evGiven at h3
    rw [Bool.and_eq_true, decide_eq_true_eq] at h3
    have h4 := h3.1
    rw [show e'.given = (e'.on b c).given from rfl, g1] at h4
    simpa using congrArg List.length h4
  exact ⟨m, g2 k (by omega), m3, hgl, idlePc_eq hidle, fun j hj => g2 j (by omega), by omega⟩

theorem ev_all (pc : EvPace ev) (w : EvWatch ev d0 seen Ok) {P : ℤ → ℤ → Engine → Prop} {e0 : Engine} (hb : EngBoot e0) (hP : RunOf Ok e0 P) (j : ℕ) {e e' : Engine} {b : Bool → OutBuf} {c : Bool}
    {n E : ℤ} {k : ℕ} (h : EvBetween ev seen P k n E e b c) (hE : E % 128 = 0) (hE1 : E ≤ (ev k).2) (hE2 : (ev k).2 ≤ E + 40000)
    (hp : evHandleAll ev seen k E e j = some e') :
    ∃ n' E' b' c', n ≤ n' ∧ (j = 0 → E' = E) ∧ (∀ j', j = j' + 1 → E' = evEnd ev (k + j')) ∧ EvBetween ev seen P (k + j) n' E' e' b' c' := by
  induction j generalizing k n E e b c with
  | zero =>
      cases hp
      exact ⟨n, E, b, c, le_refl _, fun _ => rfl, fun _ h => by omega, h⟩
  | succ j ih =>
      obtain ⟨e1, p1, p2⟩ := Option.bind_eq_some_iff.mp hp
      have hnear := evEnd_near (ev := ev) k
      have hsw : E + 128 * (evSwaps ev E k : ℕ) = evEnd ev k := by unfold evSwaps; omega
      obtain ⟨n1, b1, c1, a1, a2, a3⟩ := ev_sweep w hb hP h (evSwaps ev E k) (by unfold evSwaps; omega) (by omega)
      rw [hsw] at a3
      obtain ⟨n2, b2, b3⟩ := ev_handle pc w hb hP a3 p1
      have hs := pc.gap k
      obtain ⟨n', E', b', c', r1, r2, r3, r4⟩ := ih b3 hnear.2.2 (by omega) (by omega) p2
      have hnext := a3.next
      refine ⟨n', E', b', c', by omega, fun h => by omega, fun j' hj' => ?_, ?_⟩
      · obtain rfl : j' = j := by omega
        cases j' with
        | zero => exact r2 rfl
        | succ i =>
            rw [r3 i rfl]
            congr 1
            omega
      · have : k + (j + 1) = k + 1 + j := by omega
        rw [this]
        exact r4

/-- `i + 1 + j` triggers; before trigger `i` the output has fired. -/
def camCycleOk (ev : ℕ → Int × ℤ) (d0 : Decoder) (i j : ℕ) (seen : Engine → Bool) (evs : Fin maxEvents → OEvent) : Bool :=
  (evHandleAll ev seen 0 512 (camEngine d0 evs) i).any fun e =>
    let s := e.swept (stamp (evEnd ev (i - 1))) (evSwaps ev (evEnd ev (i - 1)) i)
    eventHasFired (s.cfg.events 0) && (evHandle ev seen i s).any fun e' => (evHandleAll ev seen (i + 1) (evEnd ev i) e' j).isSome

theorem ev_boot (pc : EvPace ev) (w : EvWatch ev d0 seen Ok) (evs : Fin maxEvents → OEvent) :
    EvBetween ev seen (EngTimed Honest Ok (camEngine d0 evs)) 0 400 512 (camEngine d0 evs) (camEngine d0 evs).buf (camEngine d0 evs).cur := by
  have hg : evGiven ev seen 0 (camEngine d0 evs) = true := by
    unfold evGiven
    rw [Bool.and_eq_true]
    exact ⟨decide_eq_true rfl, w.boot evs⟩
  have h0 := pc.first
  refine ⟨?_, hg, rfl, fun j hj => by omega, by omega⟩
  rw [Engine.on_self]
  refine .boot ?_ (by norm_num) (by norm_num) (w.ok hg (fun j hj => by omega) (by omega) (.inl rfl))
  rw [(camEngine_wheel d0 evs).2]
  exact wheel_earliest evs

/-- A run of the whole firmware through `i + 1 + j` triggers. -/
theorem ev_run (pc : EvPace ev) (w : EvWatch ev d0 seen Ok) {evs : Fin maxEvents → OEvent} (hu : Unarmed evs) {i j : ℕ} (h : camCycleOk ev d0 (i + 1) j seen evs = true) :
    ∃ n1 E1 e1 n E e, EngTimed Honest Ok (camEngine d0 evs) n1 E1 e1 ∧ Decoded (i + 1) e1 ∧
      eventHasFired (e1.cfg.events 0) = true ∧ EngOn Honest Ok n1 E1 e1 n E e ∧ (ev (i + 1 + j)).2 ≤ n := by
  obtain ⟨e5, p5, h⟩ := any_some h
  simp only [Bool.and_eq_true, Nat.add_sub_cancel] at h
  obtain ⟨hf, h⟩ := h
  obtain ⟨e6, p6, h⟩ := any_some h
  obtain ⟨e7, p7⟩ := Option.isSome_iff_exists.mp h
  have hb := camEngine_boot d0 hu
  have h0 := pc.first
  have g1 := pc.gap i
  have g2 := pc.gap (i + 1)
  have r1 := evEnd_near (ev := ev) i
  have r2 := evEnd_near (ev := ev) (i + 1)
  obtain ⟨n5, E5, b5, c5', -, -, a2, a3⟩ := ev_all pc w hb (runOf_timed _ _) (i + 1) (ev_boot pc w evs) (by norm_num) (by omega) (by omega) p5
  have a2 := a2 i rfl
  rw [Nat.zero_add] at a2 a3
  rw [a2] at a3
  have hE : evEnd ev i + 128 * (evSwaps ev (evEnd ev i) (i + 1) : ℕ) = evEnd ev (i + 1) := by unfold evSwaps; omega
  obtain ⟨n1, b1, c1, -, -, a4⟩ := ev_sweep w hb (runOf_timed _ _) a3 (evSwaps ev (evEnd ev i) (i + 1)) (by unfold evSwaps; omega) (by omega)
  rw [hE] at a4
  generalize e5.swept (stamp (evEnd ev i)) (evSwaps ev (evEnd ev i) (i + 1)) = x at *
  have hP := runOf_on a4.run
  obtain ⟨n6, -, a6⟩ := ev_handle pc w hb hP ⟨.refl, a4.given, a4.pc, a4.passed, a4.next⟩ p6
  obtain ⟨n, E, b, c, -, -, -, w2⟩ := ev_all pc w hb hP j a6 r2.2.2 (by omega) (by omega) p7
  refine ⟨n1, _, _, n, _, _, a4.run, ?_, hf, w2.run, w2.passed _ (by omega)⟩
  have hg := a4.given
  unfold evGiven at hg
  rw [Bool.and_eq_true, decide_eq_true_eq] at hg
  have hl : (x.on b1 c1).given.length = i + 1 := by
    show x.given.length = i + 1
    rw [hg.1]
    simp
  refine ⟨fun i t hp => ?_, fun _ => hl⟩
  have : x.pc = .record i t := hp
  rw [a4.pc] at this
  cases this

end Verif
