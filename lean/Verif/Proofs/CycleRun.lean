/-
A run of 18 teeth, three cycles, with something watched in each of its states.
-/
import Verif.Proofs.Sweep
import Verif.Props.EngineWheelDemo
import Verif.Proofs.BeatHyp

namespace Verif

attribute [local instance] binary32

/-- How many teeth were decoded. -/
def teethDecoded (e : Engine) : ℕ :=
  match e.pc with
  | .record _ _ => e.given.length - 1
  | _ => e.given.length

theorem decoded_teeth {k : ℕ} {e : Engine} (h : Decoded k e) : teethDecoded e = k := by
  obtain ⟨h1, h2⟩ := h
  unfold teethDecoded
  generalize e.pc = pc at *
  cases pc with
  | record i t => have := h1 i t rfl; simp only; omega
  | _ => exact h2 (fun i t h => by cases h)

/-- Every tooth that passed 300 ticks ago has been handled. -/
theorem handled_of {n : ℤ} {k : ℕ} {e : Engine} (hlen : e.given.length = k) (h2 : n < lateTooth k + 256)
    (h3 : e.pc = .idle ∨ ∃ k', k = k' + 1 ∧ n < lateTooth k' + 300) : HandledBy lateTooth 300 n e := by
  intro j hj
  rw [hlen]
  have hjk : j < k := by
    by_contra hc
    have := lateTooth_mono (not_lt.mp hc)
    omega
  rcases h3 with h3 | ⟨k'', rfl, h3⟩
  · rcases (by omega : j + 1 < k ∨ j + 1 = k) with h4 | h4
    · exact .inl h4
    · exact .inr ⟨h4, .inl h3⟩
  · left
    by_contra hc
    have := lateTooth_mono (by omega : k'' ≤ j)
    omega

/-- `seen` is what is checked in each state of a run, and `Ok` follows from it. -/
structure Watch (seen : Engine → Bool) (Ok : ℤ → Engine → Prop) : Prop where
  on : ∀ (e : Engine) b c, seen (e.on b c) = seen e
  swept : ∀ (e : Engine) f K, seen (e.swept f K) = seen e
  boot : ∀ evs, seen (wheelEngine evs) = true
  ok : ∀ {n : ℤ} {k : ℕ} {e : Engine}, givenIs seen k e = true → (∀ j < k, lateTooth j ≤ n) → n < lateTooth k + 256 →
    (e.pc = .idle ∨ ∃ k', k = k' + 1 ∧ n < lateTooth k' + 300) → Ok n e
  teeth : ∀ {n : ℤ} {e : Engine}, Ok n e → TeethGiven lateTooth n e

variable {seen : Engine → Bool} {Ok : ℤ → Engine → Prop}

/-- The tick at which the buffers end when tooth `k` is handled. -/
def cycleEnd (k : ℕ) : ℤ := 128 * ((lateTooth k + 10) / 128 + 1)

/-- The swaps before tooth `k`, the buffers ending at `E`. -/
def swapsBefore (E : ℤ) (k : ℕ) : ℕ := ((cycleEnd k - E) / 128).toNat

/-- The firmware is not handling a trigger. -/
def idlePc (e : Engine) : Bool :=
  match e.pc with
  | .idle => true
  | _ => false

theorem idlePc_eq {e : Engine} (h : idlePc e = true) : e.pc = .idle := by
  unfold idlePc at h
  generalize e.pc = pc at *
  cases pc with
  | idle => rfl
  | _ => cases h

/-- Tooth `k` handled to the end. -/
def handle (seen : Engine → Bool) (k : ℕ) (e : Engine) : Option Engine := (phase seen k (cycleEnd k) e).filter idlePc

/-- The next `j` teeth from tooth `k`. -/
def handleAll (seen : Engine → Bool) (k : ℕ) (E : ℤ) (e : Engine) : ℕ → Option Engine
  | 0 => some e
  | j + 1 => (handle seen k (e.swept (stamp E) (swapsBefore E k))).bind fun e => handleAll seen (k + 1) (cycleEnd k) e j

/-- Between two teeth. -/
structure Between (seen : Engine → Bool) (P : ℤ → ℤ → Engine → Prop) (k : ℕ) (n E : ℤ) (e : Engine) (b : Bool → OutBuf) (c : Bool) : Prop where
  run : P n E (e.on b c)
  given : givenIs seen k e = true
  pc : e.pc = .idle
  passed : ∀ j < k, lateTooth j ≤ n
  next : n ≤ lateTooth k

theorem given_on (w : Watch seen Ok) {k : ℕ} {e : Engine} (b : Bool → OutBuf) (c : Bool) (h : givenIs seen k e = true) :
    givenIs seen k (e.on b c) = true := by
  unfold givenIs at h ⊢
  rw [w.on]
  exact h

theorem given_swept (w : Watch seen Ok) {k : ℕ} {e : Engine} (f : Time) (K : ℕ) (h : givenIs seen k e = true) :
    givenIs seen k (e.swept f K) = true := by
  unfold givenIs at h ⊢
  rw [w.swept]
  exact h

theorem cycleEnd_near (k : ℕ) : lateTooth k + 10 < cycleEnd k ∧ cycleEnd k ≤ lateTooth k + 138 ∧ cycleEnd k % 128 = 0 := by
  unfold cycleEnd
  omega

theorem late_gap (k : ℕ) : lateTooth k + 15000 ≤ lateTooth (k + 1) ∧ lateTooth (k + 1) ≤ lateTooth k + 30000 := by
  obtain ⟨h1, h2, h3⟩ := late_step k
  constructor <;> linarith

theorem on_on (e : Engine) (b b' : Bool → OutBuf) (c c' : Bool) : (e.on b c).on b' c' = e.on b' c' := rfl

theorem between_sweep (w : Watch seen Ok) {P : ℤ → ℤ → Engine → Prop} {e0 e : Engine} {b : Bool → OutBuf} {c : Bool} {n E : ℤ} {k : ℕ} (hb : EngBoot e0)
    (hP : RunOf Ok e0 P) (h : Between seen P k n E e b c) (K : ℕ) (hK : K < 2 ^ 20) (hE : E + 128 * K - 256 ≤ lateTooth k) :
    ∃ n' b' c', n ≤ n' ∧ E + 128 * K - 256 ≤ n' ∧ Between seen P k n' (E + 128 * K) (e.swept (stamp E) K) b' c' := by
  obtain ⟨n', b', c', h1, h2, h3, h4⟩ := clock_sweep hb .boot hP h.run K hK (fun m K' b c m1 m2 =>
    w.ok (k := k) (given_on w _ _ (given_swept w _ _ h.given)) (fun j hj => le_trans (h.passed j hj) m1)
      (by have := h.next; omega) (.inl h.pc))
  exact ⟨n', b', c', h1, h3, h4, given_swept w _ _ h.given, h.pc, fun j hj => le_trans (h.passed j hj) h1, by have := h.next; omega⟩

theorem between_handle (w : Watch seen Ok) {P : ℤ → ℤ → Engine → Prop} {e0 e e' : Engine} {b : Bool → OutBuf} {c : Bool} {n : ℤ} {k : ℕ} (hb : EngBoot e0)
    (hP : RunOf Ok e0 P) (h : Between seen P k n (cycleEnd k) e b c) (hp : handle seen k e = some e') :
    ∃ n', lateTooth k ≤ n' ∧ Between seen P (k + 1) n' (cycleEnd k) e' b c := by
  obtain ⟨-, ci, -⟩ := clock_reach hb .boot (hP.clock h.run)
  have hmono := (late_gap k).1
  have hnear := cycleEnd_near k
  have hnext := h.next
  have hx : (e.on (endingAt (cycleEnd k)) false).on b c = e.on b c := on_on _ _ _ _ _
  unfold handle phase phaseOf at hp
  generalize ht : EngAct.trigger 0 (stamp (lateTooth k)) :: List.replicate 28 (EngAct.work (stamp (lateTooth k + 10))) = as at hp
  obtain ⟨hp, hidle⟩ := Option.filter_eq_some_iff.mp hp
  obtain ⟨m, m1, m2, m3, -⟩ := clock_run hP (n' := lateTooth k + 10) (e := e.on (endingAt (cycleEnd k)) false) (by rw [hx]; exact h.run)
    (by rw [hx, ci.early, endingAt_earliest]) (by omega) (by omega)
    (fun x hx => w.ok (k := k + 1) (given_on w _ _ hx) (fun j hj => by
      have := lateTooth_mono (Nat.lt_succ_iff.mp hj)
      omega) (by omega) (.inr ⟨k, rfl, by omega⟩)) hp
  have hgl : givenIs seen (k + 1) e' = true := by
    rcases runG_last hp with ⟨h, -⟩ | h
    · rw [← ht] at h; cases h
    · exact h
  obtain ⟨-, -, hok⟩ := clock_reach hb .boot (hP.clock m3)
  obtain ⟨k', g1, g2, -⟩ := w.teeth hok
  have hk' : k' = k + 1 := by
    have h3 := hgl
    unfold givenIs at h3
    rw [Bool.and_eq_true, decide_eq_true_eq] at h3
    have h4 := h3.1
    rw [show e'.given = (e'.on b c).given from rfl, g1] at h4
    simpa using congrArg List.length h4
  exact ⟨m, g2 k (by omega), m3, hgl, idlePc_eq hidle, fun j hj => g2 j (by omega), by omega⟩

theorem between_all (w : Watch seen Ok) {P : ℤ → ℤ → Engine → Prop} {e0 : Engine} (hb : EngBoot e0) (hP : RunOf Ok e0 P) (j : ℕ) {e e' : Engine} {b : Bool → OutBuf} {c : Bool}
    {n E : ℤ} {k : ℕ} (h : Between seen P k n E e b c) (hE : E % 128 = 0) (hE1 : E ≤ lateTooth k) (hE2 : lateTooth k ≤ E + 40000)
    (hp : handleAll seen k E e j = some e') :
    ∃ n' E' b' c', n ≤ n' ∧ (j = 0 → E' = E) ∧ (∀ j', j = j' + 1 → E' = cycleEnd (k + j')) ∧ Between seen P (k + j) n' E' e' b' c' := by
  induction j generalizing k n E e b c with
  | zero =>
      cases hp
      exact ⟨n, E, b, c, le_refl _, fun _ => rfl, fun _ h => by omega, h⟩
  | succ j ih =>
      obtain ⟨e1, p1, p2⟩ := Option.bind_eq_some_iff.mp hp
      have hnear := cycleEnd_near k
      have hsw : E + 128 * (swapsBefore E k : ℕ) = cycleEnd k := by unfold swapsBefore; omega
      obtain ⟨n1, b1, c1, a1, a2, a3⟩ := between_sweep w hb hP h (swapsBefore E k) (by unfold swapsBefore; omega) (by omega)
      rw [hsw] at a3
      obtain ⟨n2, b2, b3⟩ := between_handle w hb hP a3 p1
      have hs := late_gap k
      obtain ⟨n', E', b', c', r1, r2, r3, r4⟩ := ih b3 hnear.2.2 (by omega) (by omega) p2
      have hnext := a3.next
      refine ⟨n', E', b', c', by omega, fun h => by omega, fun j' hj' => ?_, ?_⟩
      · obtain rfl : j' = j := by omega
        cases j' with
        | zero => exact r2 rfl
        | succ i =>
            rw [r3 i rfl]
            congr 1
            omega
      · have : k + (j + 1) = k + 1 + j := by omega
        rw [this]
        exact r4

/-- 18 teeth; before the sixth the output has fired. -/
def cycleOk (seen : Engine → Bool) (evs : Fin maxEvents → OEvent) : Bool :=
  (handleAll seen 0 512 (wheelEngine evs) 5).any fun e5 =>
    let s5 := e5.swept (stamp (cycleEnd 4)) (swapsBefore (cycleEnd 4) 5)
    eventHasFired (s5.cfg.events 0) && (handle seen 5 s5).any fun e6 => (handleAll seen 6 (cycleEnd 5) e6 12).isSome

theorem fire_boot (w : Watch seen Ok) (evs : Fin maxEvents → OEvent) :
    Between seen (EngTimed Honest Ok (wheelEngine evs)) 0 400 512 (wheelEngine evs) (wheelEngine evs).buf (wheelEngine evs).cur := by
  have hg : givenIs seen 0 (wheelEngine evs) = true := by
    unfold givenIs
    rw [Bool.and_eq_true]
    exact ⟨decide_eq_true rfl, w.boot evs⟩
  have h0 : lateTooth 0 = 15000 := by decide
  refine ⟨?_, hg, rfl, fun j hj => by omega, by omega⟩
  rw [Engine.on_self]
  exact .boot (wheel_earliest evs) (by norm_num) (by norm_num) (w.ok hg (fun j hj => by omega) (by omega) (.inl rfl))

/-- A run of the whole firmware through three cycles. -/
theorem cycle_run (w : Watch seen Ok) {evs : Fin maxEvents → OEvent} (hu : Unarmed evs) (h : cycleOk seen evs = true) :
    ∃ n1 E1 e1 n E e, EngTimed Honest Ok (wheelEngine evs) n1 E1 e1 ∧ Decoded 5 e1 ∧ 
      eventHasFired (e1.cfg.events 0) = true ∧ EngOn Honest Ok n1 E1 e1 n E e ∧ 345216 ≤ n := by
  obtain ⟨e5, p5, h⟩ := any_some h
  simp only [Bool.and_eq_true] at h
  obtain ⟨hf, h⟩ := h
  obtain ⟨e6, p6, h⟩ := any_some h
  obtain ⟨e7, p7⟩ := Option.isSome_iff_exists.mp h
  have hb := wheelEngine_boot hu
  have t0 : lateTooth 0 = 15000 := by decide
  have t5 : lateTooth 5 = 105000 := by decide
  have t6 : lateTooth 6 = 135000 := by decide
  have t18 : lateTooth 18 = 375000 := by decide
  have c4 : cycleEnd 4 = 90112 := by decide
  have c5 : cycleEnd 5 = 105088 := by decide
  have c17 : cycleEnd 17 = 345088 := by decide
  have s5 : swapsBefore (cycleEnd 4) 5 = 117 := by decide
  obtain ⟨n5, E5, b5, c5', -, -, a2, a3⟩ := between_all w hb (runOf_timed _ _) 5 (fire_boot w evs) (by norm_num) (by omega) (by omega) p5
  have a2 := a2 4 rfl
  simp only [Nat.zero_add] at a2 a3
  rw [a2] at a3
  obtain ⟨n1, b1, c1, -, -, a4⟩ := between_sweep w hb (runOf_timed _ _) a3 (swapsBefore (cycleEnd 4) 5) (by omega) (by omega)
  have hE : cycleEnd 4 + 128 * (swapsBefore (cycleEnd 4) 5 : ℕ) = cycleEnd 5 := by rw [s5, c4, c5]; norm_num
  rw [hE] at a4
  generalize e5.swept (stamp (cycleEnd 4)) (swapsBefore (cycleEnd 4) 5) = x at *
  have hP := runOf_on a4.run
  obtain ⟨n6, -, a6⟩ := between_handle w hb hP ⟨.refl, a4.given, a4.pc, a4.passed, a4.next⟩ p6
  obtain ⟨n7, E7, b7, c7, -, -, d2, d3⟩ := between_all w hb hP 12 a6 (by rw [c5]; norm_num) (by rw [c5]; exact t6 ▸ (by norm_num)) (by rw [c5]; exact t6 ▸ (by norm_num)) p7
  have d2 := d2 11 rfl
  simp only [Nat.reduceAdd] at d2 d3
  rw [d2] at d3
  obtain ⟨n, b, c, -, w1, w2⟩ := between_sweep w hb hP d3 3 (by norm_num) (by push_cast; omega)
  refine ⟨n1, _, _, n, _, _, a4.run, ?_, hf, w2.run, by push_cast at w1; omega⟩
  have hg := a4.given
  unfold givenIs at hg
  rw [Bool.and_eq_true, decide_eq_true_eq] at hg
  have hl : (x.on b1 c1).given.length = 5 := by
    show x.given.length = 5
    rw [hg.1]
    rfl
  refine ⟨fun i t hp => ?_, fun _ => hl⟩
  have : x.pc = .record i t := hp
  rw [a4.pc] at this
  cases this

theorem late_turning : Turning lateCrank 90 15000 15300 := by
  intro t t' h
  have h1 : (t : ℚ) ≤ t' := by exact_mod_cast h
  unfold lateCrank
  push_cast
  constructor <;> nlinarith

end Verif
