/-
Concrete runs of the whole firmware against the real clock: a wheel of four teeth with one missing, from rest.
-/
import Verif.Proofs.ClockRun
import Verif.Spec.Demo
import Verif.Props.SparkWheel

namespace Verif

attribute [local instance] binary32

theorem clock_mono {G G' : ℤ → Engine → Prop} {e0 e : Engine} {n E : ℤ} (hG : ∀ n e, G n e → G' n e) (h : EngClock G e0 n E e) :
    EngClock G' e0 n E e := by
  induction h with
  | boot h1 h2 h3 h4 => exact .boot h1 h2 h3 (hG _ _ h4)
  | step a _ h1 h2 h3 h4 h5 ih => exact .step a ih h1 h2 h3 h4 (hG _ _ h5)
  | swap _ h1 h2 h3 h4 ih => exact .swap ih h1 h2 h3 (hG _ _ h4)

theorem timed_mono {A : ℤ → EngAct → Prop} {G G' : ℤ → Engine → Prop} {e0 e : Engine} {n E : ℤ} (hG : ∀ n e, G n e → G' n e)
    (h : EngTimed A G e0 n E e) : EngTimed A G' e0 n E e := by
  induction h with
  | boot h1 h2 h3 h4 => exact .boot h1 h2 h3 (hG _ _ h4)
  | step a _ h1 h2 h3 h4 h5 h6 ih => exact .step a ih h1 h2 h3 h4 h5 (hG _ _ h6)
  | swap _ h1 h2 h3 h4 ih => exact .swap ih h1 h2 h3 (hG _ _ h4)

theorem on_mono {A : ℤ → EngAct → Prop} {G G' : ℤ → Engine → Prop} {e0 e : Engine} {n0 E0 n E : ℤ} (hG : ∀ n e, G n e → G' n e)
    (h : EngOn A G n0 E0 e0 n E e) : EngOn A G' n0 E0 e0 n E e := by
  induction h with
  | refl => exact .refl
  | step a _ h1 h2 h3 h4 h5 h6 ih => exact .step a ih h1 h2 h3 h4 h5 (hG _ _ h6)
  | swap _ h1 h2 h3 h4 ih => exact .swap ih h1 h2 h3 (hG _ _ h4)

/-- Nothing is scheduled. -/
def Unarmed (evs : Fin maxEvents → OEvent) : Prop := ∀ i w, ((evs i).edge w).state = .unscheduled

def wheelStart (evs : Fin maxEvents → OEvent) : Dma maxEvents := bufferSwap (bufferSwap (Dma.boot evs) 200) 300

/-- The shipped tables, the outputs `evs` and a wheel of four teeth with one missing. -/
def wheelEngine (evs : Fin maxEvents → OEvent) : Engine :=
  { cfg := { demoConfig with decoder := decoderInit (demoDecoder .missingNosync), events := (wheelStart evs).evs }
    vals := zeroCalc, tipin := Tipin.init, q := CbQ.init CbId, log := logBoot, buf := (wheelStart evs).buf,
    cur := (wheelStart evs).cur, pc := .idle, given := [] }

theorem wheelEngine_idle {evs : Fin maxEvents → OEvent} (hu : Unarmed evs) : ∀ i w, (((wheelEngine evs).cfg.events i).edge w).state = .unscheduled := by
  have hsw : ∀ (s : Dma maxEvents) (now : Time), (∀ i w, ((s.evs i).edge w).state = .unscheduled) →
      ∀ i w, (((bufferSwap s now).evs i).edge w).state = .unscheduled := by
    intro s now hs i w
    rw [(bufferSwap_spec s now).2.2.2.1 i, mapEdges_edge]
    exact (swapEdge _ _ _).unscheduled.mpr (hs i w)
  have hc : (wheelEngine evs).cfg.events = (wheelStart evs).evs := by
    unfold wheelEngine
    generalize wheelStart evs = s
    rfl
  rw [hc]
  unfold wheelStart
  have hu' : ∀ i w, (((Dma.boot evs).evs i).edge w).state = .unscheduled := hu
  generalize Dma.boot evs = s at hu' ⊢
  exact hsw _ _ (hsw _ _ hu')

theorem wheelEngine_boot {evs : Fin maxEvents → OEvent} (hu : Unarmed evs) : EngBoot (wheelEngine evs) := by
  refine ⟨⟨evs, 200, 300, hu, by decide, by decide, by decide, by decide, ?_⟩, wheelEngine_idle hu, ⟨_, rfl⟩, rfl, rfl,
    rfl, rfl⟩
  show (wheelEngine evs).dma = wheelStart evs
  unfold wheelEngine Engine.dma
  generalize wheelStart evs = s
  rfl

/-- Buffers that end at tick `E`. -/
def endingAt (E : ℤ) : Bool → OutBuf := fun _ => { first := stamp (E - 256), slots := fun _ => ⟨0, 0⟩ }

theorem endingAt_earliest (e : Engine) (E : ℤ) : (e.on (endingAt E) false).dma.earliest = stamp E := by
  show stamp (E - 256) + 256 = stamp E
  rw [← stamp_sub]
  have : stamp 256 = 256 := rfl
  rw [this]
  bv_omega

/-- The times of the teeth, at 4000 revolutions per minute. -/
def lateTooth (j : ℕ) : ℤ := 15000 * wheelPos 4 0 j + 15000

/-- The teeth up to `k` were handled, and `x` is seen. -/
def givenIs (x : Engine → Bool) (k : ℕ) (e : Engine) : Bool :=
  decide (e.given = (List.range k).map (fun j => (0, stamp (lateTooth j)))) && x e

/-- What is kept along the run. -/
def LateOk (x : Engine → Bool) (n : ℤ) (e : Engine) : Prop := TeethGiven lateTooth n e ∧ x e = true

/-- `x` does not look at the output buffers. -/
def Blind (x : Engine → Bool) : Prop := ∀ (e : Engine) b c, x (e.on b c) = x e

/-- The firmware handling tooth `k` for `w` steps, with buffers that end at tick `E`. -/
def phaseOf (x : Engine → Bool) (w k : ℕ) (E : ℤ) (e : Engine) : Option Engine :=
  runG (givenIs x (k + 1)) (e.on (endingAt E) false)
    (.trigger 0 (stamp (lateTooth k)) :: List.replicate w (.work (stamp (lateTooth k + 10))))

/-- The firmware handling tooth `k` to the end. -/
def phase (x : Engine → Bool) (k : ℕ) (E : ℤ) (e : Engine) : Option Engine := phaseOf x 28 k E e

def idleEng (e : Engine) : Bool := decide (∀ i w, ((e.cfg.events i).edge w).state = .unscheduled)

theorem givenIs_on {x : Engine → Bool} (hx : Blind x) {k : ℕ} {n : ℤ} {e : Engine} (b : Bool → OutBuf) (c : Bool)
    (h : givenIs x k e = true) (h1 : ∀ j < k, lateTooth j ≤ n) (h2 : n < lateTooth k + 256) : LateOk x n (e.on b c) := by
  unfold givenIs at h
  rw [Bool.and_eq_true, decide_eq_true_eq] at h
  exact ⟨⟨k, h.1, h1, h2⟩, (hx e b c).trans h.2⟩

theorem lateTooth_mono {j k : ℕ} (h : j ≤ k) : lateTooth j ≤ lateTooth k := by
  have := wheelPos_mono (N := 4) (s := 0) (by norm_num) h
  unfold lateTooth
  omega

/-- Swaps until the next tooth, then the tooth. -/
theorem phase_clock {x : Engine → Bool} (bl : Blind x) {e0 e e' : Engine} {b : Bool → OutBuf} {c : Bool} {n E : ℤ} {w k K : ℕ} (hb : EngBoot e0)
    (h : EngTimed Honest (LateOk x) e0 n E (e.on b c)) (hi : idleEng e = true) (hg : givenIs x k e = true)
    (hk : ∀ j < k, lateTooth j ≤ n) (hn : n ≤ lateTooth k + 10) (hn' : n < E) (h1 : E + 128 * K - 256 ≤ lateTooth k + 10)
    (h2 : lateTooth k + 10 < E + 128 * K) (hp : phaseOf x w k (E + 128 * K) e = some e') :
    ∃ m b c, m < E + 128 * K ∧ lateTooth k ≤ m ∧ m ≤ lateTooth k + 10 ∧
      EngTimed Honest (LateOk x) e0 m (E + 128 * K) (e'.on b c) ∧ givenIs x (k + 1) e' = true := by
  obtain ⟨n1, b1, c1, a1, a2, a3⟩ := clock_idle (runOf_timed _ _) h (by omega) (of_decide_eq_true hi) K (fun m b c m1 m2 =>
    givenIs_on bl b c hg (fun j hj => le_trans (hk j hj) m1) (by omega))
  obtain ⟨-, ci, -⟩ := clock_reach hb .boot (timed_clock a3)
  have hmono : lateTooth k ≤ lateTooth (k + 1) := lateTooth_mono (Nat.le_succ k)
  have hx : (e.on (endingAt (E + 128 * K)) false).on b1 c1 = e.on b1 c1 := rfl
  obtain ⟨m, m1, m2, m3, -⟩ := clock_run (runOf_timed _ _) (n' := lateTooth k + 10) (e := e.on (endingAt (E + 128 * K)) false) (by rw [hx]; exact a3)
    (by rw [hx, ci.early, endingAt_earliest]) (by omega) h2
    (fun x hx => givenIs_on bl b1 c1 hx (fun j hj => by
      have := lateTooth_mono (Nat.lt_succ_iff.mp hj)
      omega) (by omega)) hp
  have hgl : givenIs x (k + 1) e' = true := by
    rcases runG_last hp with ⟨h, -⟩ | h
    · cases h
    · exact h
  obtain ⟨-, -, ⟨⟨k', g1, g2, -⟩, -⟩⟩ := clock_reach hb .boot (timed_clock m3)
  have hk' : k' = k + 1 := by
    have h3 := hgl
    unfold givenIs at h3
    rw [Bool.and_eq_true, decide_eq_true_eq] at h3
    have h4 := h3.1
    rw [show e'.given = (e'.on b1 c1).given from rfl, g1] at h4
    simpa using congrArg List.length h4
  exact ⟨m, b1, c1, by omega, g2 k (by omega), m2, m3, hgl⟩

theorem Engine.on_self (e : Engine) : e.on e.buf e.cur = e := by
  cases e; rfl

theorem wheel_earliest (evs : Fin maxEvents → OEvent) : (wheelEngine evs).dma.earliest = stamp 512 := by
  have h : (wheelEngine evs).dma = wheelStart evs := by
    unfold wheelEngine Engine.dma
    generalize wheelStart evs = s
    rfl
  rw [h]
  unfold wheelStart
  generalize hs : bufferSwap (Dma.boot evs) 200 = s'
  obtain ⟨c1, c2, -⟩ := bufferSwap_spec s' 300
  obtain ⟨d1, -, d3, -⟩ := bufferSwap_spec (Dma.boot evs) 200
  rw [hs] at d1 d3
  show ((bufferSwap s' 300).buf (bufferSwap s' 300).cur).first + 256 = _
  rw [c1, c2, d1, Bool.not_not, d3]
  decide

theorem late_boot {x : Engine → Bool} (bl : Blind x) {evs : Fin maxEvents → OEvent} (hz : x (wheelEngine evs) = true) : EngTimed Honest (LateOk x) (wheelEngine evs) 400 512
    ((wheelEngine evs).on (wheelEngine evs).buf (wheelEngine evs).cur) := by
  have hg : givenIs x 0 (wheelEngine evs) = true := by
    unfold givenIs
    rw [Bool.and_eq_true]
    exact ⟨decide_eq_true rfl, hz⟩
  have := givenIs_on bl (n := 400) (wheelEngine evs).buf (wheelEngine evs).cur hg (fun j hj => by omega) (by decide)
  rw [Engine.on_self] at this ⊢
  exact .boot (wheel_earliest evs) (by norm_num) (by norm_num) this

/-- The state before tooth 3, which synchronises the decoder: nothing is scheduled. -/
theorem late_three {x : Engine → Bool} (bl : Blind x) {evs : Fin maxEvents → OEvent} (hu : Unarmed evs)
    (hz : x (wheelEngine evs) = true) {e1 e2 e3 : Engine} (h1 : phase x 0 15104 (wheelEngine evs) = some e1) (i1 : idleEng e1 = true)
    (h2 : phase x 1 30080 e1 = some e2) (i2 : idleEng e2 = true) (h3 : phase x 2 45056 e2 = some e3) :
    ∃ m b c, m < 45056 ∧ 45000 ≤ m ∧ m ≤ 45010 ∧
      EngTimed Honest (LateOk x) (wheelEngine evs) m 45056 (e3.on b c) ∧ givenIs x 3 e3 = true := by
  have hb := wheelEngine_boot hu
  have t0 : lateTooth 0 = 15000 := by decide
  have t1 : lateTooth 1 = 30000 := by decide
  have t2 : lateTooth 2 = 45000 := by decide
  have hg : givenIs x 0 (wheelEngine evs) = true := by
    unfold givenIs
    rw [Bool.and_eq_true]
    exact ⟨decide_eq_true rfl, hz⟩
  obtain ⟨m1, b1, c1, a1, a2, a3, a4, a5⟩ := phase_clock bl (k := 0) (K := 114) hb (late_boot bl hz)
    (decide_eq_true (wheelEngine_idle hu)) hg (fun j hj => by omega) (by omega) (by norm_num) (by omega) (by omega) h1
  obtain ⟨m2, b2, c2, d1, d2, d3, d4, d5⟩ := phase_clock bl (k := 1) (K := 117) hb a4 i1 a5
    (fun j hj => by obtain rfl : j = 0 := by omega
                    omega) (by omega) a1 (by omega) (by omega) h2
  obtain ⟨m3, b3, c3, f1, f2, f3, f4, f5⟩ := phase_clock bl (k := 2) (K := 117) hb d4 i2 d5
    (fun j hj => le_trans (lateTooth_mono (by omega : j ≤ 1)) (by omega)) (by omega) d1 (by omega) (by omega) h3
  exact ⟨m3, b3, c3, f1, by omega, by omega, f4, f5⟩

theorem any_some {o : Option Engine} {p : Engine → Bool} (h : o.any p = true) : ∃ e, o = some e ∧ p e = true := by
  cases o with
  | none => cases h
  | some e => exact ⟨e, rfl, h⟩

/-- The first four teeth, with `q` after them. -/
def lateOk (x : Engine → Bool) (evs : Fin maxEvents → OEvent) (q : Engine → Bool) : Bool :=
  x (wheelEngine evs) && (phase x 0 15104 (wheelEngine evs)).any fun e1 => idleEng e1 && (phase x 1 30080 e1).any fun e2 => idleEng e2 &&
    (phase x 2 45056 e2).any fun e3 => idleEng e3 && (phase x 3 75136 e3).any q

theorem late_four {x : Engine → Bool} (bl : Blind x) {evs : Fin maxEvents → OEvent} (hu : Unarmed evs)
    {q : Engine → Bool} (h : lateOk x evs q = true) : ∃ m b c e, m < 75136 ∧ 75000 ≤ m ∧ m ≤ 75010 ∧
    EngTimed Honest (LateOk x) (wheelEngine evs) m 75136 (e.on b c) ∧ givenIs x 4 e = true ∧ q e = true := by
  unfold lateOk at h
  rw [Bool.and_eq_true] at h
  obtain ⟨hz, h⟩ := h
  obtain ⟨e1, p1, h⟩ := any_some h
  rw [Bool.and_eq_true] at h
  obtain ⟨e2, p2, h2⟩ := any_some h.2
  rw [Bool.and_eq_true] at h2
  obtain ⟨e3, p3, h3⟩ := any_some h2.2
  rw [Bool.and_eq_true] at h3
  obtain ⟨e4, p4, h4⟩ := any_some h3.2
  obtain ⟨m3, b3, c3, f1, f2, f3, f4, f5⟩ := late_three bl hu hz p1 h.1 p2 h2.1 p3
  have t2 : lateTooth 2 = 45000 := by decide
  have t3 : lateTooth 3 = 75000 := by decide
  obtain ⟨m, b, c, a1, a2, a3, a4, a5⟩ := phase_clock bl (k := 3) (K := 235) (wheelEngine_boot hu) f4 h3.1 f5
    (fun j hj => le_trans (lateTooth_mono (by omega : j ≤ 2)) (by omega)) (by omega) f1 (by omega) (by omega) p4
  exact ⟨m, b, c, e4, a1, by omega, by omega, a4, a5, h4⟩

/-- An edge of the output is armed for tick `t`. -/
def armedFor (w : Bool) (t : Time) (e : Engine) : Bool :=
  decide (((e.cfg.events 0).edge w).state = .scheduled) && decide (((e.cfg.events 0).edge w).time = t)

/-- Every output but output 0 is disabled and on another pin. -/
def onlyZero (ty : EvType) (A : ℚ) (e : Engine) : Bool :=
  decide (∀ i, i = 0 ∨ ((e.cfg.events i).type = .disabled ∧ ((e.cfg.events i).pin.setWidth 8).toNat ≠ 3)) &&
  decide ((e.cfg.events 0).type = ty ∧ ((e.cfg.events 0).pin.setWidth 8).toNat = 3 ∧ (e.cfg.events 0).inverted = false ∧
    (e.cfg.events 0).angle = .fin A)

/-- The edge armed in a state of the run is played. -/
theorem armed_played {G : ℤ → Engine → Prop} {P : ℤ → ℤ → Engine → Prop} {eb e0 e : Engine} {n E : ℤ} {t : ℤ} {ty : EvType} {A : ℚ} (w : Bool) (hb : EngBoot eb)
    (h0 : EngReach (fun _ => True) eb e0) (hP : RunOf G e0 P) (h : P n E e) (ha : armedFor w (stamp t) e = true) (ho : onlyZero ty A e0 = true)
    (K : ℕ) (hK : K < 2 ^ 24) (h1 : E + 128 * K ≤ t) (h2 : t < E + 128 * K + 128)
    (hG : ∀ m (x : Engine), n ≤ m → m ≤ max n (E + 128 * K) → x.given = e.given → x.vals = e.vals →
      x.cfg.decoder = e.cfg.decoder → G m x) :
    ∃ n' e', P n' (E + 128 * K + 256) e' ∧ Drives (e'.buf e'.cur) (stamp t) 3 (!w) ∧
      e'.cfg.decoder = e.cfg.decoder := by
  unfold armedFor at ha
  rw [Bool.and_eq_true, decide_eq_true_eq, decide_eq_true_eq] at ha
  obtain ⟨rr, ci, -⟩ := clock_reach hb h0 (hP.clock h)
  have he2 : E + 128 * ((K + 2 : ℕ) : ℤ) = E + 128 * K + 256 := by push_cast; ring
  obtain ⟨n', e', -, -, a3, a4, -, -, a5⟩ := clock_hold hb h0 hP h 0 w (K + 2) (fun m x m1 m2 => hG m x m1 (by
    rw [he2] at m2; omega))
  rw [he2] at a3
  refine ⟨n', e', a3, ?_, a5⟩
  obtain ⟨x1, x2, x3, x4, -⟩ := C19_exactly_once (reach_dma hb rr) (show ((e.dma.evs 0).edge w).state = _ from ha.1) a4
  have hm : (((e.dma.evs 0).edge w).time - e.dma.earliest).toNat / 128 = K := by
    show (((e.cfg.events 0).edge w).time - e.dma.earliest).toNat / 128 = K
    rw [ha.2, ci.early, stamp_sub]
    have := stamp_toNat_mod (t - E)
    omega
  rw [hm] at x3 x4
  have hs := x3 (.inr rfl)
  obtain ⟨rr', ci', -⟩ := clock_reach hb h0 (hP.clock a3)
  have hp := (dma_reach_inv (reach_dma hb rr')).pins 0 w (.inr hs)
  have hst := clock_static (hP.clock a3) 0
  change (setPins (e'.cfg.events 0)).edge w = (e'.cfg.events 0).edge w at hp
  have hpin : ((e'.cfg.events 0).edge w).pin = (e0.cfg.events 0).pin.setWidth 8 := by
    rw [← hp, ← hst.2.2.1]; cases w <;> rfl
  have hval : ((e'.cfg.events 0).edge w).val = (if w then (e0.cfg.events 0).inverted else !(e0.cfg.events 0).inverted) := by
    rw [← hp, ← hst.2.2.2]; cases w <;> rfl
  unfold onlyZero at ho
  rw [Bool.and_eq_true, decide_eq_true_eq, decide_eq_true_eq] at ho
  obtain ⟨-, -, o2, o3, -⟩ := ho
  have x5 := x4 rfl 3 (by
    show ((e'.cfg.events 0).edge w).pin.toNat = _
    rw [hpin, o2]; rfl)
  have x6 : ((e'.dma.evs 0).edge w).time = stamp t := by rw [x1]; exact ha.2
  rw [x6] at x5
  change Drives _ _ _ ((e'.cfg.events 0).edge w).val at x5
  rw [hval, o3] at x5
  cases w <;> exact x5

end Verif
