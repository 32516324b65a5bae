/-
C27 fuel pump, C28 check-engine light, C29 boost control, C30 emergency shutdown.
-/
import Verif.Model.Tasks
import Verif.Spec.Tasks
import Verif.Spec.Demo
import Verif.Props.Time
import Verif.Props.Table
import Verif.Props.Sched
import Verif.Props.Cuts
import Verif.Props.Config

namespace Verif
open Fl FloatFmt

/-! ### C27 -/

/-- Histories of the fuel pump task since power-up, newest run first, with the level written and the
variable the task keeps. -/
inductive PumpHist [FloatFmt] : List (PumpRun × Bool) → Time → Prop
  | boot : PumpHist [] 0
  | run {h : List (PumpRun × Bool)} {lv lv' : Time} {r : PumpRun} {o : Bool} (p : PumpHist h lv)
      (e : fuelPump (stamp r.trigger) (stamp r.t1) (stamp r.t2) (stamp r.t3) lv = .ok (o, lv')) :
      PumpHist ((r, o) :: h) lv'

theorem ofNat_stamp (k : Nat) : BitVec.ofNat 32 k = stamp k := by
  simp [stamp]

theorem fuelPump_eq [FloatFmt] (tr n1 n2 n3 lv : Time) : fuelPump tr n1 n2 n3 lv =
    .ok (if timeInRange n1 tr (tr + 4000000#32) then (true, n2)
      else if (timeDiff n2 lv).toNat < 16000000 then (true, lv) else (false, n3 - 20000000#32)) := by
  unfold fuelPump
  rw [timeFromUs_eq _ (by decide), timeFromUs_eq _ (by decide), timeFromUs_eq _ (by decide)]
  simp only [except_bind_ok, except_pure]
  rw [show (4 * 1000000 : BitVec 32) = 4000000#32 by rfl, show (4 * 5000000 : BitVec 32) = 20000000#32 by rfl]
  have : (4 * 4000000 : BitVec 32).toNat = 16000000 := by rfl
  rw [this]
  split_ifs <;> rfl

/-- What the pump's variable means: the latest time the engine was seen turning, or at least that it
has stopped for good. -/
def PumpInv (h : List PumpRun) (lv : Time) : Prop :=
  ∃ L : Int, lv = stamp L ∧
    (match h with
      | [] => L = 0
      | r :: _ => r.t2 - 4 * second < L ∧ L ≤ r.t2 ∧ (L = 0 ∨ ∃ q ∈ h, q.turning ∧ L = q.t2) ∧ 0 ≤ L ∧
          (∀ q ∈ h, q.turning → q.t2 ≤ L) ∨
        L = r.t3 - 5 * second ∧ 4 * second ≤ r.t2 ∧ ∀ q ∈ h, q.turning → q.t2 ≤ r.t2 - 4 * second)

theorem PumpOrder.mono : ∀ {h : List PumpRun} {r : PumpRun}, PumpOrder (r :: h) → ∀ q ∈ h, q.t2 ≤ r.t1
  | [], _, _, q, hq => by simp at hq
  | p :: h, r, ho, q, hq => by
    obtain ⟨-, -, -, -, ⟨h1, -⟩, h2⟩ := ho
    have h2' := h2
    obtain ⟨-, -, h3, -, -, -⟩ := h2'
    rcases List.mem_cons.mp hq with e | hq
    · rw [e]; omega
    · have := PumpOrder.mono h2 q hq
      have h4 := h2.2.1
      omega

theorem pumpInv [FloatFmt] {h : List (PumpRun × Bool)} {lv : Time} (p : PumpHist h lv)
    (ho : PumpOrder (h.map Prod.fst)) (hw : ∀ x ∈ h, x.1.t1 - x.1.trigger < 2 ^ 32) :
    PumpInv (h.map Prod.fst) lv ∧
      ∀ x rest, h = x :: rest → (x.2 = true ↔ PumpWanted (h.map Prod.fst)) := by
  induction p with
  | boot => exact ⟨⟨0, rfl, rfl⟩, fun _ _ e => by simp at e⟩
  | @run h lv lv' r o p e ih =>
    have ho0 := ho
    simp only [List.map_cons] at ho
    have hmono := PumpOrder.mono ho
    obtain ⟨h0, h12, h23, htr, hgap, hord⟩ := ho
    obtain ⟨⟨L, hL, hinv⟩, -⟩ := ih hord fun x hx => hw x (List.mem_cons_of_mem _ hx)
    have hwr := hw _ (List.mem_cons_self ..)
    simp only at hwr
    rw [fuelPump_eq] at e
    replace e := Except.ok.inj e
    have hrange : timeInRange (stamp r.t1) (stamp r.trigger) (stamp r.trigger + 4000000#32) = true ↔ r.turning := by
      rw [show (4000000#32) = BitVec.ofNat 32 4000000 by rfl, ofNat_stamp, stamp_add,
        C01_time_in_range _ _ _ (by omega) (by omega) (by omega) (by omega)]
      unfold PumpRun.turning second
      omega
    simp only [List.map_cons]
    by_cases hr : r.turning
    · rw [if_pos (hrange.mpr hr)] at e
      obtain ⟨rfl, rfl⟩ := Prod.mk.inj e
      refine ⟨⟨r.t2, rfl, Or.inl ⟨by unfold second; omega, le_refl _,
        Or.inr ⟨r, List.mem_cons_self .., hr, rfl⟩, by omega, ?_⟩⟩, ?_⟩
      · intro q hq _
        rcases List.mem_cons.mp hq with e | hq
        · rw [e]
        · have := hmono q hq; omega
      · intro x rest hx
        obtain ⟨rfl, rfl⟩ := List.cons.inj hx
        exact ⟨fun _ => Or.inl hr, fun _ => rfl⟩
    · rw [if_neg (by rw [hrange]; exact hr)] at e
      -- the stored time is less than a wrap old
      have hold : 0 ≤ r.t2 - L ∧ r.t2 - L < 2 ^ 32 := by
        rcases hh : h.map Prod.fst with _ | ⟨q, t⟩
        · rw [hh] at hinv hgap; simp only at hinv hgap; omega
        · rw [hh] at hinv hgap hord
          obtain ⟨-, -, q23, -, -, -⟩ := hord
          simp only at hinv hgap
          unfold second at hinv hgap
          rcases hinv with ⟨a, b, -, c, -⟩ | ⟨a, b, -⟩ <;> omega
      have hd : ((timeDiff (stamp r.t2) lv).toNat : Int) = r.t2 - L := by
        rw [hL]; exact C01_time_diff _ _ (by omega) (by omega)
      have hwant : r.t2 - L < 4 * second ↔ PumpWanted (r :: h.map Prod.fst) := by
        unfold PumpWanted
        rcases hh : h.map Prod.fst with _ | ⟨q, t⟩
        · rw [hh] at hinv
          simp only at hinv
          rw [hinv]
          simp [hr]
        · rw [hh] at hinv hmono hgap hord
          obtain ⟨-, -, q23, -, -, -⟩ := hord
          simp only at hinv hgap
          rcases hinv with ⟨a, b, c, c0, dd⟩ | ⟨a, b, c⟩
          · constructor
            · intro hlt
              rcases c with c | ⟨w, hw1, hw2, hw3⟩
              · exact Or.inr (Or.inl (by omega))
              · exact Or.inr (Or.inr ⟨w, hw1, hw2, by omega⟩)
            · rintro (hx | hx | ⟨w, hw1, hw2, hw3⟩)
              · exact absurd hx hr
              · omega
              · have := dd w hw1 hw2; omega
          · unfold second at *
            constructor
            · intro hlt; omega
            · rintro (hx | hx | ⟨w, hw1, hw2, hw3⟩)
              · exact absurd hx hr
              · omega
              · have := c w hw1 hw2; omega
      by_cases hlt : r.t2 - L < 4 * second
      · rw [if_pos (by unfold second at hlt; omega)] at e
        obtain ⟨rfl, rfl⟩ := Prod.mk.inj e
        refine ⟨⟨L, hL, ?_⟩, ?_⟩
        · refine Or.inl ⟨by omega, by omega, ?_, ?_, ?_⟩
          · rcases hh : h.map Prod.fst with _ | ⟨q, t⟩
            · rw [hh] at hinv; exact Or.inl hinv
            · rw [hh] at hinv hord hgap
              obtain ⟨-, -, q23, -, -, -⟩ := hord
              simp only at hinv hgap
              rcases hinv with ⟨a, b, c, c0, dd⟩ | ⟨a, b, c⟩
              · rcases c with c | ⟨w, hw1, hw2⟩
                · exact Or.inl c
                · exact Or.inr ⟨w, List.mem_cons_of_mem _ hw1, hw2⟩
              · unfold second at *; omega
          · rcases hh : h.map Prod.fst with _ | ⟨q, t⟩
            · rw [hh] at hinv; simp only at hinv; omega
            · rw [hh] at hinv hord hgap
              obtain ⟨-, -, q23, -, -, -⟩ := hord
              simp only at hinv hgap
              rcases hinv with ⟨a, b, c, c0, dd⟩ | ⟨a, b, c⟩
              · exact c0
              · unfold second at *; omega
          · intro w hw1 hw2
            rcases List.mem_cons.mp hw1 with e | hw1
            · rw [e] at hw2; exact absurd hw2 hr
            · rcases hh : h.map Prod.fst with _ | ⟨q, t⟩
              · rw [hh] at hw1; simp at hw1
              · rw [hh] at hinv hord hgap hw1
                obtain ⟨-, -, q23, -, -, -⟩ := hord
                simp only at hinv hgap
                rcases hinv with ⟨a, b, c, c0, dd⟩ | ⟨a, b, c⟩
                · exact dd w hw1 hw2
                · unfold second at *; omega
        · intro x rest hx
          obtain ⟨rfl, rfl⟩ := List.cons.inj hx
          exact ⟨fun _ => hwant.mp hlt, fun _ => rfl⟩
      · rw [if_neg (by unfold second at hlt; omega)] at e
        obtain ⟨rfl, rfl⟩ := Prod.mk.inj e
        have hnw : ¬ PumpWanted (r :: h.map Prod.fst) := fun hx => hlt (hwant.mpr hx)
        refine ⟨⟨r.t3 - 5 * second, ?_, Or.inr ⟨rfl, ?_, ?_⟩⟩, ?_⟩
        · rw [show (20000000#32) = BitVec.ofNat 32 20000000 by rfl, ofNat_stamp, stamp_sub]; rfl
        · by_contra hc
          exact hnw (Or.inr (Or.inl (by omega)))
        · intro w hw1 hw2
          by_contra hc
          rcases List.mem_cons.mp hw1 with e | hw1
          · rw [e] at hw2; exact hr hw2
          · exact hnw (Or.inr (Or.inr ⟨w, hw1, hw2, by omega⟩))
        · intro x rest hx
          obtain ⟨rfl, rfl⟩ := List.cons.inj hx
          exact ⟨fun hx => by simp at hx, fun hx => absurd hx hnw⟩

/-- C27: the pump runs exactly when the engine turns, turned less than 4 s ago, or power-up was less
than 4 s ago; for every history of triggers and task times in which less than one wrap of the clock
(17.9 min) has passed since the latest trigger. -/
theorem C27_pump_partial [FloatFmt] {h : List (PumpRun × Bool)} {r : PumpRun} {o : Bool} {lv : Time}
    (p : PumpHist ((r, o) :: h) lv) (ho : PumpOrder (r :: h.map Prod.fst))
    (hw : ∀ x ∈ (r, o) :: h, x.1.t1 - x.1.trigger < 2 ^ 32) :
    o = true ↔ PumpWanted (r :: h.map Prod.fst) :=
  (pumpInv p ho hw).2 (r, o) h rfl

/-- The task never fails. -/
theorem C27_total [FloatFmt] (tr n1 n2 n3 lv : Time) : ∃ o lv', fuelPump tr n1 n2 n3 lv = .ok (o, lv') :=
  ⟨_, _, fuelPump_eq tr n1 n2 n3 lv⟩

/-- C27 as stated, with no limit on how long ago the last trigger was. -/
def C27_full : Prop := ∀ (_ : FloatFmt) (h : List (PumpRun × Bool)) (r : PumpRun) (o : Bool) (lv : Time),
  PumpHist ((r, o) :: h) lv → PumpOrder (r :: h.map Prod.fst) → (o = true ↔ PumpWanted (r :: h.map Prod.fst))

/-- Violation: with the engine stopped, the pump starts again one clock wrap (17.9 min) after the last
trigger (or after power-up, when there was none). -/
theorem C27_full_false : ¬ C27_full := by
  intro hf
  let _ := exactFmt
  have p0 : PumpHist [] 0 := .boot
  have p1 := PumpHist.run (r := ⟨0, 40000000, 40000000, 40000000⟩) p0 (fuelPump_eq _ _ _ _ _)
  have p2 := PumpHist.run (r := ⟨0, 4294967296, 4294967296, 4294967296⟩) p1 (fuelPump_eq _ _ _ _ _)
  have := (hf exactFmt _ _ _ _ p2 (by simp [PumpOrder, second])).mp (by decide +kernel)
  simp [PumpWanted, PumpRun.turning, second] at this

/-- Engine running at 10 s, stopped at once; on at 13 s, off at 15 s: all hypotheses are met. -/
example : ∃ lv, @PumpHist binary32
    [(⟨39000000, 60000000, 60000004, 60000008⟩, false), (⟨39000000, 52000000, 52000004, 52000008⟩, true),
     (⟨39000000, 40000000, 40000004, 40000008⟩, true)] lv ∧
    PumpOrder [⟨39000000, 60000000, 60000004, 60000008⟩, ⟨39000000, 52000000, 52000004, 52000008⟩,
      ⟨39000000, 40000000, 40000004, 40000008⟩] := by
  let _ := binary32
  refine ⟨_, PumpHist.run (PumpHist.run (PumpHist.run .boot (lv' := stamp 40000004) ?_) (lv' := stamp 40000004) ?_)
    (lv' := stamp 40000008) ?_, by simp [PumpOrder, second]⟩ <;> rw [fuelPump_eq] <;> decide +kernel

/-! ### C28 -/

/-- The severity of the conditions present, from their descriptions: 3 manifold pressure and lambda above
their thresholds, 2 engine turning without a valid position, 1 any sensor in fault. -/
def Severity (c : Config) (n : Nat) : Prop :=
  let lean := Fl.lt c.cel.leanKpa (c.sensors sensorMap).value = true ∧ Fl.lt c.cel.leanEgo (c.sensors sensorEgo).value = true
  let lost := c.decoder.valid = false ∧ c.decoder.rpm ≠ 0
  let faulty := ∃ i, (c.sensors i).fault ≠ .none
  (lean ∧ n = 3) ∨ (¬ lean ∧ lost ∧ n = 2) ∨ (¬ lean ∧ ¬ lost ∧ faulty ∧ n = 1) ∨
    (¬ lean ∧ ¬ lost ∧ ¬ faulty ∧ n = 0)

theorem faultStatus_bit (ss : Fin numSensors → Sensor) (j : Fin numSensors) :
    (faultStatus ss).getLsbD j = decide ((ss j).fault ≠ .none) := by
  have key : ∀ (l : List (Fin numSensors)) (f : BitVec 32), (l.foldl
      (fun f i => if (ss i).fault ≠ .none then f ||| (1#32 <<< (i : Nat)) else f) f).getLsbD j =
      (f.getLsbD j || decide (j ∈ l ∧ (ss j).fault ≠ .none)) := by
    intro l
    induction l with
    | nil => simp
    | cons a l ih =>
      intro f
      rw [List.foldl_cons, ih]
      have hj : (j : Nat) < 32 := lt_trans j.isLt (by decide)
      have ha : (a : Nat) < 32 := lt_trans a.isLt (by decide)
      by_cases hf : (ss a).fault = .none
      · by_cases hja : j = a
        · subst hja; simp [hf]
        · simp [hf, hja]
      · by_cases hja : j = a
        · subst hja; simp [hf, hj]
        · have : (j : Nat) ≠ a := fun h => hja (Fin.ext h)
          simp only [hf, hja, hj, ne_eq, not_false_eq_true, if_true, BitVec.getLsbD_or, BitVec.getLsbD_shiftLeft,
            BitVec.getLsbD_one, List.mem_cons, false_or, decide_true, Bool.true_and]
          rcases lt_or_gt_of_ne this with h | h
          · simp [h]
          · have h2 : ¬ (j : Nat) - a = 0 := by omega
            simp [h2]
  unfold faultStatus
  rw [key]
  simp

theorem faultStatus_zero (ss : Fin numSensors → Sensor) :
    0 < (faultStatus ss).toNat ↔ ∃ i, (ss i).fault ≠ .none := by
  constructor
  · intro h
    by_contra hn
    push Not at hn
    have hz : faultStatus ss = 0 := by
      have key : ∀ (l : List (Fin numSensors)) (f : BitVec 32), l.foldl
          (fun f i => if (ss i).fault ≠ .none then f ||| (1#32 <<< (i : Nat)) else f) f = f := by
        intro l
        induction l with
        | nil => simp
        | cons a l ih => intro f; rw [List.foldl_cons, ih]; simp [hn a]
      exact key _ _
    rw [hz] at h
    exact absurd h (by decide)
  · rintro ⟨i, hi⟩
    have := faultStatus_bit ss i
    rw [decide_eq_true hi] at this
    rcases Nat.eq_zero_or_pos (faultStatus ss).toNat with h | h
    · have hz : faultStatus ss = 0 := BitVec.eq_of_toNat_eq h
      rw [hz] at this
      simp at this
    · exact h

/-- C28: the state taken into account at a run is the highest-priority condition present. -/
theorem C28_severity (c : Config) : Severity c (nextCel c).rank := by
  unfold Severity nextCel
  have hf := faultStatus_zero c.sensors
  have hr : c.decoder.rpm.toNat > 0 ↔ c.decoder.rpm ≠ 0 := by
    rw [gt_iff_lt, Nat.pos_iff_ne_zero, ne_eq, ne_eq, ← BitVec.toNat_inj]; rfl
  by_cases hl : Fl.lt c.cel.leanKpa (c.sensors sensorMap).value = true ∧
      Fl.lt c.cel.leanEgo (c.sensors sensorEgo).value = true
  · exact Or.inl ⟨hl, by simp [hl.1, hl.2, CelState.rank]⟩
  · have e1 : (Fl.lt c.cel.leanKpa (c.sensors sensorMap).value && Fl.lt c.cel.leanEgo (c.sensors sensorEgo).value) = false := by
      rw [← Bool.not_eq_true, Bool.and_eq_true]; exact hl
    by_cases hd : c.decoder.valid = false ∧ c.decoder.rpm ≠ 0
    · refine Or.inr (Or.inl ⟨hl, hd, ?_⟩)
      simp only [e1, hd.1, hr.mpr hd.2]; rfl
    · have e2 : (!c.decoder.valid && decide (c.decoder.rpm.toNat > 0)) = false := by
        rw [← Bool.not_eq_true, Bool.and_eq_true, decide_eq_true_iff, hr]; simpa using hd
      refine Or.inr (Or.inr ?_)
      by_cases hs : ∃ i, (c.sensors i).fault ≠ .none
      · refine Or.inl ⟨hl, hd, hs, ?_⟩
        simp only [e1, e2, decide_eq_true (hf.mpr hs), gt_iff_lt]; rfl
      · refine Or.inr ⟨hl, hd, hs, ?_⟩
        have : ¬ 0 < (faultStatus c.sensors).toNat := fun h => hs (hf.mp h)
        simp only [e1, e2, decide_eq_false this, gt_iff_lt]; rfl

theorem celUpdate_eq [FloatFmt] (s : Cel) (n : CelState) (n1 n2 : Time) : celUpdate s n n1 n2 =
    .ok (let st := if 12000000 < (timeDiff n1 s.last).toNat then CelState.none else s.state
      if st.rank < n.rank then ⟨n, n2⟩ else ⟨st, s.last⟩) := by
  unfold celUpdate
  rw [timeFromUs_eq _ (by decide)]
  simp only [except_bind_ok, except_pure]
  rw [show (4 * 3000000 : BitVec 32).toNat = 12000000 by rfl]
  split_ifs <;> rfl

theorem celPin_eq [FloatFmt] (s : CelState) (now start : Time) : celPin s now start =
    .ok (match s with
      | .none => false
      | .constant => true
      | .slow => decide ((now - start).toNat / 2000000 % 2 = 1)
      | .fast => decide ((now - start).toNat / 800000 % 2 = 1)) := by
  have h1 := timeFromUs_eq (500000 : BitVec 32) (by decide)
  have h2 := timeFromUs_eq (200000 : BitVec 32) (by decide)
  cases s <;> unfold celPin <;> simp only [h1, h2, except_bind_ok, except_pure] <;>
    rfl

/-- Histories of the check-engine task since power-up, newest run first: the configuration and sensor
state seen, the three clock readings, and the level written. -/
structure CelRun where
  c : Config
  t1 : Int
  t2 : Int
  t3 : Int
  out : Bool

inductive CelHist [FloatFmt] : List CelRun → Cel → Prop
  | boot : CelHist [] ⟨.none, 0⟩
  | run {h : List CelRun} {s s' : Cel} {r : CelRun} (p : CelHist h s)
      (e : checkEngineLight r.c s (stamp r.t1) (stamp r.t2) (stamp r.t3) = .ok (s', r.out)) :
      CelHist (r :: h) s'

/-- Clock readings ascend, a run of the task takes less than 10 minutes, and the task runs again
before the clock has wrapped (3 s are needed as margin). -/
def CelOrder : List CelRun → Prop
  | [] => True
  | r :: rest => r.t1 ≤ r.t2 ∧ r.t2 ≤ r.t3 ∧ r.t3 - r.t1 < 600 * second ∧
      (match rest with
        | [] => True
        | q :: _ => q.t3 ≤ r.t1 ∧ r.t1 - q.t1 < 2 ^ 32 - 3 * second) ∧ CelOrder rest

/-- What the light has to show after a history, by the specification. -/
inductive CelShows : List CelRun → CelShow → Prop
  | boot : CelShows [] ⟨0, 0⟩
  | run {h : List CelRun} {w : CelShow} {r : CelRun} {n : Nat} (p : CelShows h w) (hn : Severity r.c n) :
      CelShows (r :: h) (w.next n r.t1 r.t2)

theorem rank_none {s : CelState} : s.rank = 0 ↔ s = .none := by cases s <;> decide

theorem cel_refine [FloatFmt] {h : List CelRun} {s : Cel} (p : CelHist h s) (ho : CelOrder h) :
    ∃ w, CelShows h w ∧ s.state.rank = w.level ∧
      (w.level ≠ 0 → s.last = stamp w.since ∧ ∃ r rest, h = r :: rest ∧ w.since ≤ r.t2 ∧
        r.t1 - w.since ≤ 3 * second) ∧
      ∀ r rest, h = r :: rest → (r.out = true ↔ w.lit r.t3) := by
  induction p with
  | boot => exact ⟨_, .boot, rfl, fun h => absurd rfl h, fun _ _ e => by simp at e⟩
  | @run h s s' r p e ih =>
    obtain ⟨o12, o23, o13, ogap, orest⟩ := ho
    obtain ⟨w, hw, hrank, hlast, -⟩ := ih orest
    have hsev := C28_severity r.c
    refine ⟨_, .run hw hsev, ?_⟩
    unfold checkEngineLight at e
    rw [celUpdate_eq] at e
    simp only [except_bind_ok, except_pure, celPin_eq] at e
    obtain ⟨es, eo⟩ := Prod.mk.inj (Except.ok.inj e)
    -- the kept state agrees
    have hkeep : (if 12000000 < (timeDiff (stamp r.t1) s.last).toNat then CelState.none else s.state).rank =
        (if r.t1 - w.since > 3 * second then 0 else w.level) := by
      by_cases hz : w.level = 0
      · have : s.state = .none := rank_none.mp (hrank.trans hz)
        rw [hz, this]; simp [CelState.rank]
      · obtain ⟨hl, q, rest, hq, h2, h3⟩ := hlast hz
        subst hq
        simp only at ogap
        obtain ⟨q12, q23, -, -, -⟩ := orest
        have hd := C01_time_diff r.t1 w.since (by omega) (by unfold second at *; omega)
        rw [hl]
        by_cases hc : r.t1 - w.since > 3 * second
        · rw [if_pos hc, if_pos (by unfold second at *; omega)]; rfl
        · rw [if_neg hc, if_neg (by unfold second at *; omega)]; exact hrank
    set st := (if 12000000 < (timeDiff (stamp r.t1) s.last).toNat then CelState.none else s.state) with hst
    unfold CelShow.next
    simp only
    rw [← hkeep]
    by_cases hlt : st.rank < (nextCel r.c).rank
    · rw [if_pos hlt] at es eo ⊢
      rw [← es]
      refine ⟨rfl, fun _ => ⟨rfl, r, h, rfl, le_refl _, by unfold second; simp only; omega⟩, ?_⟩
      intro r' rest' hr
      obtain ⟨rfl, rfl⟩ := List.cons.inj hr
      have hd := C01_time_diff r.t3 r.t2 (by omega) (by unfold second at *; omega)
      unfold timeDiff at hd
      rw [← eo]
      generalize (stamp r.t3 - stamp r.t2).toNat = d at hd ⊢
      unfold CelShow.lit second
      rcases hn : nextCel r.c <;> simp only [CelState.rank, decide_eq_true_iff] <;> simp <;> omega
    · rw [if_neg hlt] at es eo ⊢
      rw [← es]
      have hnz : st.rank ≠ 0 → s.last = stamp w.since ∧ w.since ≤ r.t1 ∧ r.t1 - w.since ≤ 3 * second := by
        intro hz
        rw [hkeep] at hz
        split_ifs at hz with hc
        · exact absurd rfl hz
        · obtain ⟨hl, q, rest, hq, h2, h3⟩ := hlast hz
          subst hq
          simp only at ogap
          obtain ⟨q12, q23, -, -, -⟩ := orest
          exact ⟨hl, by omega, by omega⟩
      refine ⟨rfl, fun hz => ?_, ?_⟩
      · obtain ⟨h1, h2, h3⟩ := hnz hz
        exact ⟨h1, r, h, rfl, by simp only; omega, h3⟩
      · intro r' rest' hr
        obtain ⟨rfl, rfl⟩ := List.cons.inj hr
        rw [← eo]
        by_cases hz : st.rank = 0
        · rw [hz, rank_none.mp hz]; simp [CelShow.lit]
        · obtain ⟨h1, h2, h3⟩ := hnz hz
          have hd := C01_time_diff r.t3 w.since (by omega) (by unfold second at *; omega)
          unfold timeDiff at hd
          rw [h1]
          generalize (stamp r.t3 - stamp w.since).toNat = d at hd ⊢
          unfold CelShow.lit second
          rcases hn : st <;> rw [hn] at hz <;> simp only [CelState.rank, decide_eq_true_iff] <;> simp <;> omega

/-- C28: for every history of conditions and task times, the level written at each run is that of the
specified pattern for what has to be shown. -/
theorem C28_light [FloatFmt] {h : List CelRun} {r : CelRun} {s : Cel} (p : CelHist (r :: h) s)
    (ho : CelOrder (r :: h)) : ∃ w, CelShows (r :: h) w ∧ (r.out = true ↔ w.lit r.t3) := by
  obtain ⟨w, h1, -, -, h2⟩ := cel_refine p ho
  exact ⟨w, h1, h2 r h rfl⟩

theorem Severity.unique {c : Config} {m n : Nat} (a : Severity c m) (b : Severity c n) : m = n := by
  unfold Severity at a b
  simp only at a b
  rcases a with ⟨h, rfl⟩ | ⟨h, k, rfl⟩ | ⟨h, k, l, rfl⟩ | ⟨h, k, l, rfl⟩ <;>
    rcases b with ⟨h', rfl⟩ | ⟨h', k', rfl⟩ | ⟨h', k', l', rfl⟩ | ⟨h', k', l', rfl⟩ <;>
    first | rfl | exact absurd h h' | exact absurd h' h | exact absurd k k' | exact absurd k' k |
      exact absurd l l' | exact absurd l' l

theorem CelShows.unique {h : List CelRun} {v w : CelShow} (a : CelShows h v) (b : CelShows h w) : v = w := by
  induction a generalizing w with
  | boot => cases b; rfl
  | run p hn ih =>
    cases b with
    | run p' hn' => rw [ih p', hn.unique hn']

/-- C28: nothing present is ever outranked by what is shown, and a more severe condition takes over at
once and restarts the pattern. -/
theorem C28_takes_over {h : List CelRun} {r : CelRun} {v w : CelShow} {n : Nat} (hv : CelShows h v)
    (hn : Severity r.c n) (hw : CelShows (r :: h) w) :
    n ≤ w.level ∧ (v.level < n → w = ⟨n, r.t2⟩) := by
  rw [hw.unique (.run hv hn)]
  unfold CelShow.next
  simp only
  constructor
  · split_ifs <;> simp_all
  · intro hlt
    rw [if_pos]
    split_ifs <;> omega

/-- C28: what is shown is a condition that was present at most 3 s before the run, at the run that
started the pattern. -/
theorem C28_justified {h : List CelRun} {r : CelRun} {w : CelShow} (hw : CelShows (r :: h) w)
    (h0 : w.level ≠ 0) (ht : r.t1 ≤ r.t2) :
    ∃ q ∈ r :: h, Severity q.c w.level ∧ w.since = q.t2 ∧ r.t1 - q.t2 ≤ 3 * second := by
  have key : ∀ {l : List CelRun} {w : CelShow}, CelShows l w → w.level ≠ 0 →
      ∃ q ∈ l, Severity q.c w.level ∧ w.since = q.t2 := by
    intro l w hl
    induction hl with
    | boot => intro h; exact absurd rfl h
    | @run h w r n p hn ih =>
      intro hz
      unfold CelShow.next at hz ⊢
      simp only at hz ⊢
      by_cases hc : (if r.t1 - w.since > 3 * second then 0 else w.level) < n
      · rw [if_pos hc]; exact ⟨r, List.mem_cons_self .., hn, rfl⟩
      · rw [if_neg hc] at hz ⊢
        simp only at hz ⊢
        split_ifs at hz ⊢ with hc2
        · exact absurd rfl hz
        · obtain ⟨q, hq, h1, h2⟩ := ih hz
          exact ⟨q, List.mem_cons_of_mem _ hq, h1, h2⟩
  obtain ⟨q, hq, h1, h2⟩ := key hw h0
  refine ⟨q, hq, h1, h2, ?_⟩
  rw [← h2]
  cases hw with
  | @run _ v _ n p hn =>
    revert h0
    unfold CelShow.next
    simp only
    by_cases hc : (if r.t1 - v.since > 3 * second then 0 else v.level) < n
    · rw [if_pos hc]; intro _; unfold second; simp only; omega
    · rw [if_neg hc]
      simp only
      split_ifs with hc2
      · intro h; exact absurd rfl h
      · intro _; omega

/-- C28: a pattern that was started is held: at every later run within 3 s of its start, it or a more
severe one is shown. -/
theorem C28_held {h rest : List CelRun} {q : CelRun} {v w : CelShow} (hv : CelShows (q :: h) v)
    (hw : CelShows (rest ++ q :: h) w) (hstart : v.since = q.t2)
    (ht : ∀ r ∈ rest, q.t2 ≤ r.t2 ∧ r.t1 - q.t2 ≤ 3 * second) (hord : ∀ r ∈ rest, r.t1 ≤ r.t2) :
    v.level ≤ w.level ∧ (w.level = v.level → w.since = q.t2) := by
  have key : v.level ≤ w.level ∧ v.since ≤ w.since ∧ (w.level = v.level → w.since = q.t2) := by
    induction rest generalizing w with
    | nil => rw [hw.unique hv]; exact ⟨le_refl _, le_refl _, fun _ => hstart⟩
    | cons r rest ih =>
      cases hw with
      | @run _ u _ n p hn =>
        obtain ⟨i1, i2, i3⟩ := ih p (fun x hx => ht x (List.mem_cons_of_mem _ hx))
          (fun x hx => hord x (List.mem_cons_of_mem _ hx))
        obtain ⟨t1, t2⟩ := ht r (List.mem_cons_self ..)
        have hr := hord r (List.mem_cons_self ..)
        have hk : (if r.t1 - u.since > 3 * second then 0 else u.level) = u.level := by
          rw [if_neg]; omega
        unfold CelShow.next
        simp only [hk]
        split_ifs with hc
        · exact ⟨by simp only; omega, by simp only; omega, fun e => by simp only at e; omega⟩
        · exact ⟨i1, i2, i3⟩
  exact ⟨key.1, key.2.2⟩

/-- C28: without any condition present the light goes dark after 3 s. -/
theorem C28_goes_dark {h : List CelRun} {r : CelRun} {v w : CelShow} (hv : CelShows h v)
    (hn : Severity r.c 0) (hw : CelShows (r :: h) w) (ht : r.t1 - v.since > 3 * second) : w.level = 0 := by
  rw [hw.unique (.run hv hn)]
  unfold CelShow.next
  simp [ht]

/-- The light never fails, whatever the inputs. -/
theorem C28_total [FloatFmt] (c : Config) (s : Cel) (n1 n2 n3 : Time) :
    ∃ s' o, checkEngineLight c s n1 n2 n3 = .ok (s', o) := by
  unfold checkEngineLight
  rw [celUpdate_eq]
  simp only [except_bind_ok, except_pure, celPin_eq]
  exact ⟨_, _, rfl⟩

/-- The hypotheses are met by a run with a lost decoder followed by one 600 ms later with nothing wrong:
the light is then lit. -/
example : ∃ s, @CelHist exactFmt
    [⟨@demoConfig exactFmt, 3400000, 3400001, 3400002, true⟩,
     ⟨{ @demoConfig exactFmt with decoder := { (@demoConfig exactFmt).decoder with valid := false } },
       1000000, 1000001, 1000002, false⟩] s ∧ s.state = .slow := by
  let _ := exactFmt
  refine ⟨⟨.slow, stamp 1000001⟩, CelHist.run (CelHist.run .boot (s' := ⟨.slow, stamp 1000001⟩) ?_) ?_, rfl⟩ <;>
    decide +kernel

/-! ### C29 -/

/-- C29: off below the enable pressure; fully on between the enable and control pressures with throttle
above its threshold; otherwise the table's value at the current rpm. -/
theorem C29_selection [FloatFmt] (c : Config) :
    let map := (c.sensors sensorMap).value
    let tps := (c.sensors sensorTps).value
    (Fl.lt map c.boost.enableKpa = true → boostControl c = .ok (fin 0)) ∧
    (Fl.lt map c.boost.enableKpa = false → Fl.lt map c.boost.controlKpa = true →
      Fl.lt c.boost.controlTps tps = true → boostControl c = .ok (fin 100)) ∧
    (Fl.lt map c.boost.enableKpa = false →
      Fl.lt map c.boost.controlKpa = false ∨ Fl.lt c.boost.controlTps tps = false →
      ∀ t, c.boost.duty = some t → boostControl c = interp1 t (Fl.ofU32 c.decoder.rpm)) := by
  refine ⟨fun h => ?_, fun h1 h2 h3 => ?_, fun h1 h2 t ht => ?_⟩
  · unfold boostControl; simp [h]
  · unfold boostControl; simp [h1, h2, h3]
  · unfold boostControl
    have : (Fl.lt (c.sensors sensorMap).value c.boost.controlKpa &&
        Fl.lt c.boost.controlTps (c.sensors sensorTps).value) = false := by
      rcases h2 with h2 | h2 <;> simp [h2]
    simp only [h1, this, ht, deref]
    rfl

/-- C29: in exact arithmetic the duty lies within 0, 100 and the range of the table, for a table with a
spare entry after its last breakpoint. -/
theorem C29_range (c : Config) (t : Table1d) (n : Nat) (x y : Nat → ℚ) (lo hi : ℚ)
    (ht : c.boost.duty = some t) (h2 : 2 ≤ n) (h24 : n < maxAxis) (hx : AxisIs t.cols n x)
    (hy : ∀ i (hi : i < maxAxis), i < n → t.data ⟨i, hi⟩ = fin (y i)) (hs : StrictlyIncreasing n x)
    (jx jy : ℚ) (hjx : t.cols.values ⟨n, h24⟩ = fin jx) (hjy : t.data ⟨n, h24⟩ = fin jy) (hne : jx ≠ x (n - 1))
    (hr : ∀ i, i < n → lo ≤ y i ∧ y i ≤ hi) (hlo : lo ≤ 0) (hhi : 100 ≤ hi) :
    ∃ d, @boostControl exactFmt c = .ok (fin d) ∧ lo ≤ d ∧ d ≤ hi := by
  let _ := exactFmt
  obtain ⟨s1, s2, s3⟩ := C29_selection c
  by_cases h1 : Fl.lt (c.sensors sensorMap).value c.boost.enableKpa = true
  · exact ⟨0, s1 h1, hlo, by linarith⟩
  by_cases h3 : Fl.lt (c.sensors sensorMap).value c.boost.controlKpa = true ∧
      Fl.lt c.boost.controlTps (c.sensors sensorTps).value = true
  · exact ⟨100, s2 (by simpa using h1) h3.1 h3.2, by linarith, hhi⟩
  have e := s3 (by simpa using h1) (by
    by_cases h4 : Fl.lt (c.sensors sensorMap).value c.boost.controlKpa = true
    · right; simpa using fun h => h3 ⟨h4, h⟩
    · left; simpa using h4) t ht
  have hv : Fl.ofU32 c.decoder.rpm = fin (c.decoder.rpm.toNat : ℚ) := rfl
  rw [hv] at e
  by_cases hb : (c.decoder.rpm.toNat : ℚ) < x (n - 1)
  · obtain ⟨r, hr1, hr2⟩ := C05_below_top_partial t n x y _ h2 (by omega) hx hy hs hb
    obtain ⟨a, b⟩ := C05_within_data n x y _ r lo hi (by omega) hs hr2 hr
    exact ⟨r, e.trans hr1, a, b⟩
  · obtain ⟨r, hr1, hr2⟩ := C05_at_top_partial t n x y _ (by omega) h24 hx hy hs (not_lt.mp hb) jx jy hjx hjy hne
    obtain ⟨a, b⟩ := C05_within_data n x y _ r lo hi (by omega) hs hr2 hr
    exact ⟨r, e.trans hr1, a, b⟩

/-- The three cases in the shipped configuration. -/
example : let _ := binary32
    let at' (p q : ℚ) : Config := { demoConfig with
      sensors := fun i => { demoConfig.sensors i with value := if i = sensorMap then fin p else fin q } }
    boostControl (at' 80 30) = .ok (fin 0) ∧
    Fl.lt (fin 140) (at' 80 30).boost.enableKpa = false := by
  decide +kernel

/-! ### C30 -/

/-- The level a list of writes leaves on an output, from level `l`. -/
def levelAfter (pin : BitVec 32) : Bool → List OutWrite → Bool
  | l, [] => l
  | l, .output p v :: ws => levelAfter pin (if p = pin then v else l) ws
  | l, .gpio _ _ :: ws => levelAfter pin l ws

/-- The level a list of writes leaves on a general-purpose output. -/
def gpioAfter (pin : BitVec 32) : Bool → List OutWrite → Bool
  | l, [] => l
  | l, .gpio p v :: ws => gpioAfter pin (if p = pin then v else l) ws
  | l, .output _ _ :: ws => gpioAfter pin l ws

theorem levelAfter_all (pin : BitVec 32) (v : Bool) : ∀ (ws : List OutWrite) (l : Bool),
    (∀ w, OutWrite.output pin w ∈ ws → w = v) → (l = v ∨ ∃ w, OutWrite.output pin w ∈ ws) →
    levelAfter pin l ws = v
  | [], l, _, h2 => by
    rcases h2 with h | ⟨w, h⟩
    · exact h
    · simp at h
  | .gpio p b :: ws, l, h1, h2 => by
    refine levelAfter_all pin v ws l (fun w hw => h1 w (List.mem_cons_of_mem _ hw)) ?_
    rcases h2 with h | ⟨w, h⟩
    · exact Or.inl h
    · exact Or.inr ⟨w, by simpa using h⟩
  | .output p b :: ws, l, h1, h2 => by
    refine levelAfter_all pin v ws _ (fun w hw => h1 w (List.mem_cons_of_mem _ hw)) ?_
    by_cases hp : p = pin
    · subst hp
      left
      rw [if_pos rfl]
      exact h1 b (List.mem_cons_self ..)
    · rw [if_neg hp]
      rcases h2 with h | ⟨w, h⟩
      · exact Or.inl h
      · right
        refine ⟨w, ?_⟩
        rcases List.mem_cons.mp h with e | e
        · cases e; exact absurd rfl hp
        · exact e

theorem invalidate_pin {n : Nat} {evs evs' : Fin n → OEvent} (h : invalidateEvents evs = .ok evs') (i : Fin n) :
    (evs' i).pin = (evs i).pin ∧ (evs' i).inverted = (evs i).inverted := by
  have := invalidate_inv h i
  unfold invalidateOne at this
  split_ifs at this with h1 h2
  · rw [← Except.ok.inj this]; exact ⟨rfl, rfl⟩
  · have e := descheduleEvent_cases this
    rw [e]
    unfold descheduleCrit
    split_ifs <;> exact ⟨rfl, rfl⟩
  · rw [← Except.ok.inj this]; exact ⟨rfl, rfl⟩

/-- C30: after an emergency shutdown the fuel pump output is off, every injector output is at its
inactive level (when outputs sharing a pin agree on it), and no enabled output has a start edge that
could still be cancelled. -/
theorem C30_shutdown {pump : BitVec 32} {evs evs' : Fin maxEvents → OEvent} {ws : List OutWrite}
    (h : emergencyShutdown pump evs = .ok (evs', ws)) :
    (∀ l, gpioAfter pump l ws = false) ∧
    (∀ i l, (evs i).type = .fuel →
      (∀ j, (evs j).type = .fuel → (evs j).pin = (evs i).pin → (evs j).inverted = (evs i).inverted) →
      levelAfter (evs i).pin l ws = (evs i).inverted) ∧
    (∀ i, Enabled (evs' i) → ¬ Cancellable (evs' i)) := by
  unfold emergencyShutdown at h
  obtain ⟨e, he, h⟩ := bind_eq_ok.mp h
  obtain ⟨rfl, rfl⟩ := Prod.mk.inj (Except.ok.inj h)
  refine ⟨fun l => ?_, fun i l hi hsame => ?_, fun i => (C17_invalidate he i).1⟩
  · have key : ∀ (ws : List OutWrite) (l : Bool), (∀ p v, OutWrite.gpio p v ∉ ws) → gpioAfter pump l ws = l := by
      intro ws
      induction ws with
      | nil => intro l _; rfl
      | cons w ws ih =>
        intro l hw
        cases w with
        | gpio p v => exact absurd (List.mem_cons_self ..) (hw p v)
        | output p v => exact ih l fun p v hm => hw p v (List.mem_cons_of_mem _ hm)
    unfold gpioAfter
    rw [if_pos rfl]
    apply key
    intro p v hm
    simp at hm
  · apply levelAfter_all
    · intro w hw
      simp only [List.mem_cons, List.mem_map, List.mem_filter, decide_eq_true_iff] at hw
      rcases hw with hw | ⟨j, ⟨-, hj⟩, hw⟩
      · cases hw
      · obtain ⟨p, q⟩ := invalidate_pin he j
        have ty := (C17_invalidate he j).2.2
        injection hw with h1 h2
        rw [← h2, q]
        exact hsame j (ty ▸ hj) (by rw [← p, h1])
    · right
      obtain ⟨p, q⟩ := invalidate_pin he i
      have ty := (C17_invalidate he i).2.2
      refine ⟨(evs i).inverted, ?_⟩
      simp only [List.mem_cons, List.mem_map, List.mem_filter, decide_eq_true_iff]
      exact Or.inr ⟨i, ⟨List.mem_finRange i, by rw [ty, hi]⟩, by rw [p, q]⟩

/-- The shutdown completes whenever no armed start lacks its stop (which holds in every reachable
state, C12). -/
theorem C30_total (pump : BitVec 32) (evs : Fin maxEvents → OEvent)
    (h : ∀ i, (evs i).start.state = .scheduled → (evs i).stop.state ≠ .unscheduled) :
    ∃ r, emergencyShutdown pump evs = .ok r := by
  obtain ⟨e, he⟩ := C17_invalidate_total evs h
  exact ⟨_, by unfold emergencyShutdown; rw [he]; rfl⟩

/-- The shipped outputs with an injector armed and another one open: the shutdown runs, and the armed
start is withdrawn. -/
def shutdownDemo : Fin maxEvents → OEvent := fun i =>
  let e := @dfltEvents exactFmt i
  if i.val = 6 then { e with start := ⟨5000, 8, true, .scheduled⟩, stop := ⟨9000, 8, false, .scheduled⟩ }
  else if i.val = 7 then { e with start := ⟨100, 9, true, .fired⟩, stop := ⟨9000, 9, false, .scheduled⟩ } else e

example : ∃ r, emergencyShutdown 3 shutdownDemo = .ok r ∧ Cancellable (shutdownDemo 6) ∧
    (shutdownDemo 6).type = .fuel := by
  obtain ⟨r, h⟩ := C30_total 3 shutdownDemo (by decide +kernel)
  exact ⟨r, h, by unfold Cancellable; decide +kernel, by decide +kernel⟩

/-- The shipped boost table meets the hypotheses of the range theorem. -/
example : let t := @dfltBoost exactFmt
    AxisIs t.cols 6 (fun i => 1000 * (i + 1 : ℚ)) ∧ t.cols.values ⟨6, by decide⟩ = fin 0 ∧
    (∀ i (hi : i < maxAxis), i < 6 → t.data ⟨i, hi⟩ = fin 50) ∧ t.data ⟨6, by decide⟩ = fin 0 ∧
    StrictlyIncreasing 6 (fun i => 1000 * (i + 1 : ℚ)) := by
  refine ⟨⟨by decide +kernel, fun i h1 h2 => ?_⟩, by decide +kernel, fun i h1 h2 => ?_, by decide +kernel, fun i _ => ?_⟩
  · exact (by decide +kernel : ∀ i : Fin 6, (@dfltBoost exactFmt).cols.values ⟨i, Nat.lt_of_lt_of_le i.isLt (show 6 ≤ maxAxis by decide)⟩ =
      fin (1000 * (i + 1 : ℚ))) ⟨i, h2⟩
  · exact (by decide +kernel : ∀ i : Fin 6, (@dfltBoost exactFmt).data ⟨i, Nat.lt_of_lt_of_le i.isLt (show 6 ≤ maxAxis by decide)⟩ =
      fin 50) ⟨i, h2⟩
  · push_cast; linarith

end Verif
