/-
C95: the test trigger.
-/
import Verif.Proofs.TestBench
import Verif.Props.Request

namespace Verif

section
variable [FloatFmt] [LibM] (rate : BitVec 32) (version : String) (struct : List Item)

/-- A history of the test bench, and the triggers made in it: the number of teeth configured at that time, the input and the time.  `S` is what may become of the speed in
a request; `other` is whatever the rest of the firmware does to the configuration. -/
inductive BenchRun (S : BitVec 32 → BitVec 32 → Prop) : TestBench → List (Int × Int × Time) → TestBench → Prop
  | nil (b) : BenchRun S b [] b
  | request {b b1 b' : TestBench} {ts : List (Int × Int × Time)} (now : Time) (req : List Item)
      (hr : benchRequest rate version struct now req b = .ok b1) (hS : S b.console.testRpm b1.console.testRpm)
      (h : BenchRun S b1 ts b') : BenchRun S b ts b'
  | callback {b b1 b' : TestBench} {ts : List (Int × Int × Time)} {o : Option (Int × Time)}
      (hr : benchCallback b = .ok (o, b1)) (h : BenchRun S b1 ts b') : BenchRun S b (o.toList.map (b.console.cfg.decoder.numTriggers.toInt, ·) ++ ts) b'
  | other {b b' : TestBench} {ts : List (Int × Int × Time)} (cfg : Config)
      (h : BenchRun S { b with console := { b.console with cfg := cfg } } ts b') : BenchRun S b ts b'

/-- The triggers `ts` begin at `t`, at the position `tooth` of the test wheel, and follow each other as the teeth of that wheel at `r`
revolutions a minute: each is on the input the wheel says, the next is the wheel's next tooth, and it comes after the time that step takes. -/
def AtSpeed (r : BitVec 32) : Int → Time → List (Int × Int × Time) → Prop
  | _, _, [] => True
  | tooth, t, (N, trigger, t1) :: ts => t1 = t ∧ ∃ δ, trigger = (testWheelNext N tooth).trigger ∧
      timeFromRpmDiff r (testWheelNext N tooth).degrees = .ok δ ∧ AtSpeed r (testWheelNext N tooth).tooth (t + δ) ts

/-- C95: a request that does not change the speed does not disturb the test trigger; one that does sets its next
trigger to 2.5 ms after the request. -/
theorem C95_request {now : Time} {req : List Item} {b b' : TestBench}
    (h : benchRequest rate version struct now req b = .ok b') :
    b'.tooth = b.tooth ∧
      (b'.console.testRpm = b.console.testRpm → b'.pending = b.pending) ∧
      (b'.console.testRpm ≠ b.console.testRpm → b'.pending = some (now + 10000)) := by
  unfold benchRequest at h
  obtain ⟨⟨c, l, e⟩, h1, h⟩ := bind_eq_ok.mp h
  cases h
  have := process_once (c := { b.console with testArmed := false }) rfl h1
  refine ⟨rfl, fun he => ?_, fun he => ?_⟩
  · dsimp only at he this ⊢
    rw [this, he]; simp
  · dsimp only at he this ⊢
    rw [this]; simp [he]

omit [LibM] in
theorem callback_speed {b b' : TestBench} {o : Option (Int × Time)} (h : benchCallback b = .ok (o, b')) :
    b'.console = b.console ∧ (b.console.testRpm ≠ 0 → b.pending ≠ none → b'.pending ≠ none) ∧
      (b.console.testRpm = 0 → o = none) := by
  unfold benchCallback at h
  split at h
  · rename_i hp
    cases h
    exact ⟨rfl, fun _ h => (h hp).elim, fun _ => rfl⟩
  · split at h
    · rename_i h0
      cases h
      exact ⟨rfl, fun h => (h h0).elim, fun _ => rfl⟩
    · rename_i h0
      obtain ⟨⟨tr, t, s⟩, h1, h⟩ := bind_eq_ok.mp h
      cases h
      exact ⟨rfl, fun _ _ => by simp, fun h => (h0 h).elim⟩

/-- C95: whenever the console shows a speed, the test trigger is running: its next trigger is scheduled. -/
theorem C95_runs {b b' : TestBench} {ts : List (Int × Int × Time)} (h0 : b.console.testRpm = 0)
    (h : BenchRun rate version struct (fun _ _ => True) b ts b') : b'.console.testRpm ≠ 0 → b'.pending ≠ none := by
  have key : (b.console.testRpm ≠ 0 → b.pending ≠ none) → b'.console.testRpm ≠ 0 → b'.pending ≠ none := by
    clear h0
    induction h with
    | nil => exact id
    | @request b b1 b' ts now req hr _ _ ih =>
      intro hb
      refine ih fun h1 => ?_
      obtain ⟨-, h2, h3⟩ := C95_request rate version struct hr
      by_cases he : b1.console.testRpm = b.console.testRpm
      · rw [h2 he]; exact hb (he ▸ h1)
      · rw [h3 he]; simp
    | callback hr _ ih =>
      intro hb
      obtain ⟨h1, h2, -⟩ := callback_speed hr
      refine ih fun h3 => ?_
      rw [h1] at h3
      exact h2 h3 (hb h3)
    | other cfg _ ih => exact ih
  exact key fun h => (h h0).elim

/-- C95: once the speed is set to 0 there are no triggers until it is changed again. -/
theorem C95_stopped {b b' : TestBench} {ts : List (Int × Int × Time)} (h0 : b.console.testRpm = 0)
    (h : BenchRun rate version struct (fun r r' => r' = r) b ts b') : ts = [] := by
  induction h with
  | nil => rfl
  | request now req hr hS _ ih => exact ih (hS.trans h0)
  | callback hr _ ih =>
    obtain ⟨h1, -, h3⟩ := callback_speed hr
    rw [h3 h0, ih (by rw [h1]; exact h0)]
    rfl
  | other cfg _ ih => exact ih h0

/-- C95: as long as the speed is not changed, the triggers come at that speed, whatever else is requested. -/
theorem C95_speed {b b' : TestBench} {ts : List (Int × Int × Time)} {t : Time} (h0 : b.console.testRpm ≠ 0)
    (hp : b.pending = some t) (h : BenchRun rate version struct (fun r r' => r' = r) b ts b') :
    AtSpeed b.console.testRpm b.tooth t ts := by
  induction h generalizing t with
  | nil => trivial
  | request now req hr hS _ ih =>
    obtain ⟨h1, h2, -⟩ := C95_request rate version struct hr
    have := ih (by rw [hS]; exact h0) ((h2 hS).trans hp)
    rw [hS, h1] at this
    exact this
  | callback hr _ ih =>
    unfold benchCallback at hr
    rw [hp] at hr
    dsimp only at hr
    rw [if_neg h0] at hr
    obtain ⟨⟨tr, t1, s⟩, h1, hr⟩ := bind_eq_ok.mp hr
    cases hr
    unfold executeTestTrigger at h1
    obtain ⟨δ, h2, h1⟩ := bind_eq_ok.mp h1
    cases h1
    exact ⟨rfl, δ, rfl, h2, ih h0 rfl⟩
  | other cfg _ ih => exact ih h0 hp

/-- A client starts the test at 3000 revolutions a minute. -/
theorem start_3000 (now : Time) :
    ∃ b, benchRequest rate version struct now (setReq [.text "test", .text "test-trigger-rpm"] (.int 3000))
      ⟨dfltConsole, 0, none⟩ = .ok b ∧ b.console.testRpm = 3000 ∧ b.console.cfg = dfltConfig := by
  have hr : request (consoleTree rate version) true [.text "test", .text "test-trigger-rpm"] (some (.int 3000))
      dfltConsole = .ok ({ dfltConsole with testRpm := 3000, testArmed := true }, [.int 3000]) := by
    have h1 : render (consoleTree rate version) true true (some (.int 3000))
        ⟨dfltConsole, [.text "test", .text "test-trigger-rpm"], []⟩ =
        .ok ⟨{ dfltConsole with testRpm := 3000, testArmed := true }, [], [.int 3000]⟩ := by
      refine render_fields (n := testNode) (by simp) (by simp) _ _ _ ?_
      refine render_fields (t := "test-trigger-rpm") (by simp) (List.mem_cons_of_mem _ List.mem_cons_self) _ _ _ ?_
      rw [render]
      rfl
    unfold request
    rw [show (!List.isEmpty [Item.text "test", Item.text "test-trigger-rpm"]) = true from rfl, h1]
  unfold benchRequest
  rw [show ({ (⟨dfltConsole, 0, none⟩ : TestBench).console with testArmed := false } : Console) = dfltConsole from rfl,
    process_set rate version struct (isSet_setReq _ _), hr]
  exact ⟨_, rfl, rfl, rfl⟩

end

/-- The hypotheses of the theorems are met: after that request the bench runs, and two triggers come 2222 ticks apart. -/
example [LibM] : ∃ b ts b', @benchRequest binary32 _ 50000 "" [] 1000 (setReq [.text "test", .text "test-trigger-rpm"] (.int 3000))
      ⟨@dfltConsole binary32, 0, none⟩ = .ok b ∧ b.pending = some 11000 ∧
    @BenchRun binary32 _ 50000 "" [] (fun r r' => r' = r) b ts b' ∧ ts = [(36, 0, 11000), (36, 1, 13222)] := by
  let _ := binary32
  obtain ⟨b, hb, hr, hc⟩ := start_3000 50000 "" [] 1000
  obtain ⟨ht, -, hp⟩ := C95_request 50000 "" [] hb
  have hp : b.pending = some 11000 := hp (by rw [hr]; decide)
  have e1 : executeTestTrigger (dfltConfig.decoder.numTriggers.toInt) ⟨0, 3000, 11000⟩ = .ok (0, 11000, ⟨1, 3000, 13222⟩) := by
    have h : timeFromRpmDiff 3000 (testWheelNext 36 0).degrees = .ok 2222 := by decide +kernel
    show (timeFromRpmDiff 3000 (testWheelNext 36 0).degrees >>= _) = _
    rw [h]
    rfl
  have e2 : ∃ s, executeTestTrigger (dfltConfig.decoder.numTriggers.toInt) ⟨1, 3000, 13222⟩ = .ok (1, 13222, s) := by
    have h : timeFromRpmDiff 3000 (testWheelNext 36 1).degrees = .ok 2222 := by decide +kernel
    show ∃ s, (timeFromRpmDiff 3000 (testWheelNext 36 1).degrees >>= _) = _
    rw [h]
    exact ⟨_, rfl⟩
  obtain ⟨s, e2⟩ := e2
  have c1 : benchCallback b = .ok (some (0, 11000), { b with tooth := 1, pending := some 13222 }) := by
    unfold benchCallback
    rw [hp]
    dsimp only
    rw [if_neg (by rw [hr]; decide), hr, hc, ht, e1]
    rfl
  have c2 : benchCallback { b with tooth := 1, pending := some 13222 } =
      .ok (some (1, 13222), { b with tooth := s.tooth, pending := some s.time }) := by
    unfold benchCallback
    dsimp only
    rw [if_neg (by rw [hr]; decide), hr, hc, e2]
    rfl
  exact ⟨b, _, _, hb, hp, .callback c1 (.callback c2 (.nil _)), by
    have h36 : b.console.cfg.decoder.numTriggers.toInt = 36 := by rw [hc]; rfl
    simp [h36]⟩

end Verif
