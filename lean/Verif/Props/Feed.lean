/-
C52: the values of a feed message line up with the keys of the description.
-/
import Mathlib.Data.List.Nodup
import Verif.Model.Console

namespace Verif

/-- An array of feed nodes as the console needs it: named nodes, then one without a name, and whatever. -/
def FeedArray {σ : Type} (named : List (String × FeedNode σ)) (nodes : List (FeedNode σ)) : Prop :=
  ∃ last rest, nodes = named.map Prod.snd ++ last :: rest ∧ last.id = none ∧ ∀ n ∈ named, n.2.id = some n.1

theorem feedKeys_eq {σ : Type} {named : List (String × FeedNode σ)} {nodes : List (FeedNode σ)}
    (h : FeedArray named nodes) : feedKeys nodes = .ok (named.map fun n => .text n.1) := by
  obtain ⟨last, rest, rfl, hl, hn⟩ := h
  induction named with
  | nil => simp [feedKeys, hl]
  | cons a as ih =>
    simp only [List.map_cons, List.cons_append]
    rw [feedKeys, hn a List.mem_cons_self]
    dsimp only
    rw [ih (fun n h => hn n (List.mem_cons_of_mem _ h))]

theorem feedValues_eq {σ : Type} (s : σ) {named : List (String × FeedNode σ)} {nodes : List (FeedNode σ)}
    (h : FeedArray named nodes) : feedValues s nodes = .ok (named.map fun n => feedValue n.2 s) := by
  obtain ⟨last, rest, rfl, hl, hn⟩ := h
  induction named with
  | nil => simp [feedValues, hl]
  | cons a as ih =>
    simp only [List.map_cons, List.cons_append]
    rw [feedValues, hn a List.mem_cons_self]
    dsimp only
    rw [ih (fun n h => hn n (List.mem_cons_of_mem _ h))]

/-- C52, for every array of nodes: the description has one key for every named node, every feed message,
whatever the state and the time, one value for every named node, and both are in the order of the array:
the key and the value at the same position belong to the same node. -/
theorem C52_aligned {σ : Type} {named : List (String × FeedNode σ)} {nodes : List (FeedNode σ)}
    (h : FeedArray named nodes) (now now' : Time) (s : σ) :
    ∃ ks vs, feedDescription nodes now =
        .ok (.map [.text "type", .text "description", .text "time", .int now.toNat, .text "keys", .arr false ks]) ∧
      feedLine nodes now' s =
        .ok (.map [.text "type", .text "feed", .text "time", .int now'.toNat, .text "values", .arr false vs]) ∧
      ks.length = named.length ∧ vs.length = named.length ∧
      ∀ (i : Nat) (n : String × FeedNode σ), named[i]? = some n →
        ks[i]? = some (.text n.1) ∧ vs[i]? = some (feedValue n.2 s) := by
  refine ⟨_, _, by rw [feedDescription, feedKeys_eq h], by rw [feedLine, feedValues_eq s h], by simp, by simp, ?_⟩
  intro i n hi
  simp [hi]

/-- The keys of the firmware's feed. -/
def feedNames : List String :=
  ["cputime", "ve", "lambda", "fuel_pulsewidth_us", "temp_enrich_percent", "injector_dead_time",
   "injector_pw_correction", "accel_enrich_percent", "airmass_per_cycle", "advance", "dwell", "rpm_cut",
   "boost_cut", "fuel_overduty_cut", "sensor.map", "sensor.iat", "sensor.clt", "sensor.brv", "sensor.tps",
   "sensor.tps.rate", "sensor.aap", "sensor.frt", "sensor.ego", "sensor.frp", "knock1.value", "knock2.value",
   "sensor.eth", "sensor_faults", "rpm", "tooth_rpm", "sync", "loss", "rpm_variance", "last_trigger_angle",
   "t0_count", "t1_count"]

theorem feedNodes_array : FeedArray (feedNames.zip feedNodes) feedNodes :=
  ⟨_, [], rfl, rfl, by
    unfold feedNames feedNodes
    simp only [List.zip_cons_cons, List.zip_nil_left, List.forall_mem_cons]
    simp⟩

/-- C52 for the firmware: no two keys are the same, there is a value for each, and every value is a number. -/
theorem C52_firmware (s : FeedState) :
    feedNames.Nodup ∧ feedKeys feedNodes = .ok (feedNames.map .text) ∧
      ∃ vs, feedValues s feedNodes = .ok vs ∧ vs.length = feedNames.length ∧
        ∀ v ∈ vs, (∃ n : Nat, v = .int n ∧ n < 2 ^ 32) ∨ ∃ x, v = .flt x := by
  refine ⟨by decide, rfl, _, rfl, rfl, ?_⟩
  simp only [List.forall_mem_cons]
  and_intros
  all_goals first
    | exact Or.inl ⟨_, rfl, BitVec.isLt _⟩
    | exact Or.inr ⟨_, rfl⟩
    | exact fun _ h => absurd h List.not_mem_nil

end Verif
