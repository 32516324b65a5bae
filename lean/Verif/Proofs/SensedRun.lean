/-
Demonstration runs in which the sensors are watched as well.
-/
import Verif.Spec.Command
import Verif.Proofs.CamDemoRun

namespace Verif

attribute [local instance] binary32

/-- The sensors read what they read at the start of the demonstration runs. -/
def DemoSensed (s : Fin numSensors → Sensor) : Prop :=
  ∀ i, (s i).value = (demoConfig.sensors i).value ∧ (s i).derivative = (demoConfig.sensors i).derivative

instance (s : Fin numSensors → Sensor) : Decidable (DemoSensed s) := inferInstanceAs (Decidable (∀ _, _ ∧ _))

/-- What is watched, and the sensors. -/
def withSensors (seen : Engine → Bool) (e : Engine) : Bool := seen e && decide (DemoSensed e.cfg.sensors)

/-- What follows, and what C103 assumes of the inputs. -/
def FedBy (ev : ℕ → Int × ℤ) (Ok : ℤ → Engine → Prop) (n : ℤ) (e : Engine) : Prop := Ok n e ∧ InputsOn ev 300 DemoSensed n e

theorem wheel_sensed (evs : Fin maxEvents → OEvent) : DemoSensed (wheelEngine evs).cfg.sensors := by
  unfold wheelEngine
  generalize wheelStart evs = s
  exact fun i => ⟨rfl, rfl⟩

theorem cam_sensed (d0 : Decoder) (evs : Fin maxEvents → OEvent) : DemoSensed (camEngine d0 evs).cfg.sensors := by
  unfold camEngine
  generalize wheelStart evs = s
  exact fun i => ⟨rfl, rfl⟩

variable {seen : Engine → Bool} {Ok : ℤ → Engine → Prop}

theorem Watch.sensed (w : Watch seen Ok) : Watch (withSensors seen) (FedBy (fun j => (0, lateTooth j)) Ok) := by
  refine ⟨fun e b c => ?_, fun e f K => ?_, fun evs => ?_, fun {n k e} h h1 h2 h3 => ?_, fun h => w.teeth h.1⟩
  · unfold withSensors
    rw [w.on]
    rfl
  · unfold withSensors
    rw [w.swept]
    rfl
  · unfold withSensors
    rw [w.boot, decide_eq_true (wheel_sensed evs)]
    rfl
  · unfold givenIs withSensors at h
    rw [Bool.and_eq_true, Bool.and_eq_true, decide_eq_true_eq, decide_eq_true_eq] at h
    obtain ⟨h, hx, hs⟩ := h
    have hlen : e.given.length = k := by rw [h]; simp
    have hg : givenIs seen k e = true := by
      unfold givenIs
      rw [Bool.and_eq_true, decide_eq_true_eq]
      exact ⟨h, hx⟩
    exact ⟨w.ok hg h1 h2 h3, ⟨k, h, h1, h2⟩, handled_of hlen h2 h3, hs⟩

theorem EvWatch.sensed {ev : ℕ → Int × ℤ} {d0 : Decoder} (w : EvWatch ev d0 seen Ok) (pace : EvPace ev) : EvWatch ev d0 (withSensors seen) (FedBy ev Ok) := by
  refine ⟨fun e b c => ?_, fun e f K => ?_, fun evs => ?_, fun {n k e} h h1 h2 h3 => ?_, fun h => w.teeth h.1⟩
  · unfold withSensors
    rw [w.on]
    rfl
  · unfold withSensors
    rw [w.swept]
    rfl
  · unfold withSensors
    rw [w.boot, decide_eq_true (cam_sensed d0 evs)]
    rfl
  · unfold evGiven withSensors at h
    rw [Bool.and_eq_true, Bool.and_eq_true, decide_eq_true_eq, decide_eq_true_eq] at h
    obtain ⟨h, hx, hs⟩ := h
    have hlen : e.given.length = k := by rw [h]; simp
    have hg : evGiven ev seen k e = true := by
      unfold evGiven
      rw [Bool.and_eq_true, decide_eq_true_eq]
      exact ⟨h, hx⟩
    exact ⟨w.ok hg h1 h2 h3, ⟨k, h, h1, h2⟩, ev_handled pace hlen h2 h3, hs⟩

end Verif
