/-
A request as the interrupts see it: src/console.c stores into the configuration one value at a time, with interrupts enabled,
and a routine that interrupts it works with what has been stored so far.

The tree of Model/Console is put over a configuration that remembers its former contents; `render` itself is used as it is.
Simplified: the text of a title is one store (no interrupt routine reads it), and so is `knock_configure` after the settings of a
knock input.
-/
import Verif.Model.Console

namespace Verif

/-- The configuration and all that it was before, oldest first. -/
structure Traced (σ : Type) where
  now : σ
  past : List σ

variable {σ : Type}

/-- What an interrupt can find. -/
def Traced.states (t : Traced σ) : List σ := t.past ++ [t.now]

/-- A store. -/
def Traced.push (t : Traced σ) (s : σ) : Traced σ := ⟨s, t.past ++ [t.now]⟩

def Lens.traced {α : Type} (l : Lens σ α) : Lens (Traced σ) α := ⟨fun t => l.get t.now, fun a t => t.push (l.set a t.now)⟩

/-- The same calls, each store remembered. -/
def Node.traced : Node σ → Node (Traced σ)
  | .u32 l => .u32 l.traced
  | .flt l => .flt l.traced
  | .bool l => .bool l.traced
  | .enum choices l => .enum choices l.traced
  | .text l => .text l.traced
  | .const t => .const t
  | .map ids child post => .map ids (fun i => (child i).traced) fun t =>
      match post t.now with
      | .error e => .error e
      | .ok s => .ok (t.push s)
  | .arr resize count elem => .arr (resize.map Lens.traced) (fun t => count t.now) fun i => (elem i).traced
  | .deref null n => .deref (fun t => null t.now) n.traced
  | .oob => .oob

/-- What an interrupt can find while a get or a set is handled, in order. -/
def requestStates [FloatFmt] (tree : Node σ) (isSet : Bool) (path : List Item) (value : Option Item) (s : σ) :
    Except Fault (List σ) :=
  match request tree.traced isSet path value ⟨s, []⟩ with
  | .error e => .error e
  | .ok (t, _) => .ok t.states

end Verif
