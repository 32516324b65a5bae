/-
What a client may conclude from the answer to a "structure" request.
-/
import Verif.Spec.Request

namespace Verif

/-- The value `x` is of the form that the description `d` announces; `types` are the named types.  A description is a
map with a `_type`, or a map or an array of descriptions. -/
inductive Describes (types : List Item) : Item → Item → Prop
  /-- An unsigned number of 32 bits. -/
  | uint32 {d : List Item} {n : Int} (ht : lookupKey "_type" d = some (.text "uint32")) (h0 : 0 ≤ n) (h1 : n < 2 ^ 32) :
      Describes types (.map d) (.int n)
  | float {d : List Item} {x : Fl} (ht : lookupKey "_type" d = some (.text "float")) : Describes types (.map d) (.flt x)
  | bool {d : List Item} {b : Bool} (ht : lookupKey "_type" d = some (.text "bool")) : Describes types (.map d) (.bool b)
  /-- Any text. -/
  | string {d : List Item} {s : String} (ht : lookupKey "_type" d = some (.text "string"))
      (hc : lookupKey "choices" d = none) : Describes types (.map d) (.text s)
  /-- One of the texts listed. -/
  | choice {d : List Item} {b : Bool} {l : List Item} {s : String} (ht : lookupKey "_type" d = some (.text "string"))
      (hc : lookupKey "choices" d = some (.arr b l)) (hs : .text s ∈ l) : Describes types (.map d) (.text s)
  /-- A list of at most `len` floats. -/
  | floats {d : List Item} {n : Int} {b : Bool} {l : List Fl} (ht : lookupKey "_type" d = some (.text "[float]"))
      (hn : lookupKey "len" d = some (.int n)) (hl : l.length ≤ n) : Describes types (.map d) (.arr b (l.map .flt))
  /-- A list of at most `len` lists of at most `len` floats, all of the same length. -/
  | lists {d : List Item} {n : Int} {b b' : Bool} {m : Nat} {l : List (List Fl)}
      (ht : lookupKey "_type" d = some (.text "[[float]]")) (hn : lookupKey "len" d = some (.int n)) (hl : l.length ≤ n)
      (hm : (m : Int) ≤ n) (hl' : ∀ r ∈ l, r.length = m) :
      Describes types (.map d) (.arr b (l.map fun r => .arr b' (r.map .flt)))
  /-- Something of a type that is described elsewhere. -/
  | named {d : List Item} {t : String} {d' x : Item} (ht : lookupKey "_type" d = some (.text t))
      (hd : lookupKey t types = some d') (hx : Describes types d' x) : Describes types (.map d) x
  /-- A map with the keys of the description, in the same order. -/
  | fields {l : List (String × Item × Item)} (hk : ∀ e ∈ l, e.1 ≠ "_type") (h : ∀ e ∈ l, Describes types e.2.1 e.2.2) :
      Describes types (.map (l.flatMap fun e => [.text e.1, e.2.1])) (.map (l.flatMap fun e => [.text e.1, e.2.2]))
  /-- An array of as many elements as the description has. -/
  | array {b b' : Bool} {l : List (Item × Item)} (h : ∀ e ∈ l, Describes types e.1 e.2) :
      Describes types (.arr b (l.map fun e => e.1)) (.arr b' (l.map fun e => e.2))

end Verif
