import Mathlib.Logic.Relation
import Verif.Model.Analyze
/-!
# What the schema analysis should compute
-/

namespace Verif.Spec.Analyze
open Verif Verif.Analyze

/-- Somewhere inside `v` there is `"$ref": "#/definitions/" + name`. -/
inductive Refers : Val → Str → Prop
  | here (d : List (String × Val)) (name : Str) :
      lookupKey d "$ref" = some (.str ("#/definitions/".toList ++ name)) → Refers (.dict d) name
  | value (d : List (String × Val)) (k : String) (v : Val) (name : Str) : (k, v) ∈ d → Refers v name → Refers (.dict d) name
  | item (l : List Val) (v : Val) (name : Str) : v ∈ l → Refers v name → Refers (.list l) name

/-- Somewhere inside `v` there is a `$ref` that is not a string. -/
inductive BadRef : Val → Prop
  | here (d : List (String × Val)) (x : Val) : lookupKey d "$ref" = some x → (∀ s, x ≠ .str s) → BadRef (.dict d)
  | value (d : List (String × Val)) (k : String) (v : Val) : (k, v) ∈ d → BadRef v → BadRef (.dict d)
  | item (l : List Val) (v : Val) : v ∈ l → BadRef v → BadRef (.list l)

/-- `n` is on a cycle or needs, directly or indirectly, something on a cycle. -/
def Cyclic (dep : Str → Str → Prop) (n : Str) : Prop := ∃ m, Relation.ReflTransGen dep n m ∧ Relation.TransGen dep m m

/-- The intended order: first the entries that can be ordered, always the alphabetically first of those whose dependencies
are already there; then those on or behind cycles, alphabetically. -/
def IsOrder (entry : Str → Prop) (dep : Str → Str → Prop) (result : List Str) : Prop :=
  ∃ front back, result = front ++ back ∧
    (∀ a n b, front = a ++ n :: b → (∀ d, dep n d → d ∈ a) ∧
      ∀ m, entry m → m ∉ a → (∀ d, dep m d → d ∈ a) → n ≤ m) ∧
    back.Pairwise (· < ·) ∧ ∀ n, n ∈ back ↔ entry n ∧ Cyclic dep n

/-- `n` is an entry of the graph. -/
def Entry (g : Graph) (n : Str) : Prop := ∃ ds, (n, ds) ∈ g

/-- `n` and `d` are entries of the graph, and `n` needs `d`. -/
def Dep (g : Graph) (n d : Str) : Prop := (∃ ds, (n, ds) ∈ g ∧ d ∈ ds) ∧ Entry g d

/-- A graph is a dict of sets: no repetitions. -/
def WF (g : Graph) : Prop := (g.map (·.1)).Nodup ∧ ∀ e ∈ g, e.2.Nodup

/-! ## Base types -/

/-- `name` is a node definition of base type `b`: `b_node` or a variant `b_with_.._node`. -/
def NodeOf (name b : Str) : Prop :=
  b ≠ [] ∧ ∃ s, name = s ++ "_node".toList ∧
    ((s = b ∧ ¬ "_with_".toList <:+: s) ∨
      ∃ t, s = b ++ "_with_".toList ++ t ∧ ¬ "_with_".toList <:+: b ++ "_with".toList)

/-- `name` is a node or mark definition of base type `b`. -/
def Of (name b : Str) : Prop := NodeOf name b ∨ b ≠ [] ∧ name = b ++ "_mark".toList

/-- `b` is the base type of a node definition of the schema. -/
def IsBase (defs : List (String × Val)) (b : Str) : Prop := ∃ name v, (name, v) ∈ defs ∧ NodeOf name.toList b

/-- A node definition of base type `b` refers to a definition of the other base type `b'`. -/
def Needs (defs : List (String × Val)) (b b' : Str) : Prop :=
  b' ≠ b ∧ IsBase defs b' ∧ ∃ name v r, (name, v) ∈ defs ∧ NodeOf name.toList b ∧ Refers v r ∧ Of r b'

/-- A node definition of base type `b` refers to a node or mark definition (in the schema or not) of the other base type `b'`. -/
def Wants (defs : List (String × Val)) (b b' : Str) : Prop :=
  b' ≠ b ∧ ∃ name v r, (name, v) ∈ defs ∧ NodeOf name.toList b ∧ Refers v r ∧ Of r b'

end Verif.Spec.Analyze
