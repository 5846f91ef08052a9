import Verif.Spec.Analyze
import Verif.Model.Markdown
/-!
# What the report of the schema analysis should say
-/

namespace Verif.Spec.Analyze
open Verif Verif.Analyze

/-- Somewhere inside `v` there is `"type": {"enum": [.., t, ..]}`. -/
inductive TypeValue : Val → Str → Prop
  | here (d t : List (String × Val)) (l : List Val) (x : Str) :
      lookupKey d "type" = some (.dict t) → lookupKey t "enum" = some (.list l) → .str x ∈ l → TypeValue (.dict d) x
  | value (d : List (String × Val)) (k : String) (v : Val) (x : Str) : (k, v) ∈ d → TypeValue v x → TypeValue (.dict d) x
  | item (l : List Val) (v : Val) (x : Str) : v ∈ l → TypeValue v x → TypeValue (.list l) x

/-- Somewhere inside `v` there is an enum of types that is not a list of strings. -/
inductive OddEnum : Val → Prop
  | here (d t : List (String × Val)) (e : Val) : lookupKey d "type" = some (.dict t) → lookupKey t "enum" = some e →
      (∀ l, e = .list l → ∃ x ∈ l, ∀ s, x ≠ .str s) → OddEnum (.dict d)
  | value (d : List (String × Val)) (k : String) (v : Val) : (k, v) ∈ d → OddEnum v → OddEnum (.dict d)
  | item (l : List Val) (v : Val) : v ∈ l → OddEnum v → OddEnum (.list l)

/-- `m` is the type of a mark definition of the schema. -/
def IsMark (defs : List (String × Val)) (m : Str) : Prop := m ≠ [] ∧ ∃ name v, (name, v) ∈ defs ∧ name.toList = m ++ "_mark".toList

/-- The definitions whose names have a property are `n`. -/
def Number (defs : List (String × Val)) (p : Str → Prop) (n : Nat) : Prop :=
  ∃ names : List String, names.Nodup ∧ names.length = n ∧ ∀ x, x ∈ names ↔ (∃ v, (x, v) ∈ defs) ∧ p x.toList

/-- The facts of the report. -/
structure Facts where
  definitions : Nat
  nodes : Nat
  marks : Nat
  others : Nat
  types : List Str
  /-- base types in the order of implementation, with what they depend on -/
  order : List (Str × List Str)
  markTypes : List Str

/-- The facts are those of the schema: alphabetical lists of all types, of all marks and of the dependencies, the base types in
the intended order. -/
structure Facts.Of (defs : List (String × Val)) (f : Facts) : Prop where
  definitions : Number defs (fun _ => True) f.definitions
  nodes : Number defs ("_node".toList <:+ ·) f.nodes
  marks : Number defs ("_mark".toList <:+ ·) f.marks
  others : Number defs (fun n => ¬ "_node".toList <:+ n ∧ ¬ "_mark".toList <:+ n) f.others
  types : f.types.Pairwise (· < ·) ∧ ∀ t, t ∈ f.types ↔ TypeValue (.dict defs) t
  markTypes : f.markTypes.Pairwise (· < ·) ∧ ∀ m, m ∈ f.markTypes ↔ IsMark defs m
  bases : (f.order.map (·.1)).Nodup ∧ (∀ b, b ∈ f.order.map (·.1) ↔ IsBase defs b) ∧
    IsOrder (IsBase defs) (Needs defs) (f.order.map (·.1))
  deps : ∀ b ds, (b, ds) ∈ f.order → ds.Pairwise (· < ·) ∧ ∀ b', b' ∈ ds ↔ Wants defs b b'

/-- Base types without / with dependencies, in the order of implementation. -/
def Facts.leaves (f : Facts) : List (Str × List Str) := f.order.filter (·.2.isEmpty)
def Facts.composites (f : Facts) : List (Str × List Str) := f.order.filter (!·.2.isEmpty)

/-- The name with its first letter in upper case. -/
def className (env : Env) : Str → Str
  | [] => []
  | c :: cs => upperChar env c ++ cs

/-- The names, separated by commas. -/
def commas (l : List Str) : Str := [',', ' '].intercalate l

/-- An entry of the implementation order. -/
def orderEntry (i : Nat) (e : Str × List Str) : Str :=
  Nat.toDigits 10 i ++ ". **".toList ++ e.1 ++
    (if e.2.isEmpty then "** - no dependencies".toList else "** - depends on: ".toList ++ commas e.2)

/-- The lines of the report. -/
def Facts.lines (env : Env) (f : Facts) : List Str :=
  ["# ADF JSON Schema Analysis".toList, [], "## Overview".toList, [],
   "- Total definitions: ".toList ++ Nat.toDigits 10 f.definitions,
   "- Node definitions (`*_node`): ".toList ++ Nat.toDigits 10 f.nodes,
   "- Mark definitions (`*_mark`): ".toList ++ Nat.toDigits 10 f.marks,
   "- Other definitions: ".toList ++ Nat.toDigits 10 f.others,
   "- Unique type enum values: ".toList ++ Nat.toDigits 10 f.types.length, [],
   "## All Type Enum Values".toList, [], Nat.toDigits 10 f.types.length ++ " unique type values:".toList, []] ++
  f.types.map ("- ".toList ++ ·) ++
  [[], "## Implementation Order".toList, [], "Nodes sorted by dependencies (implement dependencies first):".toList, []] ++
  f.order.mapIdx (fun i e => orderEntry (i + 1) e) ++
  [[], "## Mark Definitions".toList, [], Nat.toDigits 10 f.markTypes.length ++ " mark types:".toList, []] ++
  f.markTypes.map ("- ".toList ++ ·) ++
  [[], "## Recommended Implementation Phases".toList, [], "### Phase 1: Base Classes".toList, [],
   "- Base".toList, "- BaseNode".toList, "- BaseMark".toList, [],
   "### Phase 2: Marks".toList, [], "No internal dependencies, can be implemented in any order:".toList, []] ++
  f.markTypes.map (fun m => "- Mark".toList ++ className env m) ++
  [[], "### Phase 3: Leaf Nodes".toList, [], "Nodes with no node dependencies:".toList, []] ++
  f.leaves.map (fun e => "- Node".toList ++ className env e.1) ++
  [[], "### Phase 4: Composite Nodes".toList, [], "Nodes with dependencies (implement in order):".toList, []] ++
  f.composites.map (fun e => "- Node".toList ++ className env e.1 ++ " - needs: ".toList ++ commas e.2)

end Verif.Spec.Analyze
