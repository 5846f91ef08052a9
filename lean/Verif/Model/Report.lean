import Verif.Model.Analyze
import Verif.Model.Markdown
/-!
# The report of the schema analysis

scripts/s01-adf-json-schema-analysis/s2_analyze_adf_json_schema.py: `extract_type_enums` and the text that `main` writes.
-/

namespace Verif.Analyze
open Verif

/-- Lines 49-50: `for val in type_val["enum"]: type_enums.add(val)` over a list.  A list or dict is unhashable (TypeError).
Simplified: a number, a bool or None is refused here with the TypeError that `sorted(type_enums)` (line 187) raises when it
compares it with a string; Python accepts enums that contain no string at all. -/
def addEnums : List Val → List Str → Except PyErr (List Str)
  | [], s => .ok s
  | .str t :: l, s => addEnums l (add s t)
  | _ :: _, _ => .error .typeError

/-- Lines 44-50: what a dict itself contributes.  Iterating over a string gives its characters, over a dict its keys; other
values cannot be iterated over (TypeError). -/
def ownEnums (d : List (String × Val)) (s : List Str) : Except PyErr (List Str) :=
  match lookupKey d "type" with
  | some (.dict t) =>
    match lookupKey t "enum" with
    | some (.list l) => addEnums l s
    | some (.str x) => addEnums (x.map fun c => .str [c]) s
    | some (.dict e) => addEnums (e.map fun kv => .str kv.1.toList) s
    | some _ => .error .typeError
    | none => .ok s
  | _ => .ok s

mutual
/-- `extract_type_enums` (lines 36-61); the set is passed through instead of being modified. -/
def extractEnums : Val → List Str → Except PyErr (List Str)
  | .dict d, s => do enumValues d (← ownEnums d s)
  | .list l, s => enumItems l s
  | _, s => .ok s
def enumValues : List (String × Val) → List Str → Except PyErr (List Str)
  | [], s => .ok s
  | (_, v) :: d, s => do enumValues d (← extractEnums v s)
def enumItems : List Val → List Str → Except PyErr (List Str)
  | [], s => .ok s
  | v :: l, s => do enumItems l (← extractEnums v s)
end

/-- Lines 123-129: `node_defs`, `mark_defs`, `other_defs` (their names). -/
def nodeNames (defs : List (String × Val)) : List Str :=
  (defs.map (·.1.toList)).filter fun n => endsWith n "_node".toList
def markNames (defs : List (String × Val)) : List Str :=
  (defs.map (·.1.toList)).filter fun n => !endsWith n "_node".toList && endsWith n "_mark".toList
def otherNames (defs : List (String × Val)) : List Str :=
  (defs.map (·.1.toList)).filter fun n => !endsWith n "_node".toList && !endsWith n "_mark".toList

/-- Lines 164-166. -/
def markStep (s : List Str) (name : Str) : List Str :=
  match baseType name with
  | some b => if b = [] then s else add s b
  | none => s

/-- `mark_bases` (lines 162-166). -/
def markBases (defs : List (String × Val)) : List Str := (markNames defs).foldl markStep []

/-- `f"{x[0].upper()}{x[1:]}"`; IndexError if `x` is empty. -/
def capital (env : Env) : Str → Except PyErr Str
  | [] => .error .indexError
  | c :: cs => .ok (upperChar env c ++ cs)

/-- `str(n)` of a length. -/
def len {α : Type} (l : List α) : Str := Str.ofInt l.length

/-- Lines 171-181. -/
def overview (defs : List (String × Val)) (enums : List Str) : List Str :=
  ["# ADF JSON Schema Analysis".toList, [], "## Overview".toList, [],
   "- Total definitions: ".toList ++ len defs,
   "- Node definitions (`*_node`): ".toList ++ len (nodeNames defs),
   "- Mark definitions (`*_mark`): ".toList ++ len (markNames defs),
   "- Other definitions: ".toList ++ len (otherNames defs),
   "- Unique type enum values: ".toList ++ len enums, []]

/-- Lines 183-189. -/
def enumLines (enums : List Str) : List Str :=
  ["## All Type Enum Values".toList, [], len enums ++ " unique type values:".toList, []] ++
  (sort enums).map ("- ".toList ++ ·) ++ [[]]

/-- Lines 196-202: `enumerate(sorted_bases, i)`. -/
def orderItems (g : Graph) : Nat → List Str → List Str
  | _, [] => []
  | i, base :: rest =>
    (if g.deps base ≠ [] then
      Str.ofInt i ++ ". **".toList ++ base ++ "** - depends on: ".toList ++ Str.join ", ".toList (sort (g.deps base))
    else Str.ofInt i ++ ". **".toList ++ base ++ "** - no dependencies".toList) :: orderItems g (i + 1) rest

/-- Lines 191-202. -/
def orderLines (g : Graph) (bases : List Str) : List Str :=
  ["## Implementation Order".toList, [], "Nodes sorted by dependencies (implement dependencies first):".toList, []] ++
  orderItems g 1 bases

/-- Lines 204-211. -/
def markLines (marks : List Str) : List Str :=
  [[], "## Mark Definitions".toList, [], len marks ++ " mark types:".toList, []] ++ (sort marks).map ("- ".toList ++ ·)

/-- Lines 213-222. -/
def phase1 : List Str :=
  [[], "## Recommended Implementation Phases".toList, [], "### Phase 1: Base Classes".toList, [],
   "- Base".toList, "- BaseNode".toList, "- BaseMark".toList, []]

/-- Lines 228-229. -/
def markItems (env : Env) : List Str → Except PyErr (List Str)
  | [] => .ok []
  | m :: l => do .ok (("- Mark".toList ++ (← capital env m)) :: (← markItems env l))

/-- Lines 224-230. -/
def phase2 (env : Env) (marks : List Str) : Except PyErr (List Str) := do
  .ok (["### Phase 2: Marks".toList, [], "No internal dependencies, can be implemented in any order:".toList, []] ++
    (← markItems env (sort marks)) ++ [[]])

/-- Lines 237-238. -/
def leafItems (env : Env) : List Str → Except PyErr (List Str)
  | [] => .ok []
  | n :: l => do .ok (("- Node".toList ++ (← capital env n)) :: (← leafItems env l))

/-- Lines 232-239. -/
def phase3 (env : Env) (g : Graph) (bases : List Str) : Except PyErr (List Str) := do
  .ok (["### Phase 3: Leaf Nodes".toList, [], "Nodes with no node dependencies:".toList, []] ++
    (← leafItems env (bases.filter fun b => g.deps b = [])) ++ [[]])

/-- Lines 246-248. -/
def compositeItems (env : Env) (g : Graph) : List Str → Except PyErr (List Str)
  | [] => .ok []
  | n :: l => do
    .ok (("- Node".toList ++ (← capital env n) ++ " - needs: ".toList ++ Str.join ", ".toList (sort (g.deps n))) ::
      (← compositeItems env g l))

/-- Lines 241-248. -/
def phase4 (env : Env) (g : Graph) (bases : List Str) : Except PyErr (List Str) := do
  .ok (["### Phase 4: Composite Nodes".toList, [], "Nodes with dependencies (implement in order):".toList, []] ++
    (← compositeItems env g (bases.filter fun b => g.deps b ≠ [])))

/-- What `main` writes (lines 108-253) for the definitions of the schema; `order` is the iteration order of the set of base
types in `topological_sort` (`none`: that did not end).  All other sets are sorted or only counted. -/
def report (env : Env) (defs : List (String × Val)) (order : List Str) : Except PyErr (Option Str) := do
  let enums ← extractEnums (.dict defs) []
  let deps ← nodeDeps defs
  let g := baseGraph deps
  match topologicalSort g order with
  | none => .ok none
  | some bases =>
    let marks := markBases defs
    let p2 ← phase2 env marks
    let p3 ← phase3 env g bases
    let p4 ← phase4 env g bases
    .ok (some (Str.join [Str.nl]
      (overview defs enums ++ enumLines enums ++ orderLines g bases ++ markLines marks ++ phase1 ++ p2 ++ p3 ++ p4)))

end Verif.Analyze
