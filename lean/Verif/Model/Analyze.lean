import Mathlib.Data.List.Lex
import Mathlib.Data.String.Basic
import Mathlib.Data.List.Sort
import Verif.Model.FromDict
/-!
# Analysing the ADF JSON schema

scripts/s01-adf-json-schema-analysis/s2_analyze_adf_json_schema.py: which node depends on which, and in which order they can
be implemented.  The schema is `adf_json_schema.data`, a JSON value; definition names are its keys.

A Python `set` of strings is a duplicate-free list; the order in which a set is iterated is arbitrary (string hashing is
randomised per process), so it is a parameter.
-/

namespace Verif.Analyze
open Verif

/-- `s.add(x)`. -/
def add (s : List Str) (x : Str) : List Str := if x ∈ s then s else s ++ [x]

/-- `"#/definitions/"`. -/
def refPrefix : Str := "#/definitions/".toList

/-- Lines 24-28: what a dict itself contributes; `ref.startswith` raises AttributeError if `ref` is no string. -/
def ownRef (d : List (String × Val)) (refs : List Str) : Except PyErr (List Str) :=
  match lookupKey d "$ref" with
  | some (.str s) => .ok (if refPrefix.isPrefixOf s then add refs (s.drop refPrefix.length) else refs)
  | some _ => .error .attributeError
  | none => .ok refs

mutual
/-- `extract_refs` (lines 21-33); the set is passed through instead of being modified. -/
def extractRefs : Val → List Str → Except PyErr (List Str)
  | .dict d, refs => do extractValues d (← ownRef d refs)
  | .list l, refs => extractItems l refs
  | _, refs => .ok refs
def extractValues : List (String × Val) → List Str → Except PyErr (List Str)
  | [], refs => .ok refs
  | (_, v) :: d, refs => do extractValues d (← extractRefs v refs)
def extractItems : List Val → List Str → Except PyErr (List Str)
  | [], refs => .ok refs
  | v :: l, refs => do extractItems l (← extractRefs v refs)
end

/-- `s.endswith(suffix)`. -/
def endsWith (s suffix : Str) : Bool := suffix.isSuffixOf s

/-- `s.split(sep)[0]` if `sep in s`, else `s`: what stands before the first occurrence of `sep`. -/
def before (sep : Str) : Str → Str
  | [] => []
  | c :: s => if sep.isPrefixOf (c :: s) then [] else c :: before sep s

/-- `get_base_type` (lines 64-73). -/
def baseType (name : Str) : Option Str :=
  if endsWith name "_node".toList then some (before "_with_".toList (name.take (name.length - 5)))
  else if endsWith name "_mark".toList then some (name.take (name.length - 5))
  else none

/-- A `dict[str, set[str]]`. -/
abbrev Graph := List (Str × List Str)

def Graph.keys (g : Graph) : List Str := g.map (·.1)

/-- `graph[n]` / `graph.get(n, set())`. -/
def Graph.deps (g : Graph) (n : Str) : List Str := ((g.find? fun e => e.1 == n).map (·.2)).getD []

/-- Lines 81-84: the dependencies of a node that are nodes of the graph are counted. -/
def countDeps (keys : List Str) : List Str → Int → Int
  | [], k => k
  | d :: l, k => countDeps keys l (if d ∈ keys then k + 1 else k)

/-- `in_degree` after lines 78-84 (a `defaultdict(int)`). -/
def inDegree (g : Graph) (n : Str) : Int := countDeps g.keys (g.deps n) 0

/-- `queue.sort()`: by code points; equal strings cannot be told apart, so all sorting algorithms agree. -/
def sort (l : List Str) : List Str := l.insertionSort (· ≤ ·)

/-- Lines 94-99: the loop over `all_nodes` after `node` was taken. -/
def relax (g : Graph) (node : Str) : List Str → (Str → Int) → List Str → (Str → Int) × List Str
  | [], deg, queue => (deg, queue)
  | other :: rest, deg, queue =>
    if node ∈ g.deps other then
      let deg' := fun i => if i = other then deg other - 1 else deg i
      if deg' other = 0 then relax g node rest deg' (sort (queue ++ [other]))
      else relax g node rest deg' queue
    else relax g node rest deg queue

/-- Lines 90-99: the `while` loop (`none`: out of fuel). -/
def loop (g : Graph) (order : List Str) : Nat → (Str → Int) → List Str → List Str → Option (List Str)
  | 0, _, _, _ => none
  | _ + 1, _, [], result => some result
  | fuel + 1, deg, node :: queue, result =>
    let (deg', queue') := relax g node order deg queue
    loop g order fuel deg' queue' (result ++ [node])

/-- `topological_sort` (lines 76-105); `order` is the iteration order of the set `all_nodes`. -/
def topologicalSort (g : Graph) (order : List Str) : Option (List Str) :=
  match loop g order (g.length + 1) (inDegree g) (sort (order.filter fun n => inDegree g n = 0)) [] with
  | none => none
  | some result => some (result ++ sort (order.filter fun n => n ∉ result))

/-! ## The analysis in `main` -/

/-- `{r for r in refs if r.endswith("_node") or r.endswith("_mark")}` (line 137) for every definition whose name ends in
`_node` (lines 123-125, 133-138). -/
def nodeDeps : List (String × Val) → Except PyErr Graph
  | [] => .ok []
  | (name, definition) :: d => do
    if endsWith name.toList "_node".toList then
      let refs ← extractRefs definition []
      let rest ← nodeDeps d
      .ok ((name.toList, refs.filter fun r => endsWith r "_node".toList || endsWith r "_mark".toList) :: rest)
    else nodeDeps d

/-- The value of `base` in a `defaultdict(list)` gets one more entry. -/
def push (m : List (Str × List Str)) (base name : Str) : List (Str × List Str) :=
  match m with
  | [] => [(base, [name])]
  | (b, l) :: m => if b = base then (b, l ++ [name]) :: m else (b, l) :: push m base name

/-- Lines 143-145. -/
def groupStep (m : List (Str × List Str)) (name : Str) : List (Str × List Str) :=
  match baseType name with
  | some base => if base = [] then m else push m base name
  | none => m

/-- Lines 141-145: the definitions of each base type. -/
def groupBases (names : List Str) : List (Str × List Str) := names.foldl groupStep []

/-- Lines 153-155. -/
def depStep (base : Str) (s : List Str) (dep : Str) : List Str :=
  match baseType dep with
  | some b => if b ≠ [] ∧ b ≠ base then add s b else s
  | none => s

/-- Lines 150-155. -/
def baseDeps (deps : Graph) (base : Str) (variants : List Str) : List Str :=
  variants.foldl (fun s variant => (deps.deps variant).foldl (depStep base) s) []

/-- `base_deps` (lines 148-156). -/
def baseGraph (deps : Graph) : Graph := (groupBases deps.keys).map fun e => (e.1, baseDeps deps e.1 e.2)

/-- `sorted_bases` (line 159) for the definitions of the schema; `order` is the iteration order of the set of base types. -/
def sortedBases (definitions : List (String × Val)) (order : List Str) : Except PyErr (Option (List Str)) := do
  let deps ← nodeDeps definitions
  .ok (topologicalSort (baseGraph deps) order)

end Verif.Analyze
