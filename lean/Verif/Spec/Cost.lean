import Verif.Spec.Heap
/-!
# Specification: how many objects
-/

namespace Verif.Spec
open Verif

mutual
/-- The lists and dicts of a JSON value. -/
def objects : Val → Nat
  | .list vs => 1 + objectsList vs
  | .dict d => 1 + objectsDict d
  | _ => 0

def objectsList : List Val → Nat
  | [] => 0
  | v :: vs => objects v + objectsList vs

def objectsDict : List (String × Val) → Nat
  | [] => 0
  | (_, v) :: d => objects v + objectsDict d
end

/-- How many objects were created between two states (objects are never removed in the model). -/
def created (h h' : Heap) : Nat := h'.length - h.length

/-- The objects reachable from `x` form a tree of at most `n` levels (with shared parts, but without cycles). -/
def TreeOf : Nat → Heap → HV → Prop
  | _, _, .imm _ => True
  | 0, _, .ref _ => False
  | n + 1, h, .ref a => ∃ o, h[a]? = some o ∧ ∀ e ∈ o.items, TreeOf n h e.2

/-- The number of objects in that tree (shared ones count each time). -/
def treeSize : Nat → Heap → HV → Nat
  | _, _, .imm _ => 0
  | 0, _, .ref _ => 0
  | n + 1, h, .ref a =>
    match h[a]? with
    | some o => 1 + (o.items.map fun e => treeSize n h e.2).sum
    | none => 1

/-- A paragraph inside `k` nested blockquotes. -/
def inQuotes : Nat → Val
  | 0 => .dict [("type", .str "paragraph".toList)]
  | k + 1 => .dict [("type", .str "blockquote".toList), ("content", .list [inQuotes k])]

end Verif.Spec
