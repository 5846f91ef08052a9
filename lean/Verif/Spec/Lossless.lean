import Verif.Spec.Keys
/-!
# Specification: JSON of which nothing is lost or added by parsing and serialising
-/

namespace Verif.Spec
open Verif

/-- A mark: a supported type, no other keys than `type` and (if its class has attributes) `attrs`, and in
`attrs` all attributes its class knows and no others. -/
def LosslessMark (v : Val) : Prop :=
  ∃ d t c, v = .dict d ∧ lookupKey d "type" = some (.str t) ∧ (∃ name, (name, c) ∈ markTypes ∧ t = name.toList) ∧
    (∀ k, (lookupKey d k).isSome → k = "type" ∨ (k = "attrs" ∧ (requiredMarkAttrs c).isSome)) ∧
    (∀ ad, lookupKey d "attrs" = some (.dict ad) → ∀ k, (lookupKey ad k).isSome ↔ k ∈ markAttrKeys c)

/-- A node: a supported type, only keys its class knows, also in `attrs`; a document has a `version`; and
the same holds for its marks and its children. -/
inductive Lossless : Val → Prop where
  | node (d : List (String × Val)) (name : String) (c : NodeCls)
      (type : lookupKey d "type" = some (.str name.toList)) (known : (name, c) ∈ nodeTypes)
      (keys : ∀ k, (lookupKey d k).isSome → k ∈ nodeKeys c)
      (version : c = .doc → (lookupKey d "version").isSome)
      (attrs : ∀ ad, lookupKey d "attrs" = some (.dict ad) → ∀ k, (lookupKey ad k).isSome → k ∈ attrKeys c)
      (marks : ∀ l, lookupKey d "marks" = some (.list l) → ∀ m ∈ l, LosslessMark m)
      (content : ∀ l, lookupKey d "content" = some (.list l) → ∀ k ∈ l, Lossless k) :
      Lossless (.dict d)

end Verif.Spec
