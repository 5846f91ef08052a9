import Verif.Spec.Keys
/-!
# Specifications for serialisation
-/

namespace Verif.Spec
open Verif

/-- Every `content` / `marks` value in the tree was a list (or absent) in the input. -/
def Converted (n : Node) : Prop :=
  ∀ x, Within n x → (∀ v, x.content ≠ .raw v) ∧ (∀ v, x.hd.marks ≠ .raw v)

/-- No mark in the tree has an attribute that was left out (sentinel value). -/
def MarksFilled (n : Node) : Prop :=
  ∀ x, Within n x → ∀ ms, x.hd.marks = .val ms → ∀ m ∈ ms, ∀ a, m.attrs = .val a →
    ∀ e ∈ a.fields, e.2 ≠ .opt

/-- The object has every field its class requires: nothing required is the sentinel. -/
def Complete (x : Node) : Prop :=
  ("text" ∈ requiredKeys x.cls → ∃ v, x.hd.text = some v ∧ v ≠ .opt) ∧
  ("attrs" ∈ requiredKeys x.cls → ∃ a, x.hd.attrs = .val a) ∧
  ("content" ∈ requiredKeys x.cls → x.content ≠ .opt ∧ x.content ≠ .absent) ∧
  (∀ a, x.hd.attrs = .val a → ∀ k ∈ (requiredAttrs x.cls).getD [],
    ∃ v, lookupKey a.fields k = some v ∧ v ≠ .opt) ∧
  (∀ ms, x.hd.marks = .val ms → ∀ m ∈ ms, ∀ k ∈ (requiredMarkAttrs m.cls).getD [],
    ∃ a v, m.attrs = .val a ∧ lookupKey a.fields k = some v ∧ v ≠ .opt)

end Verif.Spec
