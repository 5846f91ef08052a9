import Verif.Spec.Heap
/-!
# Specification: the same value in two heaps
-/

namespace Verif.Spec
open Verif

/-- The values refer to corresponding objects, or to none. -/
def Corr (R : Nat → Nat → Prop) (x y : HV) : Prop := (∃ i, x = .imm i ∧ y = .imm i) ∨ ∃ a b, x = .ref a ∧ y = .ref b ∧ R a b

/-- `x` in heap `h` is `y` in heap `g`, up to the addresses of objects: an object that is reached in two ways corresponds to one that is; and
objects of `shared` are the very same. -/
def Iso (shared : Nat → Prop) (h : Heap) (x : HV) (g : Heap) (y : HV) : Prop :=
  ∃ R : Nat → Nat → Prop, Corr R x y ∧
    (∀ a b a' b', R a b → R a' b' → (a = a' ↔ b = b')) ∧
    (∀ a b, R a b → (shared a → a = b) ∧ (shared b → a = b)) ∧
    ∀ a b, R a b → ∃ o o', h[a]? = some o ∧ g[b]? = some o' ∧ o.kind = o'.kind ∧
      List.Forall₂ (fun e f : String × HV => e.1 = f.1 ∧ Corr R e.2 f.2) o.items o'.items

end Verif.Spec
