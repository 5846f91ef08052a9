import Verif.Model.Objects
/-!
# Specification: trees with parts taken out
-/

namespace Verif.Spec
open Verif

mutual
/-- `Pruned n' n`: `n'` is `n` with some nodes (with everything below them) taken out; nothing else is changed, nothing is moved. -/
inductive Pruned : Node → Node → Prop where
  | same (n : Node) : Pruned n n
  | node (hd : Hd) {l' l : List Node} (h : PrunedList l' l) : Pruned (.mk hd (.val l')) (.mk hd (.val l))

inductive PrunedList : List Node → List Node → Prop where
  | nil : PrunedList [] []
  | drop (n : Node) {l' l : List Node} (h : PrunedList l' l) : PrunedList l' (n :: l)
  | keep {n' n : Node} {l' l : List Node} (h : Pruned n' n) (hl : PrunedList l' l) : PrunedList (n' :: l') (n :: l)
end

/-- The places of a tree: the numbers of the children on the way from the root. -/
inductive Place : Node → List Nat → Prop where
  | root (n : Node) : Place n []
  | child (hd : Hd) {l : List Node} {i : Nat} {n : Node} {p : List Nat} (hi : l[i]? = some n) (h : Place n p) :
      Place (.mk hd (.val l)) (i :: p)

end Verif.Spec
