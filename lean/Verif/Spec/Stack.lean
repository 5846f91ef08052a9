import Verif.Model.Objects
/-! # How deep a tree of nodes is -/

namespace Verif.StackSpec
open Verif

mutual
/-- The number of nodes on the longest way from the root to a leaf. -/
def levels : Node → Nat
  | .mk _ content => levelsSlot content + 1

def levelsSlot : Slot (List Node) → Nat
  | .absent => 0
  | .opt => 0
  | .raw _ => 0
  | .val l => levelsList l

def levelsList : List Node → Nat
  | [] => 0
  | n :: ns => max (levels n) (levelsList ns)
end

end Verif.StackSpec
