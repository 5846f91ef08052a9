import Verif.Model.Objects
/-!
# The places of a tree, and which of them a conversion calls

A node is named by the numbers of the children on the way to it from the root; the root is `[]`.
-/

namespace Verif.TraceSpec
open Verif

mutual
/-- The places of a node and of all nodes below it, in the order of the document. -/
def places (p : List Nat) : Node → List (List Nat)
  | .mk _ content => p :: placesSlot p content

def placesSlot (p : List Nat) : Slot (List Node) → List (List Nat)
  | .absent => []
  | .opt => []
  | .raw _ => []
  | .val l => placesList p 0 l

def placesList (p : List Nat) : Nat → List Node → List (List Nat)
  | _, [] => []
  | i, n :: ns => places (p ++ [i]) n ++ placesList p (i + 1) ns
end

/-- What a parent does with a child: leave it out, call its `to_markdown`, or read its text from the calls of its children. -/
inductive Visit where
  | skip | call | through
  deriving DecidableEq

/-- What a parent of class `c` does with a child of type `t`. -/
def visit (c : NodeCls) (t : Val) : Visit :=
  match c with
  | .bulletList | .orderedList => if isTypeOf t [.listItem] then .through else .skip
  | .taskList => if isTypeOf t [.taskItem] then .through else if isTypeOf t [.taskList] then .call else .skip
  | .decisionList => if isTypeOf t [.decisionItem] then .call else .skip
  | .text | .rule | .emoji | .hardBreak | .date | .mention | .status | .inlineCard | .blockCard | .media | .mediaGroup | .embedCard
  | .extension | .caption | .mediaInline => .skip
  | _ => .call

mutual
/-- The calls of a strict conversion that succeeds, in their order. -/
def calls (p : List Nat) : Node → List (List Nat)
  | .mk hd content => p :: callsSlot p (visit hd.cls) content

def callsSlot (p : List Nat) (rule : Val → Visit) : Slot (List Node) → List (List Nat)
  | .absent => []
  | .opt => []
  | .raw _ => []
  | .val l => callsList p rule 0 l

def callsList (p : List Nat) (rule : Val → Visit) : Nat → List Node → List (List Nat)
  | _, [] => []
  | i, .mk hd content :: ns =>
    (match rule hd.type with
      | .skip => []
      | .call => (p ++ [i]) :: callsSlot (p ++ [i]) (visit hd.cls) content
      | .through => callsSlot (p ++ [i]) (fun _ => .call) content) ++ callsList p rule (i + 1) ns
end

/-- The classes whose text is the text of all children. -/
def joinsAll : NodeCls → Bool
  | .doc | .listItem | .paragraph | .taskItem | .decisionItem | .codeBlock | .mediaSingle | .blockquote | .expand | .nestedExpand
  | .tableCell | .tableHeader => true
  | _ => false

/-- The node at a place. -/
def nodeAt : Node → List Nat → Option Node
  | n, [] => some n
  | .mk _ (.val l), i :: p =>
    match l[i]? with
    | some m => nodeAt m p
    | none => none
  | _, _ :: _ => none

end Verif.TraceSpec
