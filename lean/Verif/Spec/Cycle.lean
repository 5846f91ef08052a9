import Verif.Spec.Heap
import Verif.Spec.Registry
/-!
# Specification: objects that contain themselves
-/

namespace Verif.Spec
open Verif

/-- The object at `b` is an item (element, entry, attribute value) of the object at `a`, or of one of its
items, and so on. -/
inductive Inside (h : Heap) (b : Nat) : Nat → Prop where
  | item {a : Nat} {o : HObj} {k : String} (ho : h[a]? = some o) (he : (k, HV.ref b) ∈ o.items) : Inside h b a
  | deeper {a c : Nat} {o : HObj} {k : String} (ho : h[a]? = some o) (he : (k, HV.ref c) ∈ o.items)
      (hb : Inside h b c) : Inside h b a

/-- Some object that can be reached from `x` contains itself. -/
def HasCycle (h : Heap) (x : HV) : Prop := ∃ a, Reach h x a ∧ Inside h a a

/-- Everything that can be reached from `x` exists (Python has no dangling references). -/
def NoDangling (h : Heap) (x : HV) : Prop := ∀ a, Reach h x a → a < h.length

/-- Only lists, dicts and immutable values can be reached from `x`: what `json.loads` returns, and what a program builds in its place. -/
def ListsAndDicts (h : Heap) (x : HV) : Prop :=
  ∀ (a : Nat) (o : HObj), Reach h x a → h[a]? = some o → o.kind = .list ∨ o.kind = .dict

/-- The dict at `a` describes a node of a supported type whose `content` is a list, and the object at `b`
is one of its elements. -/
def ChildDict (h : Heap) (b a : Nat) : Prop :=
  ∃ (items elems : List (String × HV)) (name : String) (c : NodeCls) (l : Nat) (k : String),
    h[a]? = some ⟨.dict, items⟩ ∧ itemGet items "type" = some (.imm (.str name.toList)) ∧ (name, c) ∈ nodeTypes ∧
    itemGet items "content" = some (.ref l) ∧ h[l]? = some ⟨.list, elems⟩ ∧ (k, HV.ref b) ∈ elems

/-- … or a child of a child, and so on. -/
inductive Descendant (h : Heap) (b : Nat) : Nat → Prop where
  | child {a : Nat} (hc : ChildDict h b a) : Descendant h b a
  | deeper {a c : Nat} (hc : ChildDict h c a) (hb : Descendant h b c) : Descendant h b a

/-- The JSON value `x` is a node that is its own descendant, or has a descendant that is. -/
def HasNodeCycle (h : Heap) (x : HV) : Prop :=
  ∃ a b, x = .ref a ∧ (b = a ∨ Descendant h b a) ∧ Descendant h b b

/-- The classes whose `to_markdown` converts every element of `content`, whatever it is. -/
def convertsEach : List NodeCls :=
  [.doc, .paragraph, .heading, .blockquote, .panel, .expand, .nestedExpand, .codeBlock, .listItem, .taskItem, .decisionItem, .mediaSingle,
   .table, .tableRow, .tableHeader, .tableCell]

/-- The object at `a` is an instance of the node class `c` of type `type`, its `content` is a list and `x` is an element of it. -/
def HasElement (h : Heap) (c : NodeCls) (type : String) (x : HV) (a : Nat) : Prop :=
  ∃ (attributes elems : List (String × HV)) (l : Nat) (k : String),
    h[a]? = some ⟨.inst (.node c), attributes⟩ ∧ itemGet attributes "type" = some (.imm (.str type.toList)) ∧
    itemGet attributes "content" = some (.ref l) ∧ h[l]? = some ⟨.list, elems⟩ ∧ (k, x) ∈ elems

/-- `to_markdown` of the node at `a` converts the node at `b`: an element of its content, or, for lists, an element of one of its items;
task lists and decision lists look at the type of their elements. -/
inductive Converts (h : Heap) (b a : Nat) : Prop where
  | each {c : NodeCls} {type : String} (hc : c ∈ convertsEach) (he : HasElement h c type (.ref b) a)
  | listItem {c c' : NodeCls} {type : String} {i : Nat} (hc : c = .bulletList ∨ c = .orderedList) (hi : HasElement h c type (.ref i) a)
      (he : HasElement h c' "listItem" (.ref b) i)
  | taskItem {c' : NodeCls} {type : String} {i : Nat} (hi : HasElement h .taskList type (.ref i) a)
      (he : HasElement h c' "taskItem" (.ref b) i)
  | taskList {c' : NodeCls} {type : String} {x : HV} (he : HasElement h .taskList type (.ref b) a) (hb : HasElement h c' "taskList" x b)
  | decisionItem {c' : NodeCls} {type : String} {x : HV} (he : HasElement h .decisionList type (.ref b) a)
      (hb : HasElement h c' "decisionItem" x b)

/-- … directly or while it converts others. -/
inductive ConvertsInside (h : Heap) (b : Nat) : Nat → Prop where
  | one {a : Nat} (hc : Converts h b a) : ConvertsInside h b a
  | deeper {a c : Nat} (hc : Converts h c a) (hb : ConvertsInside h b c) : ConvertsInside h b a

/-- `to_markdown` of `x` would have to convert some node in order to convert that node. -/
def ConvertsItself (h : Heap) (x : HV) : Prop :=
  ∃ a b, x = .ref a ∧ (b = a ∨ ConvertsInside h b a) ∧ ConvertsInside h b b

end Verif.Spec
