import Verif.Model.Schema
/-!
# Instances

Instances of the frozen dataclasses.  A node is its own fields plus the `content` field, which is
the only recursive one.
-/

namespace Verif

/-- What a field of an instance holds. -/
inductive Slot (α : Type) where
  /-- the class has no such field: reading it is an AttributeError -/
  | absent
  /-- the `OPT` sentinel -/
  | opt
  /-- a value that was not converted into objects (e.g. `content` that is not a list) -/
  | raw (v : Val)
  /-- converted objects -/
  | val (a : α)

/-- An instance of an attrs dataclass: all its fields in order (`OPT` is stored as `Val.opt`). -/
structure AttrsObj where
  fields : List (String × Val)

/-- A mark instance (subclasses of `BaseMark`, mark_or_node.py:132). -/
structure Mark where
  cls : MarkCls
  type : Val
  attrs : Slot AttrsObj

/-- All fields of a node instance except `content` (subclasses of `BaseNode`,
mark_or_node.py:206).  `version` exists only on NodeDoc, `text` only on NodeText. -/
structure Hd where
  cls : NodeCls
  type : Val
  version : Option Val
  text : Option Val
  attrs : Slot AttrsObj
  marks : Slot (List Mark)

/-- A node instance. -/
inductive Node where
  | mk (hd : Hd) (content : Slot (List Node))

def Node.hd : Node → Hd
  | .mk hd _ => hd

def Node.content : Node → Slot (List Node)
  | .mk _ c => c

def Node.cls (n : Node) : NodeCls := n.hd.cls

/-- Value of a key of an association list (first match). -/
def lookupKey (d : List (String × Val)) (k : String) : Option Val :=
  match d with
  | [] => none
  | (k', v) :: rest => if k' = k then some v else lookupKey rest k

/-- `is_type_of` on a mark or node whose `type` field is `t` (mark_or_node.py:105-125). -/
def isTypeOf (t : Val) (expected : List TypeEnum) : Bool := checkTypeMatch t expected

end Verif
