import Verif.Model.Equality
/-!
# `hash`

`@dataclasses.dataclass(frozen=True)` (mark_or_node.py:32,96,132,206 and each class in marks/ and nodes/)
also generates `__hash__`: the hash of the tuple of the fields.  Python's hashes of the atoms and of tuples
are parameters.
-/

namespace Verif

/-- Hashes of `None`, the sentinel `OPT`, numbers (equal numbers have equal hashes), strings and tuples. -/
structure Hashes where
  none : Int
  opt : Int
  num : Int ⊕ Str → Int
  str : Str → Int
  tuple : List Int → Int

variable (H : Hashes) (iv : Str → Option Int)

/-- `hash(v)` of a built-in value: lists and dicts have none. -/
def Val.hash : Val → Except PyErr Int
  | .none => .ok H.none
  | .opt => .ok H.opt
  | .str s => .ok (H.str s)
  | .list _ | .dict _ => .error .typeError
  | .bool b => .ok (H.num (.inl (if b then 1 else 0)))
  | .int n => .ok (H.num (.inl n))
  | .float r =>
    match iv r with
    | some n => .ok (H.num (.inl n))
    | .none => .ok (H.num (.inr r))

/-- The hashes of the elements of a tuple, or the first exception. -/
def hashAll : List (Except PyErr Int) → Except PyErr (List Int)
  | [] => .ok []
  | .error e :: _ => .error e
  | .ok h :: l =>
    match hashAll l with
    | .error e => .error e
    | .ok hs => .ok (h :: hs)

/-- The hash of a tuple. -/
def tupleHash (l : List (Except PyErr Int)) : Except PyErr Int :=
  match hashAll l with
  | .error e => .error e
  | .ok hs => .ok (H.tuple hs)

/-- Instances of attrs classes (mark_or_node.py:32). -/
def AttrsObj.hash (a : AttrsObj) : Except PyErr Int :=
  tupleHash H (a.fields.map fun e => e.2.hash H iv)

/-- An `attrs` field. -/
def attrsHash : Slot AttrsObj → Except PyErr Int
  | .absent | .opt => .ok H.opt
  | .raw v => v.hash H iv
  | .val a => a.hash H iv

/-- A `content` or `marks` field: a list of objects has no hash. -/
def listHash {α : Type} : Slot α → Except PyErr Int
  | .absent | .opt => .ok H.opt
  | .raw v => v.hash H iv
  | .val _ => .error .typeError

/-- `hash(mark)` (mark_or_node.py:132). -/
def Mark.hash (m : Mark) : Except PyErr Int :=
  tupleHash H (m.cls.fields.map fun f => if f.name = "attrs" then attrsHash H iv m.attrs else m.type.hash H iv)

/-- The hash of a field of a node. -/
def Node.fieldHash (n : Node) (name : String) : Except PyErr Int :=
  if name = "content" then listHash H iv n.content
  else if name = "marks" then listHash H iv n.hd.marks
  else if name = "attrs" then attrsHash H iv n.hd.attrs
  else if name = "text" then (n.hd.text.getD .opt).hash H iv
  else if name = "version" then (n.hd.version.getD .opt).hash H iv
  else n.hd.type.hash H iv

/-- `hash(node)` (mark_or_node.py:206). -/
def Node.hash (n : Node) : Except PyErr Int :=
  tupleHash H (n.cls.fields.map fun f => n.fieldHash H iv f.name)

end Verif
