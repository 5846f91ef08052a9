import Verif.Model.FromDict
/-!
# Serialisation: `to_dict`

mark_or_node.py:55-59 (`Base.to_dict`), 163-168 (`BaseMark.to_dict`), 286-304 (`BaseNode.to_dict`).
`dataclasses.asdict` deep-copies field values, which is the identity on immutable model values.
-/

namespace Verif

/-- `remove_optional(**data)`: drops the top-level keys whose value is `OPT`. -/
def removeOptional (d : List (String × Val)) : List (String × Val) :=
  d.filter fun e => !e.2.isOpt

/-- `Base.to_dict` of an attrs instance (mark_or_node.py:55-59). -/
def AttrsObj.toDict (a : AttrsObj) : Val := .dict (removeOptional a.fields)

/-- The attrs entry of `dataclasses.asdict(mark)`: a nested dataclass becomes a dict with all its
fields, `OPT` included. -/
def Mark.attrsEntry (m : Mark) : List (String × Val) :=
  match m.attrs with
  | .absent => []
  | .opt => [("attrs", .opt)]
  | .raw v => [("attrs", v)]
  | .val a => [("attrs", .dict a.fields)]

/-- `BaseMark.to_dict` (mark_or_node.py:163-168).  The branch at line 166 is never taken:
`dataclasses.asdict` has already turned `attrs` into a dict, which has no `to_dict`. -/
def Mark.toDict (m : Mark) : Val :=
  .dict (removeOptional (("type", m.type) :: m.attrsEntry))

/-- `[x.to_dict() for x in v]` over an unconverted value: TypeError if it is not iterable,
AttributeError at its first element (a `str` or a plain value has no `to_dict`). -/
def rawToDict (v : Val) : Except PyErr Val :=
  match v.iterLen with
  | .error e => .error e
  | .ok 0 => .ok (.list [])
  | .ok _ => .error .attributeError

/-- The marks entry (mark_or_node.py:301-302). -/
def marksEntry : Slot (List Mark) → Except PyErr (List (String × Val))
  | .absent => .ok []
  | .opt => .ok [("marks", .opt)]
  | .raw v =>
    match rawToDict v with
    | .error e => .error e
    | .ok w => .ok [("marks", w)]
  | .val ms => .ok [("marks", .list (ms.map Mark.toDict))]

/-- The attrs entry (mark_or_node.py:292-294). -/
def nodeAttrsEntry : Slot AttrsObj → List (String × Val)
  | .absent => []
  | .opt => [("attrs", .opt)]
  | .raw v => [("attrs", v)]
  | .val a => [("attrs", a.toDict)]

/-- A plain field (`version`, `text`) of `dataclasses.asdict(self)`. -/
def plainEntry (name : String) : Option Val → List (String × Val)
  | none => []
  | some v => [(name, v)]

mutual
/-- `BaseNode.to_dict` (mark_or_node.py:286-304), fields in dataclass order: `type`, `version`,
`text`, `attrs`, `content`, `marks` (each class has a subset).  Errors in content come before
errors in marks. -/
def Node.toDict : Node → Except PyErr Val
  | .mk hd content =>
    match contentEntry content with
    | .error e => .error e
    | .ok c =>
      match marksEntry hd.marks with
      | .error e => .error e
      | .ok m => .ok (.dict (removeOptional
          (("type", hd.type) :: (plainEntry "version" hd.version ++ plainEntry "text" hd.text ++
            nodeAttrsEntry hd.attrs ++ c ++ m))))

/-- The content entry (mark_or_node.py:297-298). -/
def contentEntry : Slot (List Node) → Except PyErr (List (String × Val))
  | .absent => .ok []
  | .opt => .ok [("content", .opt)]
  | .raw v =>
    match rawToDict v with
    | .error e => .error e
    | .ok w => .ok [("content", w)]
  | .val ns =>
    match listToDict ns with
    | .error e => .error e
    | .ok l => .ok [("content", .list l)]

/-- `[c.to_dict() for c in self.content]`. -/
def listToDict : List Node → Except PyErr (List Val)
  | [] => .ok []
  | n :: ns =>
    match n.toDict with
    | .error e => .error e
    | .ok v =>
      match listToDict ns with
      | .error e => .error e
      | .ok vs => .ok (v :: vs)
end

end Verif
