import Verif.Model.ToDict
/-!
# `to_kwargs` and calling a class with keyword arguments

mark_or_node.py:61-65 (`Base.to_kwargs`).  The constructors are those `@dataclasses.dataclass(frozen=True)`
generates (mark_or_node.py:32, 96, 132, 206 and each class); `BaseFrozenModel.__post_init__` of func_args raises
ParamError for a field left at `REQ`.  The model of the constructor takes JSON values as arguments.
-/

namespace Verif

/-- `to_kwargs` of a node: `self.to_dict()` (mark_or_node.py:61-65). -/
def Node.toKwargs (n : Node) : Except PyErr Val := n.toDict

/-- `to_kwargs` of a mark (mark_or_node.py:61-65). -/
def Mark.toKwargs (m : Mark) : Val := m.toDict

/-- `to_kwargs` of an attrs instance (mark_or_node.py:61-65). -/
def AttrsObj.toKwargs (a : AttrsObj) : Val := a.toDict

/-- Is some keyword not a field of the class?  Then `cls(**kwargs)` is a TypeError (generated `__init__`). -/
def unexpected (fs : List Field) (d : List (String × Val)) : Bool := d.any fun e => !(fs.any fun f => f.name == e.1)

/-- What the field `name` holds after `cls(**d)`: the argument as it is, else the default (`OPT` where there is none).
An empty list is a list of no objects. -/
def kwSlot {α : Type} (empty : Val → Option α) (fs : List Field) (name : String) (d : List (String × Val)) : Slot α :=
  match fieldDflt fs name with
  | none => .absent
  | some dflt =>
    match lookupKey d name with
    | some .opt => .opt
    | some v => match empty v with | some a => .val a | none => .raw v
    | none => match dflt with | .lit v => .raw v | _ => .opt

/-- `[]` -/
def emptyList {β : Type} : Val → Option (List β)
  | .list [] => some []
  | _ => none

/-- `cls(**d)` for an attrs class (generated `__init__`, func_args `__post_init__`; mark_or_node.py:32). -/
def attrsNew (fs : List Field) (d : List (String × Val)) : Except PyErr AttrsObj :=
  if unexpected fs d then .error .typeError
  else match checkRequired fs (hasKey d) with
    | .error e => .error e
    | .ok () => .ok ⟨fs.map fun f => (f.name, fieldValue d f)⟩

/-- `cls(**d)` for a mark class (mark_or_node.py:132). -/
def MarkCls.new (c : MarkCls) (d : List (String × Val)) : Except PyErr Mark :=
  if unexpected c.fields d then .error .typeError
  else match checkRequired c.fields (hasKey d) with
    | .error e => .error e
    | .ok () => .ok
        { cls := c
          type := (valOf c.fields "type" d).getD .opt
          attrs := kwSlot (fun _ => none) c.fields "attrs" d }

/-- `cls(**d)` for a node class (mark_or_node.py:206). -/
def NodeCls.new (c : NodeCls) (d : List (String × Val)) : Except PyErr Node :=
  if unexpected c.fields d then .error .typeError
  else match checkRequired c.fields (hasKey d) with
    | .error e => .error e
    | .ok () => .ok (.mk
        { cls := c
          type := (valOf c.fields "type" d).getD .opt
          version := valOf c.fields "version" d
          text := valOf c.fields "text" d
          attrs := kwSlot (fun _ => none) c.fields "attrs" d
          marks := kwSlot emptyList c.fields "marks" d }
        (kwSlot emptyList c.fields "content" d))

end Verif
