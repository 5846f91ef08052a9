import Verif.Model.FromDict
/-!
# The stack while a document is parsed

The functions of `Model/FromDict` with the greatest number of frames that are on the stack at the same time above the caller's.  Counted
are the functions that call themselves, directly or not: `parse_node`, `BaseNode.from_dict`, `copy.deepcopy` with its `_deepcopy_dict` and
`_deepcopy_list`; and `parse_mark`, `BaseMark.from_dict`.  The others (`Base.from_dict`, `get_fields`, the constructors, the logger) need a
number of frames that does not depend on the data.  The data is a tree (`json.loads`): `copy.deepcopy` meets no object twice.
-/

namespace Verif.Stack
open Verif

mutual
/-- The frames of `copy.deepcopy(v)`: `deepcopy` and `_deepcopy_dict` or `_deepcopy_list` for a container; `deepcopy` for anything else
(before Python 3.14 also `_deepcopy_atomic`, which is not counted). -/
def copyFrames : Val → Nat
  | .list vs => copyList vs + 2
  | .dict d => copyDict d + 2
  | _ => 1

def copyList : List Val → Nat
  | [] => 0
  | v :: vs => max (copyFrames v) (copyList vs)

def copyDict : List (String × Val) → Nat
  | [] => 0
  | (_, v) :: d => max (max 1 (copyFrames v)) (copyDict d)
end

/-- A parse with its frames. -/
structure Fr (α : Type) where
  res : Res α
  deep : Nat

def Fr.of {α : Type} (x : Res α) : Fr α := ⟨x, 0⟩

/-- One after the other; an exception ends it. -/
def Fr.bind {α β : Type} (x : Fr α) (f : α → Fr β) : Fr β :=
  match x.res.out with
  | .error _ => ⟨x.res.bind fun a => (f a).res, x.deep⟩
  | .ok a => ⟨x.res.bind fun a => (f a).res, max x.deep (f a).deep⟩

/-- A call. -/
def Fr.frame {α : Type} (x : Fr α) : Fr α := ⟨x.res, x.deep + 1⟩

/-- `copy.deepcopy(dct)`, then the rest. -/
def Fr.after {α : Type} (frames : Nat) (x : Fr α) : Fr α := ⟨x.res, max frames x.deep⟩

/-- `try: ... except UnimplementedTypeError` (mark_or_node.py:257-265, 273-281) -/
def Fr.skip {α : Type} (warn : Bool) (x : Fr α) : Fr (Option α) := ⟨x.res.skipUnimplemented warn, x.deep⟩

/-- `parse_mark` (marks/parse_mark.py:62-75) and `BaseMark.from_dict` (mark_or_node.py:145-161) -/
def parseMarkF : Val → Fr Mark
  | .dict d =>
    Fr.frame <|
      match lookupKey d "type" with
      | none => .of (.err .keyError)
      | some t =>
        match registryLookup markRegistry t with
        | .error e => .of (.err e)
        | .ok none => .of (.err (.unimplementedType t "mark"))
        | .ok (some c) => Fr.frame (Fr.after (copyFrames (.dict d)) (.of (.ofExcept (markFromDict c d))))
  | _ => Fr.frame (.of (.err .typeError))

/-- The marks loop (mark_or_node.py:271-282) -/
def parseMarksF (warn : Bool) : List Val → Fr (List Mark)
  | [] => .of (.ok [])
  | v :: vs =>
    ((parseMarkF v).skip warn).bind fun o => (parseMarksF warn vs).bind fun ms => .of (.ok (o.toList ++ ms))

/-- The marks step (mark_or_node.py:269-282) -/
def marksStepF (warn : Bool) (d : List (String × Val)) : Fr (Option (Slot (List Mark))) :=
  match lookupKey d "marks" with
  | none => .of (.ok none)
  | some (.list l) => (parseMarksF warn l).bind fun ms => .of (.ok (some (.val ms)))
  | some v => .of (.ok (some (rawSlot v)))

/-- `BaseNode.from_dict` (mark_or_node.py:222-284) -/
def nodeFromDictF (warn : Bool) (c : NodeCls) (d : List (String × Val)) (content : Fr (Option (Slot (List Node)))) : Fr Node :=
  Fr.frame <| Fr.after (copyFrames (.dict d)) <|
  (Fr.of (Res.ofExcept (attrsStep c.attrsFields d))).bind fun attrs =>
  content.bind fun content =>
  (marksStepF warn d).bind fun marks =>
  (Fr.of (Res.ofExcept (checkRequired c.fields (hasKey d)))).bind fun _ =>
  .of (.ok (.mk
    { cls := c
      type := (valOf c.fields "type" d).getD .opt
      version := valOf c.fields "version" d
      text := valOf c.fields "text" d
      attrs := slotOf c.fields "attrs" (attrs.map Slot.val)
      marks := slotOf c.fields "marks" marks }
    (slotOf c.fields "content" content)))

mutual
/-- `parse_node` (nodes/parse_node.py:100-113) -/
def parseNodeF (warn : Bool) : Val → Fr Node
  | .dict d =>
    Fr.frame <|
      match lookupKey d "type" with
      | none => .of (.err .keyError)
      | some t =>
        match registryLookup nodeRegistry t with
        | .error e => .of (.err e)
        | .ok none => .of (.err (.unimplementedType t "node"))
        | .ok (some c) => nodeFromDictF warn c d (contentStepF warn d)
  | _ => Fr.frame (.of (.err .typeError))

/-- The content step of `BaseNode.from_dict` (mark_or_node.py:253-266) -/
def contentStepF (warn : Bool) : List (String × Val) → Fr (Option (Slot (List Node)))
  | [] => .of (.ok none)
  | (k, .list l) :: rest =>
    if k = "content" then (parseNodesF warn l).bind fun ns => .of (.ok (some (.val ns)))
    else contentStepF warn rest
  | (k, v) :: rest =>
    if k = "content" then .of (.ok (some (rawSlot v))) else contentStepF warn rest

/-- The content loop (mark_or_node.py:255-266) -/
def parseNodesF (warn : Bool) : List Val → Fr (List Node)
  | [] => .of (.ok [])
  | v :: vs =>
    ((parseNodeF warn v).skip warn).bind fun o => (parseNodesF warn vs).bind fun ns => .of (.ok (o.toList ++ ns))
end

end Verif.Stack
