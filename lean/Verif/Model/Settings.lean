import Verif.Model.FromDict
/-!
# Parsing while `settings.WARN_UNIMPLEMENTED_TYPE` changes

settings.py:24 is a module variable; `from_dict` reads it again for every skipped child (mark_or_node.py:262, 278), so another thread (or a log
handler) can change it in the middle of a parse. `s t` is its value when it is read for the `t`-th time.
-/

namespace Verif

/-- A parse that starts after the setting has been read `t` times: its outcome, and how often the setting has been read at the end. -/
abbrev Timed (α : Type) := Nat → Res α × Nat

namespace Timed

def pure {α : Type} (x : Res α) : Timed α := fun t => (x, t)

def bind {α β : Type} (x : Timed α) (f : α → Timed β) : Timed β := fun t =>
  match (x t).1.out with
  | .error e => (⟨(x t).1.log, .error e⟩, (x t).2)
  | .ok a => (⟨(x t).1.log ++ (f a (x t).2).1.log, (f a (x t).2).1.out⟩, (f a (x t).2).2)

def map {α β : Type} (g : α → β) (x : Timed α) : Timed β := x.bind fun a => pure (.ok (g a))

/-- The `except` clauses (`Res.skipUnimplemented`, mark_or_node.py:257-265, 273-281): the setting is read when a child is skipped. -/
def skip {α : Type} (s : Nat → Bool) (x : Timed α) : Timed (Option α) := fun t =>
  match (x t).1.out with
  | .ok a => (⟨(x t).1.log, .ok (some a)⟩, (x t).2)
  | .error (.unimplementedType ty c) => (⟨(x t).1.log ++ (if s (x t).2 then [⟨ty, c⟩] else []), .ok none⟩, (x t).2 + 1)
  | .error e => (⟨(x t).1.log, .error e⟩, (x t).2)

end Timed

/-- `parseMarks` (mark_or_node.py:271-282). -/
def timedMarks (s : Nat → Bool) : List Val → Timed (List Mark)
  | [] => .pure (.ok [])
  | v :: vs => (Timed.skip s (.pure (.ofExcept (parseMark v)))).bind fun o => (timedMarks s vs).map fun ms => o.toList ++ ms

/-- `marksStep` (mark_or_node.py:269-282). -/
def timedMarksStep (s : Nat → Bool) (d : List (String × Val)) : Timed (Option (Slot (List Mark))) :=
  match lookupKey d "marks" with
  | none => .pure (.ok none)
  | some (.list l) => (timedMarks s l).map fun ms => some (.val ms)
  | some v => .pure (.ok (some (rawSlot v)))

/-- `nodeFromDict` (mark_or_node.py:222-284). -/
def timedNodeFromDict (s : Nat → Bool) (c : NodeCls) (d : List (String × Val)) (content : Timed (Option (Slot (List Node)))) : Timed Node :=
  (Timed.pure (.ofExcept (attrsStep c.attrsFields d))).bind fun attrs =>
  content.bind fun content =>
  (timedMarksStep s d).bind fun marks =>
  (Timed.pure (.ofExcept (checkRequired c.fields (hasKey d)))).bind fun _ =>
  .pure (.ok (.mk
    { cls := c
      type := (valOf c.fields "type" d).getD .opt
      version := valOf c.fields "version" d
      text := valOf c.fields "text" d
      attrs := slotOf c.fields "attrs" (attrs.map Slot.val)
      marks := slotOf c.fields "marks" marks }
    (slotOf c.fields "content" content)))

mutual
/-- `parseNode` (nodes/parse_node.py:100-113). -/
def timedNode (s : Nat → Bool) : Val → Timed Node
  | .dict d =>
    match lookupKey d "type" with
    | none => .pure (.err .keyError)
    | some t =>
      match registryLookup nodeRegistry t with
      | .error e => .pure (.err e)
      | .ok none => .pure (.err (.unimplementedType t "node"))
      | .ok (some c) => timedNodeFromDict s c d (timedContent s d)
  | _ => .pure (.err .typeError)

/-- `contentStep` (mark_or_node.py:253-266). -/
def timedContent (s : Nat → Bool) : List (String × Val) → Timed (Option (Slot (List Node)))
  | [] => .pure (.ok none)
  | (k, .list l) :: rest =>
    if k = "content" then (timedNodes s l).map fun ns => some (.val ns) else timedContent s rest
  | (k, v) :: rest =>
    if k = "content" then .pure (.ok (some (rawSlot v))) else timedContent s rest

/-- `parseNodes` (mark_or_node.py:255-266). -/
def timedNodes (s : Nat → Bool) : List Val → Timed (List Node)
  | [] => .pure (.ok [])
  | v :: vs => (Timed.skip s (timedNode s v)).bind fun o => (timedNodes s vs).map fun ns => o.toList ++ ns
end

/-- `NodeXxx.from_dict(v)` (`NodeCls.fromDict`). -/
def NodeCls.timedFromDict (s : Nat → Bool) (c : NodeCls) : Val → Timed Node
  | .dict d => timedNodeFromDict s c d (timedContent s d)
  | _ => .pure (.err .typeError)

end Verif
