import Verif.Spec.Md
/-!
# Specification: what lenient conversion skips

`lenient env level n` is the tree that remains of `n` when everything `to_markdown(ignore_error=True)`
skips is taken out.  Converting `n` leniently is converting that tree strictly (`C50_exact`).  What is
skipped depends only on which parts convert *strictly*, except in the three places where the flag is
passed on: the cells of a row, the items of a decision list, and a task list inside a task list.
-/

namespace Verif.Spec
open Verif

/-- Strict conversion with this `level` argument succeeds. -/
def convertsAt (env : Env) (level : Option Int) (n : Node) : Bool :=
  match n.toMarkdownAt env level false with
  | .ok _ => true
  | .error _ => false

/-- Strict conversion succeeds with a string (it can give something else only for a text node whose
`text` is no string). -/
def givesText (env : Env) (n : Node) : Bool :=
  match n.toMarkdown env false with
  | .ok (.str _) => true
  | _ => false

/-- The children that convert; if the content is not a list of nodes but can be iterated, nothing. -/
def skipFailing (env : Env) : Slot (List Node) → Slot (List Node)
  | .val l => .val (l.filter (converts env))
  | .raw v =>
    match v.iterLen with
    | .ok _ => .val []
    | .error _ => .raw v
  | c => c

/-- An item of a bullet (or numbered) list at this level: its failing children are skipped; a nested list
of the same kind is tried one level deeper. -/
def lenientItem (env : Env) (kind : NodeCls) (level : Int) : Node → Node
  | .mk hd (.val kids) =>
    if hd.cls = .listItem then
      .mk hd (.val (kids.filter fun k =>
        if k.cls = kind then convertsAt env (some (level + 1)) k else givesText env k))
    else .mk hd (.val kids)
  | n => n

/-- All elements of the content. -/
def mapContent (f : Node → Node) : Slot (List Node) → Slot (List Node)
  | .val l => .val (l.map f)
  | c => c

/-- A node that converts to exactly `v`. -/
def standIn (v : Val) : Node :=
  .mk { cls := .listItem, type := .str "listItem".toList, version := none, text := none,
        attrs := .absent, marks := .absent }
    (.val [.mk { cls := .text, type := .str "text".toList, version := none, text := some v,
                 attrs := .absent, marks := .opt } .absent])

/-- The rows of a table: a failing row is skipped; a row that converts but has no first cell keeps its
line (and gets no separator). -/
def lenientRow (env : Env) (n : Node) : Option Node :=
  match n.toMarkdown env false with
  | .error _ => none
  | .ok v =>
    match n.content with
    | .val (_ :: _) => some n
    | _ => some (standIn v)

def lenientRows (env : Env) : Slot (List Node) → Slot (List Node)
  | .val l => .val (l.filterMap (lenientRow env))
  | .raw v =>
    match v.iterLen with
    | .ok _ => .val []
    | .error _ => .raw v
  | c => c

mutual
/-- What lenient conversion of `n` (called with `level`) leaves of `n`. -/
def lenient (env : Env) (level : Option Int) : Node → Node
  | .mk hd c => .mk hd (
      match hd.cls with
      | .doc | .blockquote | .panel | .expand | .nestedExpand | .paragraph | .heading | .codeBlock
      | .tableCell | .tableHeader | .listItem | .taskItem | .decisionItem | .mediaSingle =>
        skipFailing env c
      | .bulletList => mapContent (lenientItem env .bulletList (level.getD 0)) c
      | .orderedList => mapContent (lenientItem env .orderedList (level.getD 0)) c
      | .table => lenientRows env c
      | .tableRow => lenientCells env c
      | .decisionList => lenientDecisions env c
      | .taskList => lenientTasks env (level.getD 0) c
      | _ => c)

/-- The cells of a row are converted leniently themselves. -/
def lenientCells (env : Env) : Slot (List Node) → Slot (List Node)
  | .val l => .val (lenientCellList env l)
  | c => c

def lenientCellList (env : Env) : List Node → List Node
  | [] => []
  | n :: ns => lenient env none n :: lenientCellList env ns

/-- The items of a decision list are converted leniently themselves, and skipped if that fails. -/
def lenientDecisions (env : Env) : Slot (List Node) → Slot (List Node)
  | .val l => .val (lenientDecisionList env l)
  | c => c

def lenientDecisionList (env : Env) : List Node → List Node
  | [] => []
  | n :: ns =>
    (if n.cls = .decisionItem then
        (if converts env (lenient env none n) then [lenient env none n] else [])
      else [n]) ++ lenientDecisionList env ns

/-- The items of a task list lose their failing children; a nested task list is converted leniently,
one level deeper, and skipped if that fails. -/
def lenientTasks (env : Env) (level : Int) : Slot (List Node) → Slot (List Node)
  | .val l => .val (lenientTaskList env level l)
  | c => c

def lenientTaskList (env : Env) (level : Int) : List Node → List Node
  | [] => []
  | n :: ns =>
    (if n.cls = .taskItem then [.mk n.hd (skipFailing env n.content)]
      else if n.cls = .taskList then
        (if convertsAt env (some (level + 1)) (lenient env (some (level + 1)) n) then
          [lenient env (some (level + 1)) n] else [])
      else [n]) ++ lenientTaskList env level ns
end

end Verif.Spec
