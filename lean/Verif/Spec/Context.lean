import Verif.Spec.Md
/-!
# Specification: the same tree with one part exchanged
-/

namespace Verif.Spec
open Verif

/-- Classes that look into their direct children instead of only converting them: lists at the content
of their items, task lists at the state of their tasks, tables at the first cell of their rows. -/
def lookInside : List NodeCls := [.bulletList, .orderedList, .taskList, .table]

/-- `n'` is `n` with the node `a`, somewhere below, replaced by `b`; the parent of `a` is not one of the
classes that look into their children. -/
inductive Exchanged (a b : Node) : Node → Node → Prop where
  | child (hd : Hd) (pre post : List Node) (h : hd.cls ∉ lookInside) :
      Exchanged a b (.mk hd (.val (pre ++ a :: post))) (.mk hd (.val (pre ++ b :: post)))
  | deeper (hd : Hd) (pre post : List Node) {x y : Node} (h : Exchanged a b x y) :
      Exchanged a b (.mk hd (.val (pre ++ x :: post))) (.mk hd (.val (pre ++ y :: post)))

/-- A text node without marks. -/
def plainText (n : Node) (s : Str) : Prop :=
  n.cls = .text ∧ n.hd.text = some (.str s) ∧ n.hd.marks = .opt

end Verif.Spec
