import Verif.Spec.Md
/-!
# Specification of lists, task lists, decisions and tables
-/

namespace Verif.Spec
open Verif

/-- The text of `k` inside a list item of a list of class `kind` at nesting level `lvl`: a nested list
of the same class is rendered one level deeper, everything else is rendered on its own and loses its
trailing whitespace. -/
def Part (env : Env) (kind : NodeCls) (lvl : Nat) (k : Node) (p : Str) : Prop :=
  (k.cls = kind → k.toMarkdownAt env (some (lvl + 1 : Nat)) false = .ok (.str p)) ∧
  (k.cls ≠ kind → ∃ s, Md env k s ∧ p = trimEnd s)

/-- The text of a list item: the texts of its children, one below the other. -/
def ItemText (env : Env) (kind : NodeCls) (lvl : Nat) (item : Node) (t : Str) : Prop :=
  ∃ ks ps, item.content = .val ks ∧ List.Forall₂ (Part env kind lvl) ks ps ∧ t = lines ps

/-- The content of `n`, if given, was a JSON list, and its nodes have the type of their class (as
parsing guarantees). -/
def Proper (n : Node) : Prop :=
  (∀ v, n.content ≠ .raw v) ∧ ∀ ks, n.content = .val ks → ∀ k ∈ ks, HasType k

/-- The list items among the children. -/
def itemsOf (kids : List Node) : List Node := kids.filter fun k => decide (k.cls = .listItem)

/-- Consecutive numbers from `i` in front of the texts. -/
def numbered (lvl : Nat) : Int → List Str → List Str
  | _, [] => []
  | i, t :: ts => (spaces (4 * lvl) ++ (toString i).toList ++ ". ".toList ++ t) :: numbered lvl (i + 1) ts

/-- The number an ordered list starts with: `attrs.order` if it is an integer and the list is not
nested, else 1. -/
def StartNumber (n : Node) (lvl : Nat) (i : Int) : Prop :=
  (1 ≤ lvl ∧ i = 1) ∨
  (lvl = 0 ∧ (Spec.attr n "order" = some (.int i) ∨
    (∃ v, Spec.attr n "order" = some v ∧ (∀ j, v ≠ .int j) ∧ (∀ b, v ≠ .bool b) ∧ i = 1)))

/-- `m` is a list of class `kind` nested `k` levels deep in `n`, through list items. -/
inductive Nested (kind : NodeCls) : Nat → Node → Node → Prop where
  | here (n : Node) : Nested kind 0 n n
  | step {n item c m : Node} {kids ks : List Node} {k : Nat}
      (hk : n.content = .val kids) (hi : item ∈ kids) (hc : item.cls = .listItem)
      (hks : item.content = .val ks) (hm : c ∈ ks) (hcc : c.cls = kind) (h : Nested kind k c m) :
      Nested kind (k + 1) n m

/-- All nodes below `n` have content a list (or none), and the type their class stands for. -/
inductive WellFormed : Node → Prop where
  | leaf {n : Node} (ht : HasType n) (h : n.content = .opt ∨ n.content = .absent) : WellFormed n
  | node {n : Node} {kids : List Node} (ht : HasType n) (h : n.content = .val kids)
      (hk : ∀ k ∈ kids, WellFormed k) : WellFormed n

/-- The check box of a task: ticked iff its state is `DONE`. -/
def checkbox (n : Node) : Str :=
  match Spec.attr n "state" with
  | some (.str s) => if s = "DONE".toList then "[x]".toList else "[ ]".toList
  | _ => "[ ]".toList

/-- The entry of a child of a task list at level `lvl`: a check-box line for a task item, the nested
list one level deeper for a task list. -/
def TaskEntry (env : Env) (lvl : Nat) (k : Node) (e : Str) : Prop :=
  (k.cls = .taskItem → ∃ ks ss, k.content = .val ks ∧ MdAll env ks ss ∧
    e = spaces (4 * lvl) ++ "- ".toList ++ checkbox k ++ " ".toList ++ trimEnd ss.flatten) ∧
  (k.cls = .taskList → k.toMarkdownAt env (some (lvl + 1 : Nat)) false = .ok (.str e))

/-- The tasks and nested task lists among the children. -/
def tasksOf (kids : List Node) : List Node :=
  kids.filter fun k => decide (k.cls = .taskItem ∨ k.cls = .taskList)

end Verif.Spec
