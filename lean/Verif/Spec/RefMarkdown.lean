import Verif.Spec.Reference
import Verif.Spec.Failure
/-!
# Specification: what keeps a document of the ADF reference from being converted
-/

namespace Verif.Spec.Ref
open Verif

/-- The text a mark is put around when these marks come before it: the title of the last link with a title,
or the node's own text. -/
def label : List Val → Str → Str
  | [], s => s
  | .dict m :: ms, s =>
    match lookupKey m "type", lookupKey m "attrs" with
    | some (.str t), some (.dict ad) =>
      match lookupKey ad "title" with
      | some (.str title) => label ms (if t = "link".toList then title else s)
      | _ => label ms s
    | _, _ => label ms s
  | _ :: ms, s => label ms s

/-- A text over which inline code goes has a newline. -/
def CodeOverNewline (marks : List Val) (s : Str) : Prop :=
  ∃ pre m post, marks = pre ++ m :: post ∧ OfType "code" m ∧ '\n' ∈ label pre s

/-- Reasons in the node itself.  `g`, `p`: the types of the nodes around it. -/
def Blocks (env : Env) (g p : Option String) (d : List (String × Val)) : Prop :=
  -- a numbered list without `attrs`, unless it stands in an item of a numbered list
  (OfType "orderedList" (.dict d) ∧ lookupKey d "attrs" = none ∧
    ¬ (g = some "orderedList" ∧ p = some "listItem")) ∨
  -- a card with `data` instead of `url`
  (OfType "inlineCard" (.dict d) ∧ ∃ ad, lookupKey d "attrs" = some (.dict ad) ∧ lookupKey ad "url" = none) ∨
  -- a timestamp that is no number or outside the years 1 to 9999
  (OfType "date" (.dict d) ∧ ∃ ad ts, lookupKey d "attrs" = some (.dict ad) ∧
    lookupKey ad "timestamp" = some ts ∧ ¬ Datable env ts) ∨
  -- inline code over a text with a newline
  (OfType "text" (.dict d) ∧ ∃ s l, lookupKey d "text" = some (.str s) ∧ lookupKey d "marks" = some (.list l) ∧
    CodeOverNewline l s)

/-- One of these reasons at some depth (nodes of undescribed types are skipped, and all below them). -/
inductive Blocked (env : Env) : Option String → Option String → Val → Prop where
  | here (g p : Option String) (d : List (String × Val)) (h : Blocks env g p d) : Blocked env g p (.dict d)
  | child (g p : Option String) (d : List (String × Val)) (t : String) (row : Row) (l : List Val) (k : Val)
      (type : OfType t (.dict d)) (known : (t, row) ∈ rows)
      (hl : lookupKey d "content" = some (.list l)) (hk : k ∈ l) (h : Blocked env p (some t) k) :
      Blocked env g p (.dict d)

end Verif.Spec.Ref
