import Verif.Model.Crawl
/-!
# Specification: crawling
-/

namespace Verif.Spec.Crawl
open Verif Verif.Crawl

/-- What is at a place of a tree: `[]` is the tree, `i :: p` is place `p` of its child number `i`. -/
def at? : Html → List Nat → Option Html
  | t, [] => some t
  | .elem _ _ _ kids, i :: p => match kids[i]? with
    | some k => at? k p
    | none => none
  | _, _ :: _ => none

/-- A `div` one of whose children is an `h1`. -/
def IsMain (d : Html) : Prop :=
  ∃ cls href kids, d = .elem "div".toList cls href kids ∧ ∃ cls' href' kids', .elem "h1".toList cls' href' kids' ∈ kids

/-- Steps from one state to another. -/
inductive Reach (parse : Str → Html) (pretty : Html → Str) (served : Str → Str → Prop) : Sys → List Event → Sys → Prop
  | nil {s : Sys} : Reach parse pretty served s [] s
  | snoc {s s' s'' : Sys} {tr : List Event} {e : Event} : Reach parse pretty served s tr s' →
      Step parse pretty served s' e s'' → Reach parse pretty served s (tr ++ [e]) s''

/-- The page at `url`, as the cache has it, has a main part, which is written as `text`. -/
def PageText (parse : Str → Html) (pretty : Html → Str) (cache : Str → Option Str) (url text : Str) : Prop :=
  ∃ html d, cache url = some html ∧ mainDiv (parse html) = some d ∧ text = pretty d

/-- `files` holds under each title the last of these texts, and nothing else. -/
def Holds (pages : List (Str × Str)) (files : Str → Option Str) : Prop :=
  ∀ t, (∀ before x after, pages = before ++ (t, x) :: after → (∀ y ∈ after, y.1 ≠ t) → files t = some x) ∧
    ((∀ y ∈ pages, y.1 ≠ t) → files t = none)

end Verif.Spec.Crawl
