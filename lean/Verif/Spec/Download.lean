import Verif.Model.Download
/-!
# Specification: what a download leaves
-/

namespace Verif.Spec.Download
open Verif Verif.Download
open Verif.FileCache (Bytes)

/-- The server's answers in a run: page, title, body. -/
def answers (tr : List Event) : List (Int × Str × Val) :=
  tr.filterMap fun e => match e with
    | .answer id t v => some (id, t, v)
    | _ => none

/-- The bytes of a page's body as JSON text, indented by two. -/
def BodyBytes (encode : Str → Option Bytes) (body : Val) (b : Bytes) : Prop :=
  ∃ text, Json.dumps (some 2) body = some text ∧ encode text = some b

/-- What is at `p`, in or below `tmp`, if exactly these pages were saved, in this order: the directory; for every title a
file `title.json` with the last page of this title; nothing else. -/
inductive Saved (encode : Str → Option Bytes) (tmp : Path) (pages : List (Str × Val)) : Path → Option Entry → Prop
  | dir : Saved encode tmp pages tmp (some .dir)
  | page {before after : List (Str × Val)} {title : Str} {body : Val} {b : Bytes} :
      pages = before ++ (title, body) :: after → (∀ x ∈ after, x.1 ≠ title) → BodyBytes encode body b →
      Saved encode tmp pages (tmp ++ [title ++ ".json".toList]) (some (.file b))
  | nothing {p : Path} : tmp <+: p → p ≠ tmp → (∀ x ∈ pages, p ≠ tmp ++ [x.1 ++ ".json".toList]) →
      Saved encode tmp pages p none

/-- The path, taken as pathlib takes it, does not start at the root and does not go up. -/
def StaysBelow (title : Str) : Prop :=
  (title ++ ".json".toList).head? ≠ some '/' ∧ "..".toList ∉ (title ++ ".json".toList).splitOn '/'

/-- Whatever exists is in a directory. -/
def Tree (fs : Fs) : Prop := ∀ p c, fs (p ++ [c]) ≠ none → fs p = some .dir

end Verif.Spec.Download
