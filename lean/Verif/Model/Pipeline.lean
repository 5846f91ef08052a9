import Verif.Model.Json
import Verif.Model.Markdown
import Verif.Model.FromDict
import Verif.Model.ToDict
/-!
# From JSON text to Markdown

README.rst:55-66, scripts/s02-download-unit-test-data/step2_to_markdown.py:14-22:
`NodeDoc.from_dict(json.loads(text)).to_markdown(ignore_error=..)`.
-/

namespace Verif

/-- What the user sees: the warnings, and the Markdown or the exception (`none`: the text is no JSON, JSONDecodeError). -/
structure Shown where
  log : List Warn
  out : Option (Except PyErr Val)

/-- `NodeDoc.from_dict(json.loads(text)).to_markdown(ignore_error=ig)` (README.rst:55-66). -/
def textToMarkdown (rf : Str → Str) (env : Env) (w ig : Bool) (s : Str) : Shown :=
  match Json.loads rf s with
  | none => ⟨[], none⟩
  | some v =>
    match (NodeCls.doc.fromDict w v).out with
    | .error e => ⟨(NodeCls.doc.fromDict w v).log, some (.error e)⟩
    | .ok n => ⟨(NodeCls.doc.fromDict w v).log, some (n.toMarkdown env ig)⟩

/-- `json.dumps(NodeDoc.from_dict(json.loads(text)).to_dict(), indent=..)`: the text stored again (mark_or_node.py:90-100, 163-168, 286-310). -/
def textToText (rf : Str → Str) (w : Bool) (indent : Option Nat) (s : Str) : Option Str :=
  match Json.loads rf s with
  | none => none
  | some v =>
    match (NodeCls.doc.fromDict w v).out with
    | .error _ => none
    | .ok n =>
      match n.toDict with
      | .error _ => none
      | .ok d => Json.dumps indent d

end Verif
