import Verif.Model.Objects
/-!
# Marks: `to_markdown(text)` and `add_style_to_markdown`

`md` is a Python value rather than a string because `NodeText.text` is whatever the input dict
held (no validation on construction).
-/

namespace Verif

/-- Reading `obj.attrs.<name>`; the library reaches this only with converted attrs or the `OPT`
sentinel (`OPT` has no such attribute: AttributeError). -/
def getAttr (a : Slot AttrsObj) (name : String) : Except PyErr Val :=
  match a with
  | .val o =>
    match lookupKey o.fields name with
    | some v => .ok v
    | none => .error .attributeError
  | _ => .error .attributeError

/-- `if text.strip(): return f"{pre}{text}{post}" else: return text`
(marks/mark_strong.py:23-26, mark_em.py:23-26, mark_strike.py:23-26, mark_code.py:30-33).
A non-string has no `strip`: AttributeError. -/
def wrapNonBlank (pre post : Str) (text : Val) : Except PyErr Val :=
  match text with
  | .str s => if (Str.strip s).isEmpty then .ok text else .ok (.str (pre ++ s ++ post))
  | _ => .error .attributeError

/-- `"\n" in text` (marks/mark_code.py:26). -/
def newlineIn (text : Val) : Except PyErr Bool :=
  match text with
  | .str s => .ok (s.contains Str.nl)
  | .list l => .ok (l.any fun v => match v with | .str s => s == [Str.nl] | _ => false)
  | .dict d => .ok (hasNl d)
  | _ => .error .typeError
where
  hasNl (d : List (String × Val)) : Bool := d.any fun e => e.1 == "\n"

/-- `mark.to_markdown(text)` for every mark class; the classes without an override return the text
unchanged (mark_or_node.py:170-196). -/
def Mark.toMarkdown (env : Env) (m : Mark) (text : Val) : Except PyErr Val :=
  match m.cls with
  | .strong => wrapNonBlank ['*', '*'] ['*', '*'] text       -- mark_strong.py:19-26
  | .em => wrapNonBlank ['*'] ['*'] text                     -- mark_em.py:19-26
  | .strike => wrapNonBlank ['~', '~'] ['~', '~'] text       -- mark_strike.py:19-26
  | .code =>                                                 -- mark_code.py:22-33
    match newlineIn text with
    | .error e => .error e
    | .ok true => .error .valueError
    | .ok false => wrapNonBlank ['`', '`', ' '] [' ', '`', '`'] text
  | .link =>                                                 -- mark_link.py:44-52
    match getAttr m.attrs "title" with
    | .error e => .error e
    | .ok title =>
      match getAttr m.attrs "href" with
      | .error e => .error e
      | .ok href =>
        .ok (.str (['['] ++ (title.asStr?.getD (text.pyStr env)) ++ [']', '('] ++
          href.pyStr env ++ [')']))
  | .indentation =>                                          -- mark_indentation.py:35-39
    match getAttr m.attrs "level" with
    | .error e => .error e
    | .ok level =>
      match level.asInt? with
      | some n => .ok (.str (Str.rep ['\t'] n))
      | none => .error .typeError
  | _ => .ok text

/-- The loop of `add_style_to_markdown` (markdown_helpers.py:195-199): an AttributeError stops it
and keeps the text built so far; other exceptions propagate. -/
def applyMarks (env : Env) : Val → List Mark → Except PyErr Val
  | md, [] => .ok md
  | md, m :: ms =>
    match m.toMarkdown env md with
    | .ok md' => applyMarks env md' ms
    | .error .attributeError => .ok md
    | .error e => .error e

/-- `add_style_to_markdown(md, node)` (markdown_helpers.py:166-200): nodes without a `marks` list
are left alone. -/
def addStyle (env : Env) (md : Val) (marks : Slot (List Mark)) : Except PyErr Val :=
  match marks with
  | .val ms => applyMarks env md ms
  | _ => .ok md

end Verif
