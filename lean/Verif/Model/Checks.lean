import Verif.Model.Equality
import Verif.Model.Markdown
/-!
# The test helpers `check_seder` and `check_markdown`

atlas_doc_parser/tests/helper.py:52-103.  Not modelled: the printing (`verbose`), the warnings logged while
reading back.
-/

namespace Verif

/-! ## `textwrap.dedent` (CPython 3.10 to 3.13; called at tests/helper.py:92)

CPython 3.14 treats more characters as white space. -/

/-- `[ \t]`. -/
def blankTab (c : Char) : Bool := c == ' ' || c == '\t'

/-- `_whitespace_only_re.sub('', text)` with `^[ \t]+$`, on one line. -/
def emptyBlank (l : Str) : Str := if l.all blankTab then [] else l

/-- `for i, (x, y) in enumerate(zip(margin, indent)): if x != y: margin = margin[:i]; break`. -/
def cutMargin (margin indent : Str) : Nat → List (Char × Char) → Str
  | _, [] => margin
  | i, (x, y) :: rest => if x ≠ y then margin.take i else cutMargin margin indent (i + 1) rest

/-- One round of the loop over the indents. -/
def marginStep (margin : Option Str) (indent : Str) : Option Str :=
  match margin with
  | none => some indent
  | some m =>
    if m.isPrefixOf indent then some m
    else if indent.isPrefixOf m then some indent
    else some (cutMargin m indent 0 (m.zip indent))

/-- `re.sub(r'(?m)^' + margin, '', text)`, on one line. -/
def dropMargin (margin l : Str) : Str := if margin.isPrefixOf l then l.drop margin.length else l

/-- `textwrap.dedent(text)`; `_leading_whitespace_re` is `(^[ \t]*)(?:[^ \t\n])`. -/
def dedent (text : Str) : Str :=
  let ls := (Str.splitNL text).map emptyBlank
  let indents := (ls.filter fun l => !l.isEmpty).map fun l => l.takeWhile blankTab
  match indents.foldl marginStep none with
  | none => Str.join [Str.nl] ls
  | some m => Str.join [Str.nl] (ls.map (dropMargin m))

/-! ## The checks -/

/-- How a check ends if it does not return. -/
inductive Failed where
  /-- the library raised -/
  | raised (e : PyErr)
  /-- `assert inst1 == inst` (tests/helper.py:77), `assert markdown == expected` (line 103) -/
  | differs
  /-- `assert inst1.to_dict() == data1` (tests/helper.py:83) -/
  | differsAgain

/-- `check_markdown(node, expected)` (tests/helper.py:86-103).  `.strip()` of a result that is no string is an
AttributeError. -/
def checkMarkdown (env : Env) (n : Node) (expected : Str) : Except Failed Unit :=
  match n.toMarkdown env false with
  | .error e => .error (.raised e)
  | .ok (.str s) => if Str.strip s = Str.strip (dedent expected) then .ok () else .error .differs
  | .ok _ => .error (.raised .attributeError)

/-- `check_seder(inst)` for a node or `None` (tests/helper.py:52-83). -/
def checkSeder (iv : Str → Option Int) (w : Bool) : Option Node → Except Failed Unit
  | none => .ok ()
  | some n =>
    match n.toDict with
    | .error e => .error (.raised e)
    | .ok data =>
      match (n.cls.fromDict w data).out with
      | .error e => .error (.raised e)
      | .ok n1 =>
        if n1.eq iv n then
          match n1.toDict with
          | .error e => .error (.raised e)
          | .ok data1 =>
            match n1.toDict with
            | .error e => .error (.raised e)
            | .ok data2 => if data2.eq iv data1 then .ok () else .error .differsAgain
        else .error .differs

/-- `check_seder(inst)` for a mark (tests/helper.py:52-83). -/
def checkSederMark (iv : Str → Option Int) (m : Mark) : Except Failed Unit :=
  match m.cls.fromDict m.toDict with
  | .error e => .error (.raised e)
  | .ok m1 =>
    if m1.eq iv m then
      if m1.toDict.eq iv m1.toDict then .ok () else .error .differsAgain
    else .error .differs

end Verif
