import Verif.Model.FromDict
/-!
# The text of UnimplementedTypeError and of the warnings

exc.py and the calls of `logger.warning(str(e))` in mark_or_node.py.
-/

namespace Verif

/-- ASCII lower-casing of one character; other characters are left alone (only used for the two literals
"node" and "mark"). -/
def lowerAscii (c : Char) : Char :=
  if 'A'.toNat ≤ c.toNat ∧ c.toNat ≤ 'Z'.toNat then Char.ofNat (c.toNat + 32) else c

/-- ASCII upper-casing of one character. -/
def upperAscii (c : Char) : Char :=
  if 'a'.toNat ≤ c.toNat ∧ c.toNat ≤ 'z'.toNat then Char.ofNat (c.toNat - 32) else c

/-- `category.capitalize()` (exc.py:37), ASCII only: the two categories raised in the code are "node"
(nodes/parse_node.py:112) and "mark" (marks/parse_mark.py:74). -/
def capitalize : Str → Str
  | [] => []
  | c :: cs => upperAscii c :: cs.map lowerAscii

/-- The constant end of the message (exc.py:37-39). -/
@[irreducible] def unimplementedTail : Str :=
  ("' is not yet implemented. " ++
  "Please submit an issue at https://github.com/MacHu-GWU/atlas_doc_parser-project/issues " ++
  "with this type name so it can be added in a future release.").toList

/-- `str(UnimplementedTypeError(type_value, category))` (exc.py:33-40). -/
def unimplementedText (env : Env) (typeValue : Val) (category : String) : Str :=
  capitalize category.toList ++ " type '".toList ++ typeValue.pyStr env ++ unimplementedTail

/-- `logger.warning(str(e))` (mark_or_node.py:263, 279): the text logged. -/
def Warn.text (env : Env) (w : Warn) : Str := unimplementedText env w.typeValue w.category

/-- The lines a parse hands to the logger, in order. -/
def Res.logged {α : Type} (env : Env) (r : Res α) : List Str := r.log.map (Warn.text env)

end Verif
