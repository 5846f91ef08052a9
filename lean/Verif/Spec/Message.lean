import Verif.Spec.Parse
/-!
# Specification: what the log says about skipped elements
-/

namespace Verif.Spec
open Verif

/-- What follows the type. -/
@[irreducible] def noticeTail : Str :=
  "' is not yet implemented. Please submit an issue at https://github.com/MacHu-GWU/atlas_doc_parser-project/issues with this type name so it can be added in a future release.".toList

/-- The text for a skipped node (or an unsupported root) whose JSON type is the string `t`. -/
def nodeNotice (t : Str) : Str :=
  "Node type '".toList ++ t ++ noticeTail

/-- The text for a skipped mark. -/
def markNotice (t : Str) : Str :=
  "Mark type '".toList ++ t ++ noticeTail

/-- What was skipped: a node or a mark, and its type. -/
inductive Skipped where
  | node (t : Str)
  | mark (t : Str)

def Skipped.notice : Skipped → Str
  | .node t => nodeNotice t
  | .mark t => markNotice t

/-- The entry of `Spec.warnings` for it. -/
def Skipped.warn : Skipped → Warn
  | .node t => ⟨.str t, "node"⟩
  | .mark t => ⟨.str t, "mark"⟩

end Verif.Spec
