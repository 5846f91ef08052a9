import Verif.Model.GenCode
/-!
# Specification of the generated api.py
-/

namespace Verif.Spec.Gen
open Verif Verif.Gen

/-- The public names of a module: classes defined there that derive from `Base`, and type aliases
`T_NODE_*` / `T_MARK_*`; nothing starting with an underscore. -/
def Public (load : Str → Import) (full name : Str) : Prop :=
  ∃ members, load full = .ok members ∧ ∃ m ∈ members, m.name = name ∧
    ¬ "_".toList <+: name ∧
    ((m.isClass = true ∧ m.definedIn = full ∧ m.isBase = true) ∨
      "T_NODE_".toList <+: name ∨ "T_MARK_".toList <+: name)

/-- A `(module, name)` pair belongs into the section of directory `dir` ("marks" with prefix "mark_",
"nodes" with prefix "node_"): the directory has a file `module.py` and `name` is public there. -/
def Belongs (load : Str → Import) (dir pre : Str) (files : List Str) (p : Str × Str) : Prop :=
  p.1 ++ ".py".toList ∈ files ∧ pre <+: p.1 ∧ Public load ("atlas_doc_parser.".toList ++ dir ++ ".".toList ++ p.1) p.2

/-- Order of the import lines: by file, then by name. -/
def Before (p q : Str × Str) : Prop :=
  p.1 ++ ".py".toList < q.1 ++ ".py".toList ∨ (p.1 = q.1 ∧ p.2 < q.2)

/-- The import lines. -/
def lines (dir : Str) (ps : List (Str × Str)) : Str :=
  ps.flatMap fun p => "from .".toList ++ dir ++ ".".toList ++ p.1 ++ " import ".toList ++ p.2 ++ "\n".toList

/-- Facts about Python namespaces and directories: file names and member names are unique; importing a
module succeeds or raises ImportError; and no class is called `T_NODE_*` / `T_MARK_*`. -/
structure Sane (w : World) : Prop where
  marks : w.marksDir.Nodup
  nodes : w.nodesDir.Nodup
  members : ∀ full ms, w.load full = .ok ms → (ms.map (·.name)).Nodup
  loads : ∀ full e, w.load full ≠ .raises e
  aliases : ∀ full ms m, w.load full = .ok ms → m ∈ ms → m.isClass = true →
    ¬ "T_NODE_".toList <+: m.name ∧ ¬ "T_MARK_".toList <+: m.name

/-- The statements in the lines of a Python file that has a docstring between two lines of three quotes, comments on their
own lines and one-line statements. -/
def statements : (inDoc : Bool) → List Str → List Str
  | _, [] => []
  | true, l :: ls => statements (l != "\"\"\"".toList) ls
  | false, l :: ls =>
    if l = "\"\"\"".toList then statements true ls
    else if l = [] ∨ l.head? = some '#' then statements false ls
    else l :: statements false ls

/-- `from .module import name`. -/
def importFrom (p : Str × Str) : Str := "from .".toList ++ p.1 ++ " import ".toList ++ p.2

/-- What the package exports besides the mark and node classes. -/
def fixedImports : List (Str × Str) :=
  [("exc", "ParamError"), ("exc", "UnimplementedTypeError"), ("type_hint", "T_DATA"), ("type_enum", "TypeEnum"),
   ("constants", "TAB"), ("logger", "logger"), ("mark_or_node", "Base"), ("mark_or_node", "BaseMarkOrNode"),
   ("mark_or_node", "BaseMark"), ("mark_or_node", "T_MARK"), ("mark_or_node", "BaseNode"), ("mark_or_node", "T_NODE"),
   ("marks.parse_mark", "parse_mark"), ("nodes.parse_node", "parse_node")].map fun p => (p.1.toList, p.2.toList)

/-- No file name and no public name contains a newline. -/
def OneLine (w : World) : Prop :=
  (∀ f ∈ w.marksDir ++ w.nodesDir, '\n' ∉ f) ∧ ∀ full ms m, w.load full = .ok ms → m ∈ ms → '\n' ∉ m.name

end Verif.Spec.Gen
