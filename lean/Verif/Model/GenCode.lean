import Mathlib.Data.List.Lex
import Mathlib.Data.String.Basic
import Verif.Py.Val
/-!
# Generating api.py: gen_code.py and templates/api.py.jinja

`World` is what the generator sees: the path of the package, the file names in its `marks` and `nodes`
directories and what importing a module by name does.  Progress messages on stdout are left out.
-/

namespace Verif.Gen

/-- One entry of a module's namespace, as far as the generator looks at it. -/
structure Member where
  name : Str
  /-- `inspect.isclass(obj)` -/
  isClass : Bool
  /-- `obj.__module__` (of a class) -/
  definedIn : Str
  /-- `issubclass(obj, Base)` (of a class) -/
  isBase : Bool

/-- `importlib.import_module(name)`. -/
inductive Import where
  | ok (members : List Member)
  | importError
  | raises (e : PyErr)

structure World where
  /-- `path_enum.dir_package.parts` (paths.py:5,24) -/
  parts : List Str
  /-- file names in marks/ and nodes/, in any order -/
  marksDir : List Str
  nodesDir : List Str
  load : Str → Import

/-- `PublicAPI` (gen_code.py:19-49); `is_attrs` and `is_type_alias` are never read. -/
structure Api where
  moduleName : Str
  className : Str

/-- `PublicAPI.relative_import_path` (gen_code.py:36-49). -/
def Api.path (a : Api) : Except PyErr Str :=
  if "mark_".toList.isPrefixOf a.moduleName then .ok (".marks.".toList ++ a.moduleName)
  else if "node_".toList.isPrefixOf a.moduleName then .ok (".nodes.".toList ++ a.moduleName)
  else .error .valueError

/-- `sorted(..)` / the order of `inspect.getmembers`: by code points. -/
def byName (a b : Str) : Bool := decide (a ≤ b)

/-- The entries a member contributes (gen_code.py:82-110). -/
def memberApis (full module : Str) (m : Member) : List Api :=
  if "_".toList.isPrefixOf m.name then []
  else
    (if m.isClass && (m.definedIn == full) && m.isBase then [⟨module, m.name⟩] else []) ++
    (if "T_NODE_".toList.isPrefixOf m.name || "T_MARK_".toList.isPrefixOf m.name then [⟨module, m.name⟩] else [])

/-- `module_path.stem` of a file name ending in `.py`. -/
def stem (file : Str) : Str := file.take (file.length - 3)

/-- `scan_module_for_public_apis` (gen_code.py:52-112) on the file `dir / file`. -/
def scanModule (w : World) (dir : Str) (file : Str) : Except PyErr (List Api) :=
  let parts := w.parts ++ [dir, file]
  let module := stem file
  let scan (full : Str) : Except PyErr (List Api) :=
    match w.load full with
    | .importError => .ok []
    | .raises e => .error e
    | .ok members =>
      .ok ((members.mergeSort fun a b => byName a.name b.name).flatMap (memberApis full module))
  if "marks".toList ∈ parts then scan ("atlas_doc_parser.marks.".toList ++ module)
  else if "nodes".toList ∈ parts then scan ("atlas_doc_parser.nodes.".toList ++ module)
  else .ok []

/-- `glob(pre + "*.py")`. -/
def globbed (pre : Str) (files : List Str) : List Str :=
  files.filter fun f => pre.isPrefixOf f && ".py".toList.isSuffixOf f

/-- The loop over the modules of one directory (gen_code.py:132-136, 139-142). -/
def scanFiles (w : World) (dir : Str) : List Str → Except PyErr (List Api)
  | [] => .ok []
  | f :: fs =>
    match scanModule w dir f with
    | .error e => .error e
    | .ok as =>
      match scanFiles w dir fs with
      | .error e => .error e
      | .ok bs => .ok (as ++ bs)

def scanDir (w : World) (dir pre : Str) (files : List Str) : Except PyErr (List Api) :=
  scanFiles w dir ((globbed pre files).mergeSort byName)

/-- `d.setdefault(api.module_name, []).append(api)` (gen_code.py:164-168, 170-174). -/
def addTo : List (Str × List Api) → Api → List (Str × List Api)
  | [], a => [(a.moduleName, [a])]
  | (k, as) :: rest, a => if k = a.moduleName then (k, as ++ [a]) :: rest else (k, as) :: addTo rest a

def group (as : List Api) : List (Str × List Api) := as.foldl addTo []

/-- `from {{ api.relative_import_path }} import {{ api.class_name }}\n` -/
def Api.line (a : Api) : Except PyErr Str :=
  match a.path with
  | .error e => .error e
  | .ok p => .ok ("from ".toList ++ p ++ " import ".toList ++ a.className ++ "\n".toList)

/-- One line per entry. -/
def renderApis : List Api → Except PyErr Str
  | [] => .ok []
  | a :: as =>
    match a.line with
    | .error e => .error e
    | .ok l =>
      match renderApis as with
      | .error e => .error e
      | .ok r => .ok (l ++ r)

/-- The two nested loops of the template (`-%}` eats the line break after each tag). -/
def renderGroups : List (Str × List Api) → Except PyErr Str
  | [] => .ok []
  | g :: gs =>
    match renderApis g.2 with
    | .error e => .error e
    | .ok s =>
      match renderGroups gs with
      | .error e => .error e
      | .ok r => .ok (s ++ r)

/-- The template up to the first loop (templates/api.py.jinja:1-27). -/
def header : Str :=
  ("# -*- coding: utf-8 -*-\n\n\"\"\"\nPublic API module for atlas_doc_parser.\n\n" ++
   "This file is auto-generated by gen_code.py. Do not edit manually.\n\"\"\"\n\n" ++
   "from .exc import ParamError\nfrom .exc import UnimplementedTypeError\n" ++
   "from .type_hint import T_DATA\nfrom .type_enum import TypeEnum\nfrom .constants import TAB\n" ++
   "from .logger import logger\nfrom .mark_or_node import Base\n" ++
   "from .mark_or_node import BaseMarkOrNode\nfrom .mark_or_node import BaseMark\n" ++
   "from .mark_or_node import T_MARK\nfrom .mark_or_node import BaseNode\n" ++
   "from .mark_or_node import T_NODE\nfrom .marks.parse_mark import parse_mark\n" ++
   "from .nodes.parse_node import parse_node\n\n" ++
   "# -----------------------------------------------------------------------------\n# Marks\n" ++
   "# -----------------------------------------------------------------------------\n").toList

/-- Between the loops (templates/api.py.jinja:32-35). -/
def middle : Str :=
  ("\n# -----------------------------------------------------------------------------\n# Nodes\n" ++
   "# -----------------------------------------------------------------------------\n").toList

/-- `generate_api_py` (gen_code.py:147-182). -/
def generate (w : World) : Except PyErr Str :=
  match scanDir w "marks".toList "mark_".toList w.marksDir with
  | .error e => .error e
  | .ok marks =>
    match scanDir w "nodes".toList "node_".toList w.nodesDir with
    | .error e => .error e
    | .ok nodes =>
      match renderGroups (group marks) with
      | .error e => .error e
      | .ok m =>
        match renderGroups (group nodes) with
        | .error e => .error e
        | .ok n => .ok (header ++ m ++ middle ++ n)

end Verif.Gen
