import Verif.Model.NodeGenMain
/-!
# What the node generator should do

Characters are classified with Lean's own `Char.isUpper`, `Char.isLower`, `Char.isDigit` (ASCII).
-/

namespace Verif.Spec.NodeGen
open Verif Verif.NodeGen

/-! ## Names -/

/-- A new word begins with the capital letter `c` that follows `p`: after a small letter or digit, or before a small letter
(but not at the beginning of a line). -/
def NewWord (p c : Char) (next : Option Char) : Bool :=
  c.isUpper && (p.isLower || p.isDigit || (p != '\n' && (next.map Char.isLower).getD false))

/-- The rest `s` of a name in which `p` came before, in snake case. -/
def snakeAfter (p : Char) : Str → Str
  | [] => []
  | c :: s => (if NewWord p c s.head? then ['_', c.toLower] else [c.toLower]) ++ snakeAfter c s

/-- A name in snake case: small letters, an underscore before every new word. -/
def snake : Str → Str
  | [] => []
  | c :: s => c.toLower :: snakeAfter c s

/-- A name in snake case as a class name: underscores are left out, a capital letter at the beginning and after each
underscore, small letters otherwise. -/
def pascal (first : Bool) : Str → Str
  | [] => []
  | c :: s => if c = '_' then pascal true s else (if first then c.toUpper else c.toLower) :: pascal false s

/-- The ends of definition names. -/
def suffix : Kind → Str
  | .mark => "_mark".toList
  | .node => "_node".toList
/-- How module names begin. -/
def modulePrefix : Kind → Str
  | .mark => "mark_".toList
  | .node => "node_".toList
/-- How class names begin. -/
def classPrefix : Kind → Str
  | .mark => "Mark".toList
  | .node => "Node".toList

/-- A camelCase name: letters and digits, a small letter first, no two capital letters in a row. -/
def Camel (name : Str) : Prop :=
  (∃ c s, name = c :: s ∧ c.isLower = true) ∧ (∀ c ∈ name, c.isLower = true ∨ c.isUpper = true ∨ c.isDigit = true) ∧
    ∀ a b l r, name = l ++ a :: b :: r → ¬ (a.isUpper = true ∧ b.isUpper = true)

/-- The name with a capital letter first. -/
def capFirst : Str → Str
  | [] => []
  | c :: s => c.toUpper :: s

/-! ## Schema -/

/-- What the schema `e` itself says about the property `key`. -/
def own (key : String) : Val → Option Val
  | .dict x => match lookupKey x "properties" with
    | some (.dict q) => lookupKey q key
    | _ => none
  | _ => none

/-- The schemas under `allOf`. -/
def allOfItems (d : List (String × Val)) : List Val :=
  match lookupKey d "allOf" with
  | some (.list l) => l
  | _ => []

/-- The definition `d` declares the property `key` as `v`: the last element of `allOf` that declares the property counts, and
only if there is none the definition itself. -/
def Declares (d : List (String × Val)) (key : String) (v : Val) : Prop :=
  (∃ l e r, allOfItems d = l ++ e :: r ∧ own key e = some v ∧ ∀ x ∈ r, own key x = none) ∨
  ((∀ e ∈ allOfItems d, own key e = none) ∧ own key (.dict d) = some v)

/-- The Python type written for the JSON schema of a property: `enum` counts first, then `$ref`, then `type`. -/
def hint (p : List (String × Val)) : Str :=
  if (lookupKey p "enum").isSome then "str".toList
  else if (lookupKey p "$ref").isSome then "T.Any".toList
  else match lookupKey p "type" with
    | some (.str t) =>
      match [("string", "str"), ("integer", "int"), ("number", "float"), ("boolean", "bool"), ("array", "list"),
          ("object", "dict[str, T.Any]")].find? fun x => x.1.toList == t with
      | some x => x.2.toList
      | none => "T.Any".toList
    | _ => "T.Any".toList

/-- The schema of `attrs` declares the property `key` with schema `p`. -/
def HasAttr (a : List (String × Val)) (key : Str) (p : List (String × Val)) : Prop :=
  ∃ q, lookupKey a "properties" = some (.dict q) ∧ lookupKey q (String.ofList key) = some (.dict p)

/-- The schema of `attrs` requires the property `key`. -/
def Requires (a : List (String × Val)) (key : Str) : Prop := ∃ l, lookupKey a "required" = some (.list l) ∧ .str key ∈ l

/-- As JSON Schema wants it: `required` is a list, `properties` an object of objects. -/
def AttrsSchema (a : List (String × Val)) : Prop :=
  (∀ v, lookupKey a "required" = some v → ∃ l, v = .list l) ∧
  (∀ v, lookupKey a "properties" = some v → ∃ q, v = .dict q ∧ ∀ x ∈ q, ∃ p, x.2 = .dict p)

/-! ## Modules, line by line -/

/-- `out` is the line if `P`, and no line otherwise. -/
def LineIf (P : Prop) (line : Str) (out : List Str) : Prop := (P ∧ out = [line]) ∨ (¬ P ∧ out = [])

/-- A text of the given lines. -/
def unlines (ls : List Str) : Str := ls.flatMap (· ++ ['\n'])

/-- How a generated module begins. -/
def headLines (k : Kind) (typeName moduleName className : Str) : List Str :=
  ["# -*- coding: utf-8 -*-".toList, [], "\"\"\"".toList, "Auto-generated ADF ".toList ++ classPrefix k ++ ": ".toList ++ typeName,
   "\"\"\"".toList, [], "import typing as T".toList, "import dataclasses".toList, [], "from func_args.api import OPT".toList, [],
   "from ..type_enum import TypeEnum".toList,
   "from ..mixins.".toList ++ moduleName ++ " import ".toList ++ className ++ "Mixin".toList,
   (match k with | .mark => "from .base import Base, BaseMark".toList | .node => "from .base import Base, BaseMark, BaseNode".toList),
   [], []]

/-- The class of the attributes: required fields, then optional ones; each with its name and type. -/
def attrsLines (className : Str) (required optional : List (Str × Str)) : List Str :=
  ["@dataclasses.dataclass(frozen=True)".toList, "class ".toList ++ className ++ "Attrs(Base):".toList,
   "    \"\"\"Attributes for ".toList ++ className ++ ".\"\"\"".toList] ++
  required.map (fun f => "    ".toList ++ f.1 ++ ": ".toList ++ f.2) ++
  optional.map (fun f => "    ".toList ++ f.1 ++ ": ".toList ++ f.2 ++ " = OPT".toList) ++ [[], []]

/-- How the class of a node or mark begins. -/
def classLines (k : Kind) (typeName className typeEnum : Str) : List Str :=
  ["@dataclasses.dataclass(frozen=True)".toList,
   "class ".toList ++ className ++ "(".toList ++ className ++ "Mixin, Base".toList ++ classPrefix k ++ "):".toList,
   "    \"\"\"".toList, "    ADF ".toList ++ classPrefix k ++ ": ".toList ++ typeName, "    \"\"\"".toList, [],
   "    type: str = dataclasses.field(default=TypeEnum.".toList ++ typeEnum ++ ".value)".toList]

/-- Called on the schema as it was loaded, the generator gives the definition `name` the names `n` and its module the text `text`. -/
def Generates (env : Env) (k : Kind) (defs : Defs) (name : Str) (n : Names) (text : Str) : Prop :=
  ∃ defs', genFile env k defs name = .ok (n, text, defs')

/-- The definitions that are not generated. -/
def Excluded (name : Str) : Prop :=
  (∃ a b, name = a ++ "_with_".toList ++ b) ∨ (∃ a, name = a ++ "_root_only_node".toList) ∨ (∃ a, name = a ++ "_full_node".toList) ∨
  name ∈ ["inline_node".toList, "code_inline_node".toList, "formatted_text_inline_node".toList, "mediaSingle_caption_node".toList]

/-- A definition that is generated. -/
def Wanted (defs : Defs) (k : Kind) (name : Str) : Prop :=
  String.ofList name ∈ defs.map (·.1) ∧ (∃ t, name = t ++ suffix k) ∧ ¬ Excluded name

/-- What is written about one definition in parse.py: its type string, its module, its class. -/
structure Entry where
  typeString : Str
  moduleName : Str
  className : Str

/-- parse.py, line by line. -/
def parseLines (marks nodes : List Entry) : List Str :=
  let rule := "# =============================================================================".toList
  let imports (es : List Entry) := es.map fun e => "from .".toList ++ e.moduleName ++ " import ".toList ++ e.className
  let entries (es : List Entry) := es.map fun e => "    \"".toList ++ e.typeString ++ "\": ".toList ++ e.className ++ ",".toList
  ["# -*- coding: utf-8 -*-".toList, [], "\"\"\"".toList, "Auto-generated ADF Parser".toList, [],
   "This module provides functions to parse ADF JSON into Python objects.".toList, "\"\"\"".toList, [], "import typing as T".toList,
   "from ..type_hint import T_DATA".toList, [], "if T.TYPE_CHECKING:  # pragma: no cover".toList,
   "    from .base import T_MARK, T_NODE".toList, [], rule, "# Mark imports".toList, rule] ++ imports marks ++
  [[], rule, "# Node imports".toList, rule] ++ imports nodes ++
  [[], rule, "# Mark registry".toList, rule, "_mark_type_to_class_mapping = {".toList] ++ entries marks ++
  ["}".toList, [], [], "def parse_mark(dct: T_DATA) -> \"T_MARK\":".toList,
   "    \"\"\"Parse a mark dictionary into a Mark object.\"\"\"".toList, "    type_ = dct[\"type\"]".toList,
   "    klass = _mark_type_to_class_mapping[type_]".toList, "    return klass.from_dict(dct)".toList, [], [],
   rule, "# Node registry".toList, rule, "_node_type_to_class_mapping = {".toList] ++ entries nodes ++
  ["}".toList, [], [], "def parse_node(dct: T_DATA) -> \"T_NODE\":".toList,
   "    \"\"\"Parse a node dictionary into a Node object.\"\"\"".toList, "    type_ = dct[\"type\"]".toList,
   "    klass = _node_type_to_class_mapping[type_]".toList, "    return klass.from_dict(dct)".toList]

/-- The stub of a mixin, line by line. -/
def stubLines (k : Kind) (typeName moduleName className : Str) : List Str :=
  ["# -*- coding: utf-8 -*-".toList, [], "\"\"\"".toList, "Mixin for ADF ".toList ++ classPrefix k ++ ": ".toList ++ typeName, [],
   "This file is NOT auto-generated. Implement to_markdown() method here.".toList, "\"\"\"".toList, [], "import typing as T".toList, [],
   "if T.TYPE_CHECKING:  # pragma: no cover".toList,
   "    from ..nodes.".toList ++ moduleName ++ " import ".toList ++ className, [], [],
   "class ".toList ++ className ++ "Mixin:".toList,
   (match k with
    | .mark => "    def to_markdown(self: \"".toList ++ className ++ "\", text: str) -> str:".toList
    | .node => "    def to_markdown(self: \"".toList ++ className ++ "\") -> str:".toList),
   "        # TODO: Implement markdown conversion".toList,
   (match k with | .mark => "        return text".toList | .node => "        return \"\"".toList)]

/-- The value of a dict display `{k: v, ...}` at a key: of equal keys the last counts. -/
def Display (entries : List (Str × Str)) (key value : Str) : Prop :=
  ∃ l r, entries = l ++ (key, value) :: r ∧ key ∉ r.map (·.1)

/-! ## Runs -/

open Verif.NodeGenMain (Event Dir Files)

/-- In the history `tr` the process `p` has started `main` and not finished. -/
def Running (p : Nat) (tr : List Event) : Prop :=
  ∃ l defs r, tr = l ++ .start p defs :: r ∧ .returns p ∉ r ∧ .raises p ∉ r ∧ .crash p ∉ r

/-- The files a run acts on: modules are written into nodes, stubs into mixins. -/
def Names (acts : List Act) : Dir × Str → Prop
  | (.nodes, f) => ∃ c, .write f c ∈ acts
  | (.mixins, f) => ∃ c, .stub f c ∈ acts

/-- What one run that does `acts` makes of the content `old` of a file: of several texts for one module the last counts; a
file in mixins is kept, and made from the first stub if it is missing. -/
def Leaves (encode : Str → Option Verif.FileCache.Bytes) (acts : List Act) (old : Option Verif.FileCache.Bytes) :
    Dir × Str → Option Verif.FileCache.Bytes → Prop
  | (.nodes, f), new =>
    (∃ l r c b, acts = l ++ .write f c :: r ∧ (∀ c', .write f c' ∉ r) ∧ encode c = some b ∧ new = some b) ∨
    ((∀ c, .write f c ∉ acts) ∧ new = old)
  | (.mixins, f), new =>
    (old ≠ none ∧ new = old) ∨
    (old = none ∧ ∃ l r c b, acts = l ++ .stub f (.ok c) :: r ∧ (∀ c', .stub f c' ∉ l) ∧ encode c = some b ∧ new = some b) ∨
    ((∀ c, .stub f c ∉ acts) ∧ new = old)

end Verif.Spec.NodeGen
