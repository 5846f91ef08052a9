import Verif.Model.Analyze
import Verif.Model.FileCache
/-!
# Generating node and mark modules from the ADF JSON schema

scripts/s02-nodes-code-gen/s1_gen_code.py and its templates: from the schema (`adf_json_schema.data["definitions"]`, a JSON
value; `Defs`) to the text of one module per definition, of parse.py and of the mixin stubs, and the files `main` writes.

Simplifications: names of definitions are ASCII as far as `str.lower` and `str.capitalize` are concerned (other characters are left
alone); `dict.update` with something other than a dict raises; progress messages are left out.
-/

namespace Verif.NodeGen
open Verif

/-! ## Names -/

/-- `[A-Z]` -/
def isUpper (c : Char) : Bool := 65 ≤ c.toNat && c.toNat ≤ 90
/-- `[a-z]` -/
def isLower (c : Char) : Bool := 97 ≤ c.toNat && c.toNat ≤ 122
/-- `[0-9]` -/
def isDigit (c : Char) : Bool := 48 ≤ c.toNat && c.toNat ≤ 57

/-- `c.lower()` -/
def lowerChar (c : Char) : Char := if isUpper c then Char.ofNat (c.toNat + 32) else c
/-- `c.upper()` -/
def upperChar (c : Char) : Char := if isLower c then Char.ofNat (c.toNat - 32) else c

/-- The next character is in `[a-z]`. -/
def startsLower : Str → Bool
  | [] => false
  | c :: _ => isLower c

/-- `re.sub("(.)([A-Z][a-z]+)", r"\1_\2", name)` (line 155); the flag says that the last match is still going on (`[a-z]+`
takes all it can get). -/
def splitHumps : Bool → Str → Str
  | _, [] => []
  | _, [c] => [c]
  | b, c :: u :: t =>
      if b && isLower c then c :: splitHumps true (u :: t)
      else if c ≠ '\n' && isUpper u && startsLower t then c :: '_' :: u :: splitHumps true t
      else c :: splitHumps false (u :: t)

/-- `re.sub("([a-z0-9])([A-Z])", r"\1_\2", s1)` (line 156). -/
def splitCaps : Str → Str
  | [] => []
  | [c] => [c]
  | c :: u :: t =>
      if (isLower c || isDigit c) && isUpper u then c :: '_' :: u :: splitCaps t
      else c :: splitCaps (u :: t)

/-- `camel_to_snake` (lines 146-156). -/
def camelToSnake (name : Str) : Str := (splitCaps (splitHumps false name)).map lowerChar

/-- `name.split("_")`. -/
def splitUnderscore : Str → List Str
  | [] => [[]]
  | c :: cs =>
      if c = '_' then [] :: splitUnderscore cs
      else match splitUnderscore cs with
        | [] => [[c]]
        | l :: ls => (c :: l) :: ls

/-- `word.capitalize()`. -/
def capitalize : Str → Str
  | [] => []
  | c :: cs => upperChar c :: cs.map lowerChar

/-- `snake_to_pascal` (lines 159-168). -/
def snakeToPascal (name : Str) : Str := (splitUnderscore name).flatMap capitalize

/-- What is generated for: a mark or a node. -/
inductive Kind where
  | mark | node
  deriving DecidableEq

/-- `DefinitionNames` (lines 63-84); `attrs_class_name` and `mixin_class_name` are `class_name` with a suffix and are not used. -/
structure Names where
  defName : Str
  moduleName : Str
  className : Str
  typeName : Str
  typeEnum : Val

/-! ## Schema -/

/-- `adf_json_schema.data["definitions"]`. -/
abbrev Defs := List (String × Val)

/-- `d[k] = v`. -/
def setKey (k : String) (v : Val) : List (String × Val) → List (String × Val)
  | [] => [(k, v)]
  | (k', v') :: d => if k' = k then (k', v) :: d else (k', v') :: setKey k v d

/-- `d.update(e)`. -/
def update (d e : List (String × Val)) : List (String × Val) := e.foldl (fun d p => setKey p.1 p.2 d) d

/-- `v` is the string `s` (`in` on lists). -/
def isStr (s : Str) : Val → Bool
  | .str t => t == s
  | _ => false

/-- `key in v`. -/
def pyIn (key : String) : Val → Except PyErr Bool
  | .dict d => .ok (lookupKey d key).isSome
  | .list l => .ok (l.any (isStr key.toList))
  | .str s => .ok (decide (key.toList <:+: s))
  | _ => .error .typeError

/-- `v[key]`. -/
def pyItem (key : String) : Val → Except PyErr Val
  | .dict d => match lookupKey d key with
    | some v => .ok v
    | none => .error .keyError
  | _ => .error .typeError

/-- `v.get(key, default)`. -/
def pyGet (key : String) (dflt : Val) : Val → Except PyErr Val
  | .dict d => .ok ((lookupKey d key).getD dflt)
  | _ => .error .attributeError

/-- The elements a `for` loop over `v` visits. -/
def pyIter : Val → Except PyErr (List Val)
  | .list l => .ok l
  | .dict d => .ok (d.map fun p => .str p.1.toList)
  | .str s => .ok (s.map fun c => .str [c])
  | _ => .error .typeError

/-- `bool(v)`. -/
def truthy : Val → Bool
  | .none => false
  | .bool b => b
  | .int n => n ≠ 0
  | .float r => r ≠ "0.0".toList && r ≠ "-0.0".toList
  | .str s => !s.isEmpty
  | .list l => !l.isEmpty
  | .dict d => !d.isEmpty
  | .opt => true

/-- `v[0]`. -/
def pyFirst : Val → Except PyErr Val
  | .list (v :: _) => .ok v
  | .list [] => .error .indexError
  | .str (c :: _) => .ok (.str [c])
  | .str [] => .error .indexError
  | .dict _ => .error .keyError
  | _ => .error .typeError

/-- `props.update(item["properties"])` if the item has such a key (lines 131-132, 357-358). -/
def mergeProps (props item : Val) : Except PyErr Val := do
  if ← pyIn "properties" item then
    let x ← pyItem "properties" item
    match props, x with
    | .dict p, .dict q => .ok (.dict (update p q))
    | .dict _, _ => .error .typeError
    | _, _ => .error .attributeError
  else .ok props

/-- `top_required.extend(item["required"])` if the item has such a key (lines 359-360). -/
def mergeRequired (required item : Val) : Except PyErr Val := do
  if ← pyIn "required" item then
    let x ← pyItem "required" item
    match required with
    | .list l => .ok (.list (l ++ (← pyIter x)))
    | _ => .error .attributeError
  else .ok required

/-- `definition["allOf"]`, nothing if there is none (lines 129-130, 355-356). -/
def allOf (d : List (String × Val)) : Except PyErr (List Val) :=
  match lookupKey d "allOf" with
  | some v => pyIter v
  | none => .ok []

/-- `props` after the merge (lines 126-132). -/
def mergedProps (d : List (String × Val)) : Except PyErr Val := do
  (← allOf d).foldlM mergeProps ((lookupKey d "properties").getD (.dict []))

/-- The loop of lines 356-360: `props` and `top_required`. -/
def mergeBoth (pr : Val × Val) (item : Val) : Except PyErr (Val × Val) := do
  let p ← mergeProps pr.1 item
  let r ← mergeRequired pr.2 item
  .ok (p, r)

/-- `props` and `top_required` after the merge (lines 351-360). -/
def merged (d : List (String × Val)) : Except PyErr (Val × Val) := do
  (← allOf d).foldlM mergeBoth ((lookupKey d "properties").getD (.dict []), (lookupKey d "required").getD (.list []))

/-- The value of a key is the object that was modified; without the key the modified object is a temporary. -/
def putBack (k : String) (v : Val) (d : List (String × Val)) : List (String × Val) :=
  if (lookupKey d k).isSome then setKey k v d else d

/-- The definition: `adf_json_schema.data["definitions"].get(def_name, {})` (lines 125, 340); AttributeError later on if it is no
dict. -/
def definition (defs : Defs) (name : Str) : Except PyErr (List (String × Val)) :=
  match (lookupKey defs (String.ofList name)).getD (.dict []) with
  | .dict d => .ok d
  | _ => .error .attributeError

/-- A definition name without its last five characters (`def_name[:-5]`). -/
def chop (name : Str) : Str := name.take (name.length - 5)

/-- `get_type_enum_from_schema` (lines 112-143) and the schema afterwards. -/
def typeEnum (defs : Defs) (name : Str) : Except PyErr (Val × Defs) := do
  let d ← definition defs name
  let props ← mergedProps d
  let defs' := putBack (String.ofList name) (.dict (putBack "properties" props d)) defs
  let t ← pyGet "type" (.dict []) props
  if ← pyIn "enum" t then
    let e ← pyItem "enum" t
    if truthy e then return (← pyFirst e, defs')
  if Analyze.endsWith name "_mark".toList then return (.str (chop name), defs')
  else if Analyze.endsWith name "_node".toList then return (.str (chop name), defs')
  else return (.str name, defs')

/-- The names derived from `type_name` (lines 202-224). -/
def mkNames (pre prePascal name typeName : Str) (e : Val) : Names :=
  { defName := name
    moduleName := pre ++ '_' :: camelToSnake typeName
    className := prePascal ++ snakeToPascal (camelToSnake typeName)
    typeName := typeName
    typeEnum := e }

/-- `def_name_to_names` (lines 171-224) and the schema afterwards. -/
def namesOf (defs : Defs) (name : Str) : Except PyErr (Names × Defs) := do
  if Analyze.endsWith name "_mark".toList then
    let (e, defs') ← typeEnum defs name
    return (mkNames "mark".toList "Mark".toList name (chop name) e, defs')
  else if Analyze.endsWith name "_node".toList then
    let (e, defs') ← typeEnum defs name
    return (mkNames "node".toList "Node".toList name (chop name) e, defs')
  else .error .valueError

/-- Lines 241-264: the definitions that are left out. -/
def skipped (name : Str) : Bool :=
  decide ("_with_".toList <:+: name) || Analyze.endsWith name "_root_only_node".toList ||
  Analyze.endsWith name "_full_node".toList || Analyze.endsWith name "_content".toList ||
  name == "inline_node".toList || name == "non_nestable_block_content".toList || name == "block_content".toList ||
  name == "code_inline_node".toList || name == "formatted_text_inline_node".toList || name == "mediaSingle_caption_node".toList

/-- `get_all_definitions` (lines 227-271), the marks. -/
def markDefs (defs : Defs) : List Str :=
  Analyze.sort ((defs.map fun p => p.1.toList).filter fun n => !skipped n && Analyze.endsWith n "_mark".toList)

/-- `get_all_definitions` (lines 227-271), the nodes. -/
def nodeDefs (defs : Defs) : List Str :=
  Analyze.sort ((defs.map fun p => p.1.toList).filter fun n =>
    !skipped n && !Analyze.endsWith n "_mark".toList && Analyze.endsWith n "_node".toList)

/-- `type_map.get(t, "T.Any")` (lines 294-302). -/
def typeMap : Val → Except PyErr Str
  | .str s => .ok (
      if s = "string".toList then "str".toList
      else if s = "integer".toList then "int".toList
      else if s = "number".toList then "float".toList
      else if s = "boolean".toList then "bool".toList
      else if s = "array".toList then "list".toList
      else if s = "object".toList then "dict[str, T.Any]".toList
      else "T.Any".toList)
  | .list _ => .error .typeError
  | .dict _ => .error .typeError
  | _ => .ok "T.Any".toList

/-- `schema_type_to_python` (lines 277-305). -/
def pyType (prop : Val) : Except PyErr Str := do
  if ← pyIn "enum" prop then return "str".toList
  if ← pyIn "$ref" prop then return "T.Any".toList
  if ← pyIn "type" prop then return ← typeMap (← pyItem "type" prop)
  return "T.Any".toList

/-- `FieldInfo` (lines 53-60); `default` is `""` for required fields and `"OPT"` for others (lines 308-318). -/
structure Field where
  name : Str
  type : Str
  required : Bool

/-- `SchemaInfo` (lines 87-106); the only extra fields are `text` and `version`. -/
structure Info where
  /-- `attrs_fields`; `none` if `has_attrs` is false -/
  attrs : Option (List Field)
  hasContent : Bool
  hasMarks : Bool
  hasText : Bool
  hasVersion : Bool

/-- The loop of lines 370-380. -/
def fieldsOf (required : Val) : List (String × Val) → Except PyErr (List Field)
  | [] => .ok []
  | (k, v) :: d => do
    let r ← pyIn k required
    let t ← pyType v
    let l ← fieldsOf required d
    return ⟨k.toList, t, r⟩ :: l

/-- The order of `(not f.required, f.name)` (line 383). -/
def fieldLe (a b : Field) : Bool :=
  if a.required then (if b.required then decide (a.name ≤ b.name) else true)
  else (if b.required then false else decide (a.name ≤ b.name))

/-- Lines 362-383: the fields of `attrs`. -/
def attrsFields (props : Val) : Except PyErr (Option (List Field)) := do
  if ← pyIn "attrs" props then
    let a ← pyItem "attrs" props
    let required ← pyGet "required" (.list []) a
    if ← pyIn "properties" a then
      match ← pyItem "properties" a with
      | .dict d => return some ((← fieldsOf required d).insertionSort fun x y => fieldLe x y = true)
      | _ => .error .attributeError
    else return some []
  else return none

/-- `extract_schema_info` (lines 324-414) and the schema afterwards. -/
def extract (defs : Defs) (name : Str) : Except PyErr (Info × Defs) := do
  let d ← definition defs name
  let (props, required) ← merged d
  let defs' := putBack (String.ofList name) (.dict (putBack "required" required (putBack "properties" props d))) defs
  let attrs ← attrsFields props
  let c ← pyIn "content" props
  let m ← pyIn "marks" props
  let t ← pyIn "text" props
  let v ← pyIn "version" props
  return (⟨attrs, c, m, t, v⟩, defs')

/-! ## Templates -/

/-- templates/mark.py.jinja2:23-29, node.py.jinja2:23-29: one field of the attrs class. -/
def fieldLine (f : Field) : Str :=
  if f.required then "    ".toList ++ f.name ++ ": ".toList ++ f.type ++ "\n".toList
  else "    ".toList ++ f.name ++ ": ".toList ++ f.type ++ " = OPT\n".toList

/-- templates/mark.py.jinja2:19-32, node.py.jinja2:19-32: the attrs class. -/
def attrsClass (cls : Str) : Option (List Field) → Str
  | none => []
  | some fs => "@dataclasses.dataclass(frozen=True)\nclass ".toList ++ cls ++ "Attrs(Base):\n    \"\"\"Attributes for ".toList ++ cls ++
      ".\"\"\"\n".toList ++ fs.flatMap fieldLine ++ "\n\n".toList

/-- templates/mark.py.jinja2 and node.py.jinja2 (rendered with `trim_blocks`; `has_mixin` is always true); `word` is `Mark` / `Node`,
`bases` the imported base classes. -/
def moduleText (env : Env) (word bases : Str) (n : Names) (i : Info) : Str :=
  "# -*- coding: utf-8 -*-\n\n\"\"\"\nAuto-generated ADF ".toList ++ word ++ ": ".toList ++ n.typeName ++
  "\n\"\"\"\n\nimport typing as T\nimport dataclasses\n\nfrom func_args.api import OPT\n\nfrom ..type_enum import TypeEnum\nfrom ..mixins.".toList ++
  n.moduleName ++ " import ".toList ++ n.className ++ "Mixin\nfrom .base import ".toList ++ bases ++ "\n\n\n".toList ++
  attrsClass n.className i.attrs ++
  "@dataclasses.dataclass(frozen=True)\nclass ".toList ++ n.className ++ "(".toList ++ n.className ++ "Mixin, Base".toList ++ word ++
  "):\n    \"\"\"\n    ADF ".toList ++ word ++ ": ".toList ++ n.typeName ++
  "\n    \"\"\"\n\n    type: str = dataclasses.field(default=TypeEnum.".toList ++ n.typeEnum.pyStr env ++ ".value)\n".toList ++
  (if i.attrs.isSome then "    attrs: ".toList ++ n.className ++ "Attrs = OPT\n".toList else [])

/-- templates/node.py.jinja2:43-51: the fields only nodes have. -/
def nodeFields (i : Info) : Str :=
  (if i.hasContent then "    content: T.List[BaseNode] = OPT\n".toList else []) ++
  (if i.hasMarks then "    marks: T.List[BaseMark] = OPT\n".toList else []) ++
  (if i.hasText then "    text: str = OPT\n".toList else []) ++
  (if i.hasVersion then "    version: int = dataclasses.field(default=1)\n".toList else [])

/-- `generate_mark_file` (lines 420-438). -/
def markText (env : Env) (n : Names) (i : Info) : Str := moduleText env "Mark".toList "Base, BaseMark".toList n i

/-- `generate_node_file` (lines 441-469). -/
def nodeText (env : Env) (n : Names) (i : Info) : Str :=
  moduleText env "Node".toList "Base, BaseMark, BaseNode".toList n i ++ nodeFields i

def rule : Str := "# =============================================================================\n".toList

/-- `from .{{ module_name }} import {{ class_name }}` (templates/parse.py.jinja2:18-20, 25-27). -/
def importLine (n : Names) : Str := "from .".toList ++ n.moduleName ++ " import ".toList ++ n.className ++ "\n".toList

/-- `"{{ type_enum }}": {{ class_name }},` (templates/parse.py.jinja2:33-35, 50-52). -/
def entryLine (env : Env) (n : Names) : Str := "    \"".toList ++ n.typeEnum.pyStr env ++ "\": ".toList ++ n.className ++ ",\n".toList

/-- `generate_parse_file` (lines 472-480), templates/parse.py.jinja2. -/
def parseText (env : Env) (marks nodes : List Names) : Str :=
  "# -*- coding: utf-8 -*-\n\n\"\"\"\nAuto-generated ADF Parser\n\nThis module provides functions to parse ADF JSON into Python objects.\n\"\"\"\n\n".toList ++
  "import typing as T\nfrom ..type_hint import T_DATA\n\nif T.TYPE_CHECKING:  # pragma: no cover\n    from .base import T_MARK, T_NODE\n\n".toList ++
  rule ++ "# Mark imports\n".toList ++ rule ++ marks.flatMap importLine ++ "\n".toList ++
  rule ++ "# Node imports\n".toList ++ rule ++ nodes.flatMap importLine ++ "\n".toList ++
  rule ++ "# Mark registry\n".toList ++ rule ++ "_mark_type_to_class_mapping = {\n".toList ++ marks.flatMap (entryLine env) ++
  "}\n\n\ndef parse_mark(dct: T_DATA) -> \"T_MARK\":\n    \"\"\"Parse a mark dictionary into a Mark object.\"\"\"\n    type_ = dct[\"type\"]\n    klass = _mark_type_to_class_mapping[type_]\n    return klass.from_dict(dct)\n\n\n".toList ++
  rule ++ "# Node registry\n".toList ++ rule ++ "_node_type_to_class_mapping = {\n".toList ++ nodes.flatMap (entryLine env) ++
  "}\n\n\ndef parse_node(dct: T_DATA) -> \"T_NODE\":\n    \"\"\"Parse a node dictionary into a Node object.\"\"\"\n    type_ = dct[\"type\"]\n    klass = _node_type_to_class_mapping[type_]\n    return klass.from_dict(dct)".toList

/-- `generate_mixin_stub` (lines 483-490), templates/mixin_mark.py.jinja2, mixin_node.py.jinja2. -/
def stubText (k : Kind) (n : Names) : Str :=
  let word := match k with | .mark => "Mark".toList | .node => "Node".toList
  "# -*- coding: utf-8 -*-\n\n\"\"\"\nMixin for ADF ".toList ++ word ++ ": ".toList ++ n.typeName ++
  "\n\nThis file is NOT auto-generated. Implement to_markdown() method here.\n\"\"\"\n\nimport typing as T\n\nif T.TYPE_CHECKING:  # pragma: no cover\n    from ..nodes.".toList ++
  n.moduleName ++ " import ".toList ++ n.className ++ "\n\n\nclass ".toList ++ n.className ++ "Mixin:\n    def to_markdown(self: \"".toList ++
  n.className ++
  (match k with
   | .mark => "\", text: str) -> str:\n        # TODO: Implement markdown conversion\n        return text".toList
   | .node => "\") -> str:\n        # TODO: Implement markdown conversion\n        return \"\"".toList)

/-! ## `main` -/

/-- What `main` does to the files, in order. -/
inductive Act where
  /-- nodes/`file` is written -/
  | write (file content : Str)
  /-- mixins/`file` is written unless it exists; the text is generated only then -/
  | stub (file : Str) (content : Except PyErr Str)

/-- `f"{module_name}.py"` -/
def fileName (n : Names) : Str := n.moduleName ++ ".py".toList

/-- One round of the loops of lines 514-531, 535-552: names, content, and the schema afterwards. -/
def genFile (env : Env) (k : Kind) (defs : Defs) (name : Str) : Except PyErr (Names × Str × Defs) := do
  let (n, defs) ← namesOf defs name
  let (i, defs) ← extract defs name
  match k with
  | .mark => return (n, markText env n i, defs)
  | .node => return (n, nodeText env n i, defs)

/-- A loop of `main`: what is written, and how the loop ends. -/
def genFiles (env : Env) (k : Kind) : Defs → List Str → List Act × Except PyErr (List Names × Defs)
  | defs, [] => ([], .ok ([], defs))
  | defs, name :: l =>
    match genFile env k defs name with
    | .error e => ([], .error e)
    | .ok (n, content, defs') =>
      let r := genFiles env k defs' l
      (.write (fileName n) content :: r.1, r.2.map fun x => (n :: x.1, x.2))

/-- `def_name_to_names(f"{info['type_name']}_mark")` and the text of the stub (lines 570-571, 582-583). The schema was modified
before in the way this call would (`Lemmas.NodeGen`), so it is not passed on. -/
def stubAct (k : Kind) (defs : Defs) (n : Names) : Act :=
  let suffix := match k with | .mark => "_mark".toList | .node => "_node".toList
  .stub (fileName n) ((namesOf defs (n.typeName ++ suffix)).map fun r => stubText k r.1)

/-- `main` (lines 496-593): what it does to the files, and whether it raises at the end. -/
def plan (env : Env) (defs : Defs) : List Act × Option PyErr :=
  let marks := genFiles env .mark defs (markDefs defs)
  match marks.2 with
  | .error e => (marks.1, some e)
  | .ok (ms, defs1) =>
    let nodes := genFiles env .node defs1 (nodeDefs defs)
    match nodes.2 with
    | .error e => (marks.1 ++ nodes.1, some e)
    | .ok (ns, defs2) =>
      (marks.1 ++ nodes.1 ++ [.write "parse.py".toList (parseText env ms ns)] ++ ms.map (stubAct .mark defs2) ++
        ns.map (stubAct .node defs2), none)

/-- `adf_json_schema.data["definitions"]` after `main` has generated everything (lines 514-552): the loaded schema is modified by
`props.update` and `top_required.extend` (lines 132, 358, 360). `none`: `main` raises. -/
def schemaAfter (env : Env) (defs : Defs) : Option Defs :=
  match (genFiles env .mark defs (markDefs defs)).2 with
  | .error _ => none
  | .ok (_, defs1) =>
    match (genFiles env .node defs1 (nodeDefs defs)).2 with
    | .error _ => none
    | .ok (_, defs2) => some defs2

end Verif.NodeGen
