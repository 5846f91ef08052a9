import Verif.Model.Markdown
import Verif.Model.ToDict
import Verif.Model.Json
import Verif.Lemmas.Samples
/-!
# The model against the project's own test data

Generated by tools/conform.py from atlas_doc_parser/tests/data/samples.py and tests/adf_samples/*.json: for every sample, what
`AdfSample.test` (samples.py:139-168, tests/helper.py:52-103) asserts. These are tests of the model, not theorems about the code.
-/

namespace Verif.Conform
open Verif

/-- `check_seder` (tests/helper.py:52-83): `to_dict`, `from_dict` and `to_dict` again; values are compared by their JSON text. -/
def seder (n : Node) : Bool :=
  match n.toDict with
  | .ok d => match (parseNode true d).out with
    | .ok n' => match n'.toDict with
      | .ok d' => Json.dumps none d == Json.dumps none d'
      | _ => false
    | _ => false
  | _ => false

/-- `check_markdown` (tests/helper.py:86-103). -/
def markdown (n : Node) (expected : String) : Bool :=
  match n.toMarkdown Samples.env false with
  | .ok (.str s) => Str.strip s == expected.toList
  | _ => false

/-- `AdfSample.test` of a node. -/
def node (v : Val) (expected : Option String) : Bool :=
  match (parseNode true v).out with
  | .ok n => seder n && match expected with | some e => markdown n e | none => true
  | _ => false

/-- `AdfSample.test` of a mark. -/
def mark (v : Val) : Bool :=
  match parseMark v with
  | .ok m => match parseMark m.toDict with
    | .ok m' => Json.dumps none m.toDict == Json.dumps none m'.toDict
    | _ => false
  | _ => false

end Verif.Conform
