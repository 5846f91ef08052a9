import Verif.Spec.Registry
import Verif.Model.FromDict
/-!
# Specifications for parsing: pruning, expected warnings, required fields
-/

namespace Verif.Spec
open Verif

mutual
/-- A JSON node with every unsupported element removed from its `content` and `marks` lists, at
every depth. -/
def prune : Val → Val
  | .dict d => .dict (pruneDict d)
  | v => v

def pruneDict : List (String × Val) → List (String × Val)
  | [] => []
  | (k, .list l) :: rest =>
    (k, if k = "content" then .list (pruneList l)
        else if k = "marks" then .list (l.filter registeredMark)
        else .list l) :: pruneDict rest
  | (k, v) :: rest => (k, v) :: pruneDict rest

def pruneList : List Val → List Val
  | [] => []
  | v :: vs => if registeredNode v then prune v :: pruneList vs else pruneList vs
end

mutual
/-- The warnings expected from parsing a JSON node: for each entry of `content`, in order, its own
warnings if it is supported, else one warning naming its type; then one warning per unsupported
mark. -/
def warnings : Val → List Warn
  | .dict d =>
    contentWarnings d ++
      (match lookupKey d "marks" with
       | some (.list l) =>
         l.filterMap fun m =>
           if registeredMark m then none else some ⟨(typeOf m).getD .none, "mark"⟩
       | _ => [])
  | _ => []

def contentWarnings : List (String × Val) → List Warn
  | [] => []
  | (k, .list l) :: rest => if k = "content" then listWarnings l else contentWarnings rest
  | (k, _) :: rest => if k = "content" then [] else contentWarnings rest

def listWarnings : List Val → List Warn
  | [] => []
  | v :: vs =>
    (if registeredNode v then warnings v else [⟨(typeOf v).getD .none, "node"⟩]) ++ listWarnings vs
end

/-- The keys that must be present in a node's JSON object, by class. -/
def requiredKeys : NodeCls → List String
  | .text => ["text"]
  | .doc | .bulletList | .orderedList | .listItem | .mediaGroup | .blockquote | .expand
  | .tableCell | .tableHeader | .tableRow | .table => ["content"]
  | .taskList | .decisionList | .panel | .nestedExpand => ["attrs", "content"]
  | .taskItem | .decisionItem | .emoji | .date | .mention | .status | .heading | .inlineCard
  | .blockCard | .media | .embedCard | .extension | .mediaInline => ["attrs"]
  | .rule | .paragraph | .hardBreak | .codeBlock | .mediaSingle | .caption => []

/-- The keys that must be present in a node's `attrs` object; `none`: the class ignores `attrs`. -/
def requiredAttrs : NodeCls → Option (List String)
  | .doc | .text | .bulletList | .mediaGroup => none
  | .taskItem | .decisionItem => some ["localId", "state"]
  | .taskList | .decisionList => some ["localId"]
  | .emoji => some ["shortName"]
  | .date => some ["timestamp"]
  | .mention => some ["id"]
  | .status => some ["text", "color"]
  | .heading => some ["level"]
  | .media => some ["type"]
  | .embedCard => some ["url", "layout"]
  | .extension => some ["extensionKey", "extensionType"]
  | .mediaInline => some ["id", "collection"]
  | .panel => some ["panelType"]
  | .rule | .listItem | .orderedList | .paragraph | .hardBreak | .codeBlock | .inlineCard
  | .blockCard | .mediaSingle | .caption | .blockquote | .expand | .nestedExpand | .tableCell
  | .tableHeader | .tableRow | .table => some []

/-- The keys that must be present in a mark's `attrs` object; `none`: the class ignores `attrs`
(all others require `attrs` itself). -/
def requiredMarkAttrs : MarkCls → Option (List String)
  | .code | .em | .strike | .strong | .underline => none
  | .alignment => some ["align"]
  | .annotation => some ["id", "annotationType"]
  | .backgroundColor | .textColor => some ["color"]
  | .border => some ["size", "color"]
  | .breakout => some ["mode"]
  | .dataConsumer => some ["sources"]
  | .fragment => some ["localId"]
  | .indentation => some ["level"]
  | .link => some ["href"]
  | .subsup => some ["type"]

/-- An attrs value satisfies the class: it is an object with all required keys. -/
def attrsOk (req : Option (List String)) (d : List (String × Val)) : Prop :=
  ∀ ks, req = some ks → ∀ a, lookupKey d "attrs" = some a →
    ∃ ad, a = .dict ad ∧ ∀ k ∈ ks, (lookupKey ad k).isSome

/-- `x` is `n` or a descendant of `n`. -/
inductive Within (n : Node) : Node → Prop where
  | self : Within n n
  | child {x y : Node} {l : List Node} : Within n x → x.content = .val l → y ∈ l → Within n y

end Verif.Spec
