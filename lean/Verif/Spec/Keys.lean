import Verif.Spec.Parse
/-!
# Specification: which JSON keys each class knows, and adding keys no class knows
-/

namespace Verif.Spec
open Verif

/-- Keys of a node's JSON object that its class knows but does not require (besides `type`). -/
def optionalKeys : NodeCls → List String
  | .doc => ["version"]
  | .text => ["marks"]
  | .bulletList | .mediaGroup | .taskList | .decisionList | .emoji | .date | .mention | .status
  | .inlineCard | .blockCard | .embedCard | .panel | .nestedExpand => []
  | .rule | .listItem | .orderedList | .hardBreak | .blockquote | .expand | .tableCell
  | .tableHeader | .tableRow => ["attrs"]
  | .paragraph | .mediaSingle => ["attrs", "content", "marks"]
  | .taskItem | .decisionItem => ["content"]
  | .heading => ["content", "marks"]
  | .codeBlock | .caption => ["attrs", "content"]
  | .media | .extension | .mediaInline => ["marks"]
  | .table => ["attrs", "marks"]

/-- All keys the class knows. -/
def nodeKeys (c : NodeCls) : List String := "type" :: requiredKeys c ++ optionalKeys c

/-- Keys of a node's `attrs` object that its class knows but does not require. -/
def optionalAttrs : NodeCls → List String
  | .doc | .text | .bulletList | .mediaGroup | .taskItem | .decisionItem | .taskList
  | .decisionList => []
  | .rule | .listItem | .paragraph | .date | .heading | .caption | .blockquote
  | .tableRow => ["localId"]
  | .orderedList => ["order", "localId"]
  | .emoji => ["id", "text", "localId"]
  | .hardBreak => ["text", "localId"]
  | .mention => ["localId", "text", "accessLevel", "userType"]
  | .status => ["localId", "style"]
  | .codeBlock => ["language", "uniqueId", "localId"]
  | .inlineCard => ["url", "data", "localId"]
  | .blockCard => ["url", "localId", "datasource", "width", "layout", "data"]
  | .media => ["id", "collection", "url", "localId", "alt", "width", "height", "occurrenceKey"]
  | .mediaSingle => ["layout", "width", "widthType", "localId"]
  | .embedCard => ["width", "originalHeight", "originalWidth", "localId"]
  | .extension => ["parameters", "text", "layout", "localId"]
  | .mediaInline => ["type", "localId", "alt", "occurrenceKey", "width", "height", "data"]
  | .panel => ["panelIcon", "panelIconId", "panelIconText", "panelColor", "localId"]
  | .expand | .nestedExpand => ["title", "localId"]
  | .tableCell | .tableHeader => ["colspan", "rowspan", "colwidth", "background", "localId"]
  | .table => ["displayMode", "isNumberColumnEnabled", "layout", "localId", "width"]

/-- All keys of the `attrs` object the class knows. -/
def attrKeys (c : NodeCls) : List String := (requiredAttrs c).getD [] ++ optionalAttrs c

/-- Keys of a mark's `attrs` object that its class knows but does not require. -/
def optionalMarkAttrs : MarkCls → List String
  | .link => ["title", "id", "collection", "occurrenceKey"]
  | .breakout => ["width"]
  | .fragment => ["name"]
  | _ => []

/-- All keys of the `attrs` object the mark class knows. -/
def markAttrKeys (c : MarkCls) : List String := (requiredMarkAttrs c).getD [] ++ optionalMarkAttrs c

/-! ## Adding unknown keys -/

/-- No node class knows the key. -/
def unknownNodeKey (k : String) : Prop := ∀ c, k ∉ nodeKeys c

/-- No node class knows the key inside `attrs`. -/
def unknownNodeAttr (k : String) : Prop := ∀ c, k ∉ attrKeys c

/-- No mark class knows the key (marks have `type` and possibly `attrs`). -/
def unknownMarkKey (k : String) : Prop := k ≠ "type" ∧ k ≠ "attrs"

/-- No mark class knows the key inside `attrs`. -/
def unknownMarkAttr (k : String) : Prop := ∀ c, k ∉ markAttrKeys c

/-- One unknown key added somewhere to a mark. -/
inductive AddMarkKey : Val → Val → Prop where
  | here (pre post : List (String × Val)) (k : String) (x : Val) : unknownMarkKey k →
      AddMarkKey (.dict (pre ++ post)) (.dict (pre ++ (k, x) :: post))
  | attrs (pre post apre apost : List (String × Val)) (k : String) (x : Val) : unknownMarkAttr k →
      AddMarkKey (.dict (pre ++ ("attrs", .dict (apre ++ apost)) :: post))
        (.dict (pre ++ ("attrs", .dict (apre ++ (k, x) :: apost)) :: post))

/-- One unknown key added somewhere to a node, at any depth. -/
inductive AddNodeKey : Val → Val → Prop where
  | here (pre post : List (String × Val)) (k : String) (x : Val) : unknownNodeKey k →
      AddNodeKey (.dict (pre ++ post)) (.dict (pre ++ (k, x) :: post))
  | attrs (pre post apre apost : List (String × Val)) (k : String) (x : Val) : unknownNodeAttr k →
      AddNodeKey (.dict (pre ++ ("attrs", .dict (apre ++ apost)) :: post))
        (.dict (pre ++ ("attrs", .dict (apre ++ (k, x) :: apost)) :: post))
  | marks (pre post : List (String × Val)) (l₁ l₂ : List Val) (m m' : Val) : AddMarkKey m m' →
      AddNodeKey (.dict (pre ++ ("marks", .list (l₁ ++ m :: l₂)) :: post))
        (.dict (pre ++ ("marks", .list (l₁ ++ m' :: l₂)) :: post))
  | content (pre post : List (String × Val)) (l₁ l₂ : List Val) (v v' : Val) : AddNodeKey v v' →
      AddNodeKey (.dict (pre ++ ("content", .list (l₁ ++ v :: l₂)) :: post))
        (.dict (pre ++ ("content", .list (l₁ ++ v' :: l₂)) :: post))

/-- Any number of unknown keys added. -/
inductive AddNodeKeys : Val → Val → Prop where
  | none (v : Val) : AddNodeKeys v v
  | more {u v v' : Val} : AddNodeKeys u v → AddNodeKey v v' → AddNodeKeys u v'

/-! ## The order of keys -/

/-- Two neighbouring entries, with different keys, of a mark's JSON object or of its `attrs` change
places. -/
inductive SwapMarkKeys : Val → Val → Prop where
  | here (pre post : List (String × Val)) (a b : String × Val) : a.1 ≠ b.1 →
      SwapMarkKeys (.dict (pre ++ a :: b :: post)) (.dict (pre ++ b :: a :: post))
  | attrs (pre post apre apost : List (String × Val)) (a b : String × Val) : a.1 ≠ b.1 →
      SwapMarkKeys (.dict (pre ++ ("attrs", .dict (apre ++ a :: b :: apost)) :: post))
        (.dict (pre ++ ("attrs", .dict (apre ++ b :: a :: apost)) :: post))

/-- Two neighbouring entries, with different keys, change places in a node's JSON object, in its `attrs`,
in one of its marks, or in a node below it. -/
inductive SwapNodeKeys : Val → Val → Prop where
  | here (pre post : List (String × Val)) (a b : String × Val) : a.1 ≠ b.1 →
      SwapNodeKeys (.dict (pre ++ a :: b :: post)) (.dict (pre ++ b :: a :: post))
  | attrs (pre post apre apost : List (String × Val)) (a b : String × Val) : a.1 ≠ b.1 →
      SwapNodeKeys (.dict (pre ++ ("attrs", .dict (apre ++ a :: b :: apost)) :: post))
        (.dict (pre ++ ("attrs", .dict (apre ++ b :: a :: apost)) :: post))
  | marks (pre post : List (String × Val)) (l₁ l₂ : List Val) (m m' : Val) : SwapMarkKeys m m' →
      SwapNodeKeys (.dict (pre ++ ("marks", .list (l₁ ++ m :: l₂)) :: post))
        (.dict (pre ++ ("marks", .list (l₁ ++ m' :: l₂)) :: post))
  | content (pre post : List (String × Val)) (l₁ l₂ : List Val) (v v' : Val) : SwapNodeKeys v v' →
      SwapNodeKeys (.dict (pre ++ ("content", .list (l₁ ++ v :: l₂)) :: post))
        (.dict (pre ++ ("content", .list (l₁ ++ v' :: l₂)) :: post))

/-- The same JSON up to the order of keys in nodes, attrs and marks. -/
inductive SameKeys : Val → Val → Prop where
  | same (v : Val) : SameKeys v v
  | more {u v v' : Val} : SameKeys u v → SwapNodeKeys v v' → SameKeys u v'

/-! ## Plain JSON -/

mutual
/-- The value is plain JSON: no sentinel anywhere in it. -/
def plain : Val → Bool
  | .opt => false
  | .list l => plainList l
  | .dict d => plainDict d
  | _ => true

def plainList : List Val → Bool
  | [] => true
  | v :: vs => plain v && plainList vs

def plainDict : List (String × Val) → Bool
  | [] => true
  | (_, v) :: rest => plain v && plainDict rest
end

end Verif.Spec
