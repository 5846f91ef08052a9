import Verif.Spec.Registry
import Verif.Model.FromDict
/-!
# Specification: documents that follow the published ADF reference

Transcribed from /repo/scripts/crawl_atlas_doc_reference/Atlassian-Document-Format-Reference.md (one row
per node section, "Fields" and "Content"), not from the library's classes.  Other keys may be present.
Not transcribed: the limits on combining marks (so more documents count as valid here than there).
The reference lists `mediaInline` and the mark `border` without describing them, and uses the mark
`annotation` in an example; their rows follow the official JSON schema.  It lists `multiBodiedExtension` and `extensionFrame` without describing them: any
object of these types is accepted.
-/

namespace Verif.Spec.Ref
open Verif

/-- Types of field values. -/
inductive Ty where
  | string | nonEmpty | uri | bool | number | object
  /-- an integer of at least this value -/
  | intFrom (lo : Int)
  | intBetween (lo hi : Int)
  /-- an array of non-negative integers -/
  | widths
  | oneOf (l : List String)

/-- The value is of the type. -/
def Ty.Fits : Ty → Val → Prop
  | .string, v => ∃ s, v = .str s
  | .nonEmpty, v => ∃ s, v = .str s ∧ s ≠ []
  | .uri, v => ∃ s, v = .str s ∧ '\n' ∉ s
  | .bool, v => ∃ b, v = .bool b
  | .number, v => (∃ i, v = .int i) ∨ ∃ r, v = .float r
  | .object, v => ∃ d, v = .dict d
  | .intFrom lo, v => ∃ i, v = .int i ∧ lo ≤ i
  | .intBetween lo hi, v => ∃ i, v = .int i ∧ lo ≤ i ∧ i ≤ hi
  | .widths, v => ∃ l, v = .list l ∧ ∀ x ∈ l, ∃ i, x = .int i ∧ 0 ≤ i
  | .oneOf l, v => ∃ s ∈ l, v = .str s.toList

/-- One row of a "Fields" table. -/
structure Fld where
  name : String
  required : Bool
  ty : Ty

/-- A required field. -/
def req (name : String) (ty : Ty) : Fld := ⟨name, true, ty⟩
/-- An optional field. -/
def opt (name : String) (ty : Ty) : Fld := ⟨name, false, ty⟩

/-- The object follows the row. -/
def Fld.Ok (f : Fld) (d : List (String × Val)) : Prop :=
  (f.required = true → (lookupKey d f.name).isSome) ∧ ∀ v, lookupKey d f.name = some v → f.ty.Fits v

/-- A node section. -/
structure Row where
  /-- fields besides `type`, `attrs`, `content` and `marks` -/
  own : List Fld := []
  attrs : List Fld := []
  needsAttrs : Bool := false
  /-- types of the children -/
  kids : List String := []
  needsContent : Bool := false
  /-- how many children at least -/
  atLeast : Nat := 0
  marks : List String := []

/-- Inline nodes. -/
def inline : List String :=
  ["date", "emoji", "hardBreak", "inlineCard", "mention", "status", "text", "mediaInline"]

/-- Top-level block nodes. -/
def topLevel : List String :=
  ["blockquote", "bulletList", "codeBlock", "expand", "heading", "mediaGroup", "mediaSingle", "orderedList",
   "panel", "paragraph", "rule", "table", "multiBodiedExtension"]

/-- What a table cell may contain. -/
def inCell : List String :=
  ["blockquote", "bulletList", "codeBlock", "heading", "mediaGroup", "nestedExpand", "orderedList", "panel",
   "paragraph", "rule"]

/-- Attributes of table cells. -/
def cellAttrs : List Fld :=
  [opt "background" .string, opt "colspan" (.intFrom 1), opt "colwidth" .widths, opt "rowspan" (.intFrom 1)]

/-- The marks. -/
def markRows : List (String × List Fld) :=
  [("annotation", [req "id" .string, req "annotationType" .string]),
   ("backgroundColor", [req "color" .string]), ("border", [req "size" (.intFrom 1), req "color" .string]),
   ("code", []), ("em", []),
   ("link", [req "href" .uri, opt "title" .string, opt "collection" .string, opt "id" .string,
     opt "occurrenceKey" .string]),
   ("strike", []), ("strong", []), ("subsup", [req "type" (.oneOf ["sub", "sup"])]),
   ("textColor", [req "color" .string]), ("underline", [])]

/-- The nodes. -/
def rows : List (String × Row) :=
  [("doc", { own := [req "version" (.intBetween 1 1)], kids := topLevel, needsContent := true }),
   ("blockquote", {
      kids := ["paragraph", "bulletList", "orderedList", "codeBlock", "mediaGroup", "mediaSingle"],
      needsContent := true, atLeast := 1 }),
   ("bulletList", { kids := ["listItem"], needsContent := true, atLeast := 1 }),
   ("codeBlock", { attrs := [opt "language" .string], kids := ["text"] }),
   ("date", { attrs := [req "timestamp" .string], needsAttrs := true }),
   ("emoji", {
      attrs := [opt "id" .string, req "shortName" .string, opt "text" .string], needsAttrs := true }),
   ("expand", {
      attrs := [opt "title" .string], needsAttrs := true, needsContent := true, atLeast := 1, kids :=
      ["bulletList", "blockquote", "codeBlock", "heading", "mediaGroup", "mediaSingle", "orderedList",
      "panel", "paragraph", "rule", "table", "multiBodiedExtension", "extensionFrame", "nestedExpand"],
      marks := markRows.map Prod.fst }),
   ("hardBreak", { attrs := [opt "text" (.oneOf ["\n"])] }),
   ("heading", {
      attrs := [req "level" (.intBetween 1 6), opt "localId" .string], needsAttrs := true, kids := inline }),
   ("inlineCard", { attrs := [opt "data" .object, opt "url" .uri], needsAttrs := true }),
   ("listItem", {
      kids := ["bulletList", "codeBlock", "mediaSingle", "orderedList", "paragraph"], needsContent := true,
      atLeast := 1 }),
   ("media", {
      attrs := [opt "width" (.intFrom 1), opt "height" (.intFrom 1), req "id" .string, req "type" (.oneOf
      ["file", "link"]), req "collection" .string, opt "occurrenceKey" .nonEmpty], needsAttrs := true,
      marks := ["border", "link", "annotation"] }),
   ("mediaGroup", { kids := ["media"], needsContent := true, atLeast := 1 }),
   ("mediaInline", {
      attrs := [req "id" .string, req "collection" .string], needsAttrs := true,
      marks := ["border", "link", "annotation"] }),
   ("mediaSingle", {
      attrs := [req "layout" (.oneOf ["wrap-left", "center", "wrap-right", "wide", "full-width",
      "align-start", "align-end"]), opt "width" .number, opt "widthType" (.oneOf ["pixel",
      "percentage"])], needsAttrs := true, kids := ["media"], needsContent := true, atLeast := 1 }),
   ("mention", {
      attrs := [opt "accessLevel" (.oneOf ["NONE", "SITE", "APPLICATION", "CONTAINER"]), req "id" .string,
      opt "text" .string, opt "userType" (.oneOf ["DEFAULT", "SPECIAL", "APP"])], needsAttrs := true }),
   ("nestedExpand", {
      attrs := [opt "title" .string], needsAttrs := true, kids := ["paragraph", "heading", "mediaGroup",
      "mediaSingle"], needsContent := true, atLeast := 1 }),
   ("orderedList", {
      attrs := [opt "order" (.intFrom 0)], kids := ["listItem"], needsContent := true, atLeast := 1 }),
   ("panel", {
      attrs := [req "panelType" (.oneOf ["info", "note", "warning", "success", "error"])], needsAttrs :=
      true, kids := ["bulletList", "heading", "orderedList", "paragraph"], needsContent := true, atLeast
      := 1 }),
   ("paragraph", { attrs := [opt "localId" .string], kids := inline }),
   ("rule", {}),
   ("status", {
      attrs := [opt "localId" .string, req "text" .string, req "color" (.oneOf ["neutral", "purple", "blue",
      "red", "yellow", "green"])], needsAttrs := true }),
   ("table", {
      attrs := [opt "isNumberColumnEnabled" .bool, opt "width" .number, opt "layout" (.oneOf ["center",
      "align-start"]), opt "displayMode" (.oneOf ["default", "fixed"])], kids := ["tableRow"],
      needsContent := true, atLeast := 1 }),
   ("tableCell", { attrs := cellAttrs, kids := inCell, needsContent := true, atLeast := 1 }),
   ("tableHeader", { attrs := cellAttrs, kids := inCell, needsContent := true, atLeast := 1 }),
   ("tableRow", { kids := ["tableHeader", "tableCell"], needsContent := true, atLeast := 1 }),
   ("text", {
      own := [req "text" .nonEmpty], marks := ["code", "em", "link", "strike", "strong", "subsup",
      "textColor", "underline", "backgroundColor"] })]

/-- Types the reference lists without describing them. -/
def undescribed : List String := ["multiBodiedExtension", "extensionFrame"]

/-- The value is an object of this type. -/
def OfType (t : String) (v : Val) : Prop := typeOf v = some (.str t.toList)

/-- A mark of one of these types. -/
def MarkOk (ts : List String) (v : Val) : Prop :=
  ∃ t ∈ ts, ∃ fs, (t, fs) ∈ markRows ∧ OfType t v ∧
    (fs ≠ [] → ∃ d ad, v = .dict d ∧ lookupKey d "attrs" = some (.dict ad) ∧ ∀ f ∈ fs, f.Ok ad)

/-- The object follows its section, apart from what its children must be like. -/
structure Row.Ok (row : Row) (d : List (String × Val)) : Prop where
  own : ∀ f ∈ row.own, f.Ok d
  attrsGiven : row.needsAttrs = true → (lookupKey d "attrs").isSome
  attrs : ∀ a, lookupKey d "attrs" = some a → ∃ ad, a = .dict ad ∧ ∀ f ∈ row.attrs, f.Ok ad
  contentGiven : row.needsContent = true → (lookupKey d "content").isSome
  content : ∀ c, lookupKey d "content" = some c →
    ∃ l, c = .list l ∧ row.atLeast ≤ l.length ∧ ∀ k ∈ l, ∃ t ∈ row.kids, OfType t k
  marks : ∀ m, lookupKey d "marks" = some m → ∃ l, m = .list l ∧ ∀ k ∈ l, MarkOk row.marks k

/-- `data` or `url`, not both. -/
def CardOk (d : List (String × Val)) : Prop :=
  ∀ ad, lookupKey d "attrs" = some (.dict ad) →
    ((lookupKey ad "data").isSome ∧ lookupKey ad "url" = none) ∨
    (lookupKey ad "data" = none ∧ (lookupKey ad "url").isSome)

/-- A node that follows the reference; nodes of the undescribed types `u` may occur in it. -/
inductive Valid (u : List String) : Val → Prop where
  | described (t : String) (row : Row) (d : List (String × Val)) (known : (t, row) ∈ rows)
      (type : OfType t (.dict d)) (ok : row.Ok d) (card : t = "inlineCard" → CardOk d)
      (children : ∀ l, lookupKey d "content" = some (.list l) → ∀ k ∈ l, Valid u k) :
      Valid u (.dict d)
  | undescribed (t : String) (v : Val) (known : t ∈ u) (type : OfType t v) : Valid u v

/-- A document that follows the reference. -/
def ValidDoc (v : Val) : Prop := Valid undescribed v ∧ OfType "doc" v

/-- A document that follows the reference and contains described nodes only. -/
def DescribedDoc (v : Val) : Prop := Valid [] v ∧ OfType "doc" v

/-- The object stands for the JSON node and for all that is below it: class, text and, in order, children. -/
inductive Whole : Val → Node → Prop where
  | node (d : List (String × Val)) (n : Node) (t : String) (type : OfType t (.dict d))
      (cls : (t, n.cls) ∈ nodeTypes)
      (text : t = "text" → n.hd.text = lookupKey d "text")
      (length : ∀ l, lookupKey d "content" = some (.list l) → l ≠ [] →
        ∃ kids, n.content = .val kids ∧ kids.length = l.length)
      (children : ∀ l kids (i : Nat) v k, lookupKey d "content" = some (.list l) → n.content = .val kids →
        l[i]? = some v → kids[i]? = some k → Whole v k) :
      Whole (.dict d) n

/-! ## Documents with described fields only -/

/-- Names of the fields. -/
def fieldNames (fs : List Fld) : List String := fs.map (·.name)

/-- The keys a section describes. -/
def Row.keys (row : Row) : List String :=
  "type" :: fieldNames row.own ++ (if row.attrs.isEmpty then [] else ["attrs"]) ++
    (if row.kids.isEmpty then [] else ["content"]) ++ (if row.marks.isEmpty then [] else ["marks"])

/-- A mark with described fields only. -/
def StrictMark (v : Val) : Prop :=
  ∃ t fs d, (t, fs) ∈ markRows ∧ OfType t (.dict d) ∧ v = .dict d ∧
    (∀ k, (lookupKey d k).isSome → k = "type" ∨ (k = "attrs" ∧ fs ≠ [])) ∧
    ∀ ad, lookupKey d "attrs" = some (.dict ad) → ∀ k, (lookupKey ad k).isSome → k ∈ fieldNames fs

/-- A node with described fields only, at every depth. -/
inductive Strict : Val → Prop where
  | node (t : String) (row : Row) (d : List (String × Val)) (known : (t, row) ∈ rows)
      (type : OfType t (.dict d)) (keys : ∀ k, (lookupKey d k).isSome → k ∈ row.keys)
      (attrs : ∀ ad, lookupKey d "attrs" = some (.dict ad) → ∀ k, (lookupKey ad k).isSome → k ∈ fieldNames row.attrs)
      (marks : ∀ l, lookupKey d "marks" = some (.list l) → ∀ m ∈ l, StrictMark m)
      (children : ∀ l, lookupKey d "content" = some (.list l) → ∀ k ∈ l, Strict k) : Strict (.dict d)

/-- `x` is the JSON node `v` or a node below it. -/
inductive Under (v : Val) : Val → Prop where
  | here : Under v v
  | child {d : List (String × Val)} {l : List Val} {k : Val} (h : Under v (.dict d))
      (hl : lookupKey d "content" = some (.list l)) (hk : k ∈ l) : Under v k

/-- No `expand` has marks. -/
def NoExpandMarks (v : Val) : Prop :=
  ∀ d, Under v (.dict d) → OfType "expand" (.dict d) → lookupKey d "marks" = none

/-- Every link has all the attributes of the reference. -/
def FullLinks (v : Val) : Prop :=
  ∀ d, Under v (.dict d) → ∀ l, lookupKey d "marks" = some (.list l) → ∀ m ∈ l, OfType "link" m →
    ∃ md ad, m = .dict md ∧ lookupKey md "attrs" = some (.dict ad) ∧
      ∀ k ∈ ["href", "title", "collection", "id", "occurrenceKey"], (lookupKey ad k).isSome

end Verif.Spec.Ref
