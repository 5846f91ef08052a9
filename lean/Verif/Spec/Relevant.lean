import Mathlib.Data.List.Forall2
import Verif.Spec.Preserve
/-!
# Specification: what the Markdown depends on
-/

namespace Verif.Spec
open Verif

/-- The attributes that may influence a node's Markdown. -/
def readAttrs : NodeCls → List String
  | .orderedList => ["order"]
  | .taskItem => ["state"]
  | .emoji => ["text", "shortName"]
  | .date => ["timestamp"]
  | .mention | .status => ["text"]
  | .heading => ["level"]
  | .codeBlock => ["language"]
  | .inlineCard | .blockCard | .embedCard => ["url"]
  | .media => ["type", "url", "alt", "id"]
  | .extension => ["extensionKey", "extensionType", "text"]
  | .panel => ["panelType"]
  | _ => []

/-- The same values under these names. -/
def AttrsAgree (names : List String) (a b : Slot AttrsObj) : Prop :=
  names = [] ∨ a = b ∨
  ∃ x y, a = .val x ∧ b = .val y ∧ ∀ k ∈ names, lookupKey x.fields k = lookupKey y.fields k

/-- The attributes that may influence a mark's Markdown; `none`: the mark has no Markdown at all. -/
def readMarkAttrs : MarkCls → Option (List String)
  | .strong | .em | .strike | .code => some []
  | .link => some ["title", "href"]
  | .indentation => some ["level"]
  | _ => none

/-- The same marks, apart from marks without Markdown (which may be anywhere on either side) and
attributes without influence. -/
inductive MarksAgree : List Mark → List Mark → Prop where
  | nil : MarksAgree [] []
  | left {m : Mark} {ms ms' : List Mark} (h : readMarkAttrs m.cls = none) (t : MarksAgree ms ms') :
      MarksAgree (m :: ms) ms'
  | right {m : Mark} {ms ms' : List Mark} (h : readMarkAttrs m.cls = none) (t : MarksAgree ms ms') :
      MarksAgree ms (m :: ms')
  | both {m m' : Mark} {ms ms' : List Mark} (hc : m.cls = m'.cls)
      (ha : ∀ names, readMarkAttrs m.cls = some names → AttrsAgree names m.attrs m'.attrs)
      (t : MarksAgree ms ms') : MarksAgree (m :: ms) (m' :: ms')

/-- The marks of a node; anything but a list of marks counts as none. -/
def marksOf (n : Node) : List Mark :=
  match n.hd.marks with
  | .val ms => ms
  | _ => []

/-- Classes whose marks are applied to their Markdown. -/
def readsMarks : List NodeCls := [.text, .paragraph, .media, .expand]

/-- Two nodes that agree on everything of their own (not their children) that has Markdown. -/
structure AgreeHere (n n' : Node) : Prop where
  cls : n.cls = n'.cls
  type : n.hd.type = n'.hd.type
  text : n.cls = .text → n.hd.text = n'.hd.text
  attrs : AttrsAgree (readAttrs n.cls) n.hd.attrs n'.hd.attrs
  marks : n.cls ∈ readsMarks → MarksAgree (marksOf n) (marksOf n')

/-- Two trees with the same shape, types and texts, that agree on the attributes and marks that have
Markdown.  Everything else (version, ids, layout, colours, widths, marks on nodes that do not apply
them, ...) may differ at every node. -/
inductive SameForMd : Node → Node → Prop where
  | leaf {n n' : Node} (h : AgreeHere n n') (hc : n.content = n'.content) : SameForMd n n'
  | inner {n n' : Node} {l l' : List Node} (h : AgreeHere n n') (hl : n.content = .val l)
      (hl' : n'.content = .val l') (hk : List.Forall₂ SameForMd l l') : SameForMd n n'

end Verif.Spec
