import Mathlib.Data.List.Chain
import Verif.Spec.Lists
import Verif.Spec.Reading
/-!
# Specification: the blocks a reader should find

`Shows env n bs`: the node `n` is a block (or a document) that stands for the Markdown blocks `bs`, and nothing in it is
likely to be taken for something else. The conditions are on the texts of its inline content and on the way blocks follow
each other; that the Markdown of `n` is really read as `bs` is the property C83.
-/

namespace Verif.Spec
open Verif

/-- Lists of the same kind. A reader joins them if they follow each other. -/
def sameList : Block → Block → Bool
  | .bullets _, .bullets _ => true
  | .numbers _ _, .numbers _ _ => true
  | _, _ => false

/-- No two lines in a row are empty. -/
def Tidy (ls : List Str) : Prop := ls.IsChain fun a b => a ≠ [] ∨ b ≠ []

/-- No block runs into the next one (C82), and lists of the same kind do not follow each other. -/
def Apart (kids : List Node) (ss : List Str) (bss : List (List Block)) : Prop :=
  ((List.zipWith padded kids ss).IsChain fun s t => ¬ Touch s t) ∧
  (bss.flatten.IsChain fun a b => sameList a b = false)

/-- The marker of an item. -/
def markerText : Option Nat → Str
  | none => "- ".toList
  | some k => (toString k).toList ++ ". ".toList

/-- A list of items. -/
def listBlock : Option Nat → List (List Block) → Block
  | none, items => .bullets items
  | some k, items => .numbers k items

/-- The list items `nodes` stand for these items. An item is a paragraph, or an empty paragraph, or a paragraph
and a list of the same class. `num` is the number of the first item, if they are numbered. -/
inductive Items (env : Env) (kind : NodeCls) : Option Nat → List Node → List (List Block) → Prop where
  | nil {num : Option Nat} : Items env kind num [] []
  | blank {num : Option Nat} {item p : Node} {nodes : List Node} {items : List (List Block)} {s : Str}
      (hw : (markerText num).length ≤ 11) (hc : item.content = .val [p]) (hp : p.cls = .paragraph) (hs : Md env p s)
      (ht : trimEnd s = []) (h : Items env kind (num.map (· + 1)) nodes items) :
      Items env kind num (item :: nodes) ([] :: items)
  | line {num : Option Nat} {item p : Node} {nodes : List Node} {items : List (List Block)} {s : Str}
      (hw : (markerText num).length ≤ 11) (hc : item.content = .val [p]) (hp : p.cls = .paragraph) (hs : Md env p s)
      (ht : ∀ l ∈ (trimEnd s).splitOn '\n', kindOf l = .text) (h : Items env kind (num.map (· + 1)) nodes items) :
      Items env kind num (item :: nodes) ([.para ((trimEnd s).splitOn '\n')] :: items)
  | nest {num : Option Nat} {item p l : Node} {nodes kids : List Node} {items sub : List (List Block)} {s : Str}
      (hw : (markerText num).length ≤ 4) (hc : item.content = .val [p, l]) (hp : p.cls = .paragraph) (hs : Md env p s)
      (ht : ∀ l ∈ (trimEnd s).splitOn '\n', kindOf l = .text) (hl : l.cls = kind) (hk : l.content = .val kids) (hne : itemsOf kids ≠ [])
      (hf : ∀ b ∈ sub.head?, b ≠ []) (hsub : Items env kind (num.map fun _ => 1) (itemsOf kids) sub)
      (h : Items env kind (num.map (· + 1)) nodes items) :
      Items env kind num (item :: nodes) ([.para ((trimEnd s).splitOn '\n'), listBlock (num.map fun _ => 1) sub] :: items)

/-- The tasks and nested task lists `nodes` stand for these items: a nested list belongs to the task before it. -/
inductive Tasks (env : Env) : List Node → List (List Block) → Prop where
  | nil : Tasks env [] []
  | line {k : Node} {nodes ks : List Node} {ss : List Str} {items : List (List Block)} (hk : k.cls = .taskItem)
      (hc : k.content = .val ks) (hm : MdAll env ks ss)
      (ht : ∀ l ∈ (checkbox k ++ " ".toList ++ trimEnd ss.flatten).splitOn '\n', kindOf l = .text)
      (h : Tasks env nodes items) :
      Tasks env (k :: nodes) ([.para ((checkbox k ++ " ".toList ++ trimEnd ss.flatten).splitOn '\n')] :: items)
  | nest {k l : Node} {nodes ks kids : List Node} {ss : List Str} {items sub : List (List Block)} (hk : k.cls = .taskItem)
      (hc : k.content = .val ks) (hm : MdAll env ks ss)
      (ht : ∀ l ∈ (checkbox k ++ " ".toList ++ trimEnd ss.flatten).splitOn '\n', kindOf l = .text)
      (hl : l.cls = .taskList) (hlc : l.content = .val kids) (hne : tasksOf kids ≠ [])
      (hsub : Tasks env (tasksOf kids) sub) (h : Tasks env nodes items) :
      Tasks env (k :: l :: nodes)
        ([.para ((checkbox k ++ " ".toList ++ trimEnd ss.flatten).splitOn '\n'), .bullets sub] :: items)

/-- The texts of the cells of a row. -/
def Cells (env : Env) (r : Node) (cs : List Str) : Prop :=
  ∃ cells, r.cls = .tableRow ∧ r.content = .val cells ∧ (∀ k ∈ cells, isCell k) ∧ MdAll env cells cs ∧
    ∀ c ∈ cs, c.any lineBreak = false

inductive Shows (env : Env) : Node → List Block → Prop where
  | para {n : Node} {kids : List Node} {ss : List Str} {t : Str} (hn : n.cls = .paragraph) (hc : n.content = .val kids)
      (hm : MdAll env kids ss) (hs : Styled env n ss.flatten t) (ht : ∀ l ∈ t.splitOn '\n', kindOf l = .text) :
      Shows env n [.para (t.splitOn '\n')]
  | blank {n : Node} {s : Str} (hn : n.cls = .paragraph ∨ n.cls = .mediaGroup) (hs : Md env n s)
      (hb : ∀ l ∈ s.splitOn '\n', blankLine l = true) : Shows env n []
  | line {n : Node} {s l : Str} (hn : n.cls ∈ [NodeCls.mediaSingle, .extension, .blockCard, .embedCard]) (hs : Md env n s)
      (hl : (s.splitOn '\n').filter (fun x => !blankLine x) = [l]) (ht : kindOf l = .text) : Shows env n [.para [l]]
  | heading {n : Node} {kids : List Node} {ss : List Str} {k : Nat} (hn : n.cls = .heading)
      (hl : attr n "level" = some (.int k)) (hk : 1 ≤ k ∧ k ≤ 6) (hc : n.content = .val kids) (hm : MdAll env kids ss)
      (ht : headingText ss.flatten) : Shows env n [.heading k ss.flatten]
  | rule {n : Node} (hn : n.cls = .rule) : Shows env n [.rule]
  | code {n : Node} {kids : List Node} {ss : List Str} (hn : n.cls = .codeBlock) (hc : n.content = .val kids)
      (hm : MdAll env kids ss) (hi : infoText (language n))
      (hl : ∀ l ∈ ss.flatten.splitOn '\n', closes l = false ∧ l.any lineBreak = false)
      (ht : Tidy (ss.flatten.splitOn '\n')) : Shows env n [.code (language n) (ss.flatten.splitOn '\n')]
  | quote {n : Node} {kids : List Node} {ss : List Str} {bss : List (List Block)} (hn : n.cls = .blockquote)
      (hc : n.content = .val kids) (hm : MdAll env kids ss) (hlen : kids.length = bss.length)
      (hk : ∀ p ∈ kids.zip bss, Shows env p.1 p.2) (ha : Apart kids ss bss) (hne : bss.flatten ≠ []) :
      Shows env n [.quote bss.flatten]
  | panel {n : Node} {kids : List Node} {ss : List Str} {bss : List (List Block)} {ty : Str} (hn : n.cls = .panel)
      (hty : attr n "panelType" = some (.str ty)) (hl : kindOf ("**".toList ++ upper env ty ++ "**".toList) = .text)
      (hc : n.content = .val kids) (hm : MdAll env kids ss) (hlen : kids.length = bss.length)
      (hk : ∀ p ∈ kids.zip bss, Shows env p.1 p.2) (ha : Apart kids ss bss) :
      Shows env n [.quote (.para ["**".toList ++ upper env ty ++ "**".toList] :: bss.flatten)]
  | blocks {n : Node} {kids : List Node} {ss : List Str} {bss : List (List Block)}
      (hn : n.cls ∈ [NodeCls.doc, .expand, .nestedExpand])
      (hc : n.content = .val kids) (hm : MdAll env kids ss) (hlen : kids.length = bss.length)
      (hk : ∀ p ∈ kids.zip bss, Shows env p.1 p.2) (ha : Apart kids ss bss) : Shows env n bss.flatten
  | decisions {n : Node} {kids : List Node} {ls : List Str} (hn : n.cls = .decisionList) (hc : n.content = .val kids)
      (hm : MdAll env (kids.filter fun k => decide (k.cls = .decisionItem)) (ls.map ("> ".toList ++ ·)))
      (ht : ∀ l ∈ ls, kindOf l = .text) : Shows env n (ls.map fun l => .quote [.para [l]])
  | bullets {n : Node} {kids : List Node} {items : List (List Block)} (hn : n.cls = .bulletList)
      (hc : n.content = .val kids) (hne : itemsOf kids ≠ []) (h : Items env .bulletList none (itemsOf kids) items) :
      Shows env n [.bullets items]
  | numbers {n : Node} {kids : List Node} {items : List (List Block)} {start : Nat} (hn : n.cls = .orderedList)
      (hs : StartNumber n 0 start) (hc : n.content = .val kids) (hne : itemsOf kids ≠ [])
      (h : Items env .orderedList (some start) (itemsOf kids) items) : Shows env n [.numbers start items]
  | tasks {n : Node} {kids : List Node} {items : List (List Block)} (hn : n.cls = .taskList)
      (hc : n.content = .val kids) (hne : tasksOf kids ≠ []) (h : Tasks env (tasksOf kids) items) :
      Shows env n [.bullets items]
  | table {n head : Node} {rows : List Node} {hs : List Str} {css : List (List Str)} (hn : n.cls = .table)
      (hc : n.content = .val (head :: rows)) (hh : isHeaderRow head = true) (hr : ∀ r ∈ rows, isHeaderRow r = false)
      (hhs : Cells env head hs) (hcs : List.Forall₂ (Cells env) rows css) (hw : ∀ cs ∈ css, cs ≠ [] ∧ cs.length ≤ hs.length)
      (ht : kindOf (rowLine hs) = .text) :
      Shows env n [.table (hs.map stripped) (css.map fun cs => cs.map stripped ++ List.replicate (hs.length - cs.length) [])]

end Verif.Spec
