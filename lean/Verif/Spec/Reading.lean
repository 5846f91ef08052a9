import Mathlib.Data.List.Chain
import Verif.Spec.Chunks
import Verif.Spec.Tables
/-!
# Specification: reading the blocks of a Markdown text

The part of the CommonMark rules for blocks (0.31: sections 4 and 5), and of the GFM rules for tables (4.10), that the
library's output needs. The rules are cautious: a text in which a line could start something that is left out here (HTML,
indented code, link definitions, underlined headings, `~~~`, `*`, `+` and `)` markers, list items with blank lines, tabs)
has no reading at all.
`reads_unique` (Lemmas/Reading) proves that a text has at most one reading.
-/

namespace Verif.Spec
open Verif

/-- What a Markdown reader finds. The text of paragraphs, headings and cells is left as it is. -/
inductive Block where
  | para (lines : List Str)
  | heading (level : Nat) (text : Str)
  | rule
  | code (info : Str) (lines : List Str)
  | quote (blocks : List Block)
  | bullets (items : List (List Block))
  | numbers (start : Nat) (items : List (List Block))
  | table (head : List Str) (rows : List (List Str))

/-- Space or tab. -/
def gap (c : Char) : Bool := c == ' ' || c == '\t'

/-- Nothing, or a space or tab first. -/
def gapFirst (s : Str) : Bool :=
  match s with
  | [] => true
  | c :: _ => gap c

/-- CommonMark 4.1: three or more of the same of `-`, `_`, `*`, and otherwise spaces and tabs. -/
def ruleChars (l : Str) : Bool :=
  let t := l.filter fun c => !gap c
  decide (3 ≤ t.length) && (t.all (· == '-') || t.all (· == '_') || t.all (· == '*'))

/-- CommonMark 4.2: one to six `#`, then a space, a tab or nothing. -/
def headingStart (l : Str) : Bool :=
  let k := (l.takeWhile (· == '#')).length
  decide (1 ≤ k ∧ k ≤ 6) && gapFirst (l.dropWhile (· == '#'))

/-- The digits at the beginning. -/
def digitsOf (s : Str) : Str := s.takeWhile fun c => decide ('0' ≤ c ∧ c ≤ '9')

/-- CommonMark 5.2, list markers `-` and `1.`, after at most three spaces and with exactly one space after it: how far the
content is indented, the number, and the first line of the content. -/
def marker (l : Str) : Option (Nat × Option Nat × Str) :=
  let i := (l.takeWhile (· == ' ')).length
  let t := l.drop i
  if 3 < i then none
  else
    let ds := digitsOf t
    match t.drop ds.length with
    | a :: ' ' :: content =>
      if content.head?.any gap then none
      else if ds = [] ∧ a = '-' then some (i + 2, none, content)
      else if 1 ≤ ds.length ∧ ds.length ≤ 9 ∧ a = '.' then
        some (i + ds.length + 2, some (Nat.ofDigitChars 10 ds 0), content)
      else none
    | _ => none

/-- The line may start something that is left out here. -/
def doubtful (l : Str) : Bool :=
  let t := l.drop (digitsOf l).length
  gapFirst l || l.head? == some '<' || "~~~".toList.isPrefixOf l ||
  l.all (fun c => gap c || "|-:=".toList.contains c) ||
  (l.head? == some '[' && decide ("]:".toList <:+: l)) ||
  (match t with
    | c :: r => ("-+*.)".toList.contains c) && gapFirst r
    | [] => false)

inductive Kind where
  | blank | heading | rule | fence | quote | item | text | other
deriving DecidableEq, Repr

/-- What a line starts, on its own. -/
def kindOf (l : Str) : Kind :=
  if blankLine l then .blank
  else if l.any lineBreak then .other
  else if ruleChars l then (if l.head?.any gap then .other else .rule)
  else if headingStart l then .heading
  else if "```".toList.isPrefixOf l then .fence
  else if l.head? == some '>' then .quote
  else if (marker l).isSome then .item
  else if doubtful l then .other
  else .text

/-- CommonMark 4.5: a closing fence. -/
def closes (l : Str) : Bool :=
  let t := (l.drop (l.takeWhile (· == ' ')).length)
  decide ((l.takeWhile (· == ' ')).length ≤ 3) && "```".toList.isPrefixOf t &&
    (t.dropWhile (· == '`')).all gap

/-- CommonMark 5.1: a quoted line without its marker `>` and the space after it. -/
def unquoted (l : Str) : Str :=
  match l with
  | '>' :: ' ' :: t => t
  | '>' :: t => t
  | _ => l

/-- CommonMark 4.8, 5.2: after the lines of a paragraph comes a blank line, a heading, a fence, a quote, or a list item that may
interrupt it: one with content, and if it has a number, with the number 1. -/
def endsPara (rest : List Str) : Prop :=
  ∀ r ∈ rest.head?, kindOf r ∈ [Kind.blank, .heading, .fence, .quote] ∨
    (kindOf r = .item ∧ ∃ w num first, marker r = some (w, num, first) ∧ first ≠ [] ∧ (num = none ∨ num = some 1))

/-- The next line starts something new. -/
def stops (rest : List Str) : Prop := ∀ r ∈ rest.head?, kindOf r ≠ .text ∧ kindOf r ≠ .other

/-- What is left of a line without spaces and list markers. -/
def innermost : Nat → Str → Str
  | 0, l => l.dropWhile (· == ' ')
  | n + 1, l =>
    match marker (l.dropWhile (· == ' ')) with
    | some (_, _, first) => innermost n first
    | none => l.dropWhile (· == ' ')

/-- The line ends with the text of a paragraph, perhaps of a list item. -/
def prose (l : Str) : Prop := kindOf (innermost l.length l) = .text

/-- CommonMark 5.1, 5.2, laziness: the lines `zs` continue a paragraph at the end of the lines `before`. -/
def continues (before : List Str) : Prop :=
  (∀ l ∈ before, prose l ∨ blankLine (innermost l.length l) = true) ∧ ∀ l ∈ before.getLast?, prose l

/-- A line of a list item without the indentation, if it has this indentation. -/
def unindent (w : Nat) (l : Str) : Str := if w ≤ (l.takeWhile (· == ' ')).length then l.drop w else l

/-- Each of the lines of a list item that is not indented continues a paragraph of the lines before. -/
def lazies (w : Nat) (before : List Str) : List Str → Prop
  | [] => True
  | l :: ls => ((l.takeWhile (· == ' ')).length < w → kindOf l = .text ∧ continues before) ∧
    lazies w (before ++ [unindent w l]) ls

/-- Without the spaces and tabs at both ends. -/
def stripped (s : Str) : Str := ((s.dropWhile gap).reverse.dropWhile gap).reverse

/-- GFM 4.10: the cells of a line: what is between its pipes that are not escaped; a pipe at the beginning and one at the end
do not count. -/
def cellsOf (l : Str) : List Str :=
  let t := match splitBare false l with
    | [] :: t => t
    | t => t
  (if t.getLast? = some [] then t.dropLast else t).map stripped

/-- GFM 4.10: a row of a table of this width: excess cells are ignored, and missing cells are empty. -/
def fit (width : Nat) (cells : List Str) : List Str := (cells ++ List.replicate width []).take width

/-- The line begins with a pipe. -/
def barFirst (l : Str) : Prop := l.head? = some '|' ∧ l.any lineBreak = false

/-- The next line that is not blank is indented by less than `w`. -/
def outdented (w : Nat) (rest : List Str) : Prop :=
  ∀ r ∈ rest.find? (fun l => !blankLine l), (r.takeWhile (· == ' ')).length < w

/-- CommonMark 5.3: a list item belongs to the list that follows, if that has the same kind of marker. -/
def addItem (num : Option Nat) (item : List Block) (bs : List Block) : List Block :=
  match num, bs with
  | none, .bullets items :: bs => .bullets (item :: items) :: bs
  | none, bs => .bullets [item] :: bs
  | some n, .numbers _ items :: bs => .numbers n (item :: items) :: bs
  | some n, bs => .numbers n [item] :: bs

/-- The text of a heading: nothing is to be stripped at its ends. -/
def headingText (t : Str) : Prop :=
  t ≠ [] ∧ t.any lineBreak = false ∧ t.head?.any gap = false ∧ t.getLast?.any (fun c => gap c || c == '#') = false

/-- The info string of a code block: no back tick, and nothing is to be stripped at its ends. -/
def infoText (t : Str) : Prop :=
  '`' ∉ t ∧ t.any lineBreak = false ∧ t.head?.any gap = false ∧ t.getLast?.any gap = false

/-- The lines are read as these blocks. -/
inductive Reads : List Str → List Block → Prop where
  | nil : Reads [] []
  | blank {l : Str} {ls : List Str} {bs : List Block} (hl : kindOf l = .blank) (h : Reads ls bs) : Reads (l :: ls) bs
  | heading {k : Nat} {t : Str} {ls : List Str} {bs : List Block} (hk : 1 ≤ k) (hk' : k ≤ 6) (ht : headingText t)
      (h : Reads ls bs) : Reads ((List.replicate k '#' ++ ' ' :: t) :: ls) (.heading k t :: bs)
  | rule {l : Str} {ls : List Str} {bs : List Block} (hl : kindOf l = .rule) (h : Reads ls bs) : Reads (l :: ls) (.rule :: bs)
  | code {info close : Str} {body ls : List Str} {bs : List Block} (hi : infoText info)
      (hb : ∀ l ∈ body, closes l = false ∧ l.any lineBreak = false) (hc : closes close = true) (h : Reads ls bs) :
      Reads (("```".toList ++ info) :: (body ++ close :: ls)) (.code info body :: bs)
  | para {ps ls : List Str} {bs : List Block} (hne : ps ≠ []) (hp : ∀ l ∈ ps, kindOf l = .text) (he : endsPara ls)
      (h : Reads ls bs) : Reads (ps ++ ls) (.para ps :: bs)
  | quote {qs zs ls : List Str} {inner bs : List Block} (hne : qs ≠ []) (hq : ∀ l ∈ qs, kindOf l = .quote)
      (hz : ∀ l ∈ zs, kindOf l = .text) (hc : zs ≠ [] → continues (qs.map unquoted)) (he : stops ls)
      (he' : ∀ r ∈ ls.head?, kindOf r ≠ .quote) (hi : Reads (qs.map unquoted ++ zs) inner) (h : Reads ls bs) :
      Reads (qs ++ zs ++ ls) (.quote inner :: bs)
  | item {l first : Str} {w : Nat} {num : Option Nat} {inner ls : List Str} {item bs : List Block} (hk : kindOf l = .item)
      (hm : marker l = some (w, num, first)) (hn : ∀ x ∈ inner, blankLine x = false) (hz : lazies w [first] inner)
      (hf : first = [] → inner = []) (he : stops ls) (ho : outdented w ls)
      (hi : Reads (first :: inner.map (unindent w)) item) (h : Reads ls bs) :
      Reads (l :: (inner ++ ls)) (addItem num item bs)
  | table {head sep : Str} {rows ls : List Str} {bs : List Block} (hh : kindOf head = .text) (hh' : barFirst head)
      (hk : kindOf sep = .other) (hs : barFirst sep) (hs' : ∀ c ∈ cellsOf sep, c ≠ [] ∧ ∀ x ∈ c, x = '-')
      (hw : (cellsOf sep).length = (cellsOf head).length) (hr : ∀ r ∈ rows, kindOf r = .text ∨ barFirst r) (he : stops ls)
      (h : Reads ls bs) :
      Reads (head :: sep :: (rows ++ ls))
        (.table (cellsOf head) (rows.map fun r => fit (cellsOf head).length (cellsOf r)) :: bs)

end Verif.Spec
