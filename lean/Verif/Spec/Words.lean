import Verif.Spec.Glyphs
import Verif.Spec.Md
/-!
# Specification: what inline nodes show, and which inline content is easy to read

`shown` is what a user sees in the editor: characters with their style. `Words` are the inline nodes whose Markdown has
the expected form (`layersOf`), and `fine` is the condition on a word and its neighbours under which a reader of Markdown
finds it again.
-/

namespace Verif.Spec
open Verif

/-- The address of a link mark, if that is a string. -/
def hrefOf (m : Mark) : Option Str :=
  match m.attrs with
  | .val a => match lookupKey a.fields "href" with | some (.str u) => some u | _ => none
  | _ => none

/-- The style that the marks of a text give: their order does not matter. -/
def styleOf (ms : List Mark) : Style where
  strong := ms.any (·.cls == .strong)
  em := ms.any (·.cls == .em)
  strike := ms.any (·.cls == .strike)
  code := ms.any (·.cls == .code)
  link := (ms.find? (·.cls == .link)).bind hrefOf

/-- The marks of a node. -/
def markList (n : Node) : List Mark := match n.hd.marks with | .val ms => ms | _ => []

def strAttr (n : Node) (k : String) : Option Str := match attr n k with | some (.str s) => some s | _ => none

/-- Where the image of a media node is: at its url, or in the media store. -/
def imageUrl (n : Node) : Option Str :=
  if strAttr n "type" = some "external".toList then strAttr n "url"
  else if strAttr n "type" = some "file".toList then (strAttr n "id").map ("media:".toList ++ ·)
  else none

/-- The alternative text of a media node. -/
def imageAlt (n : Node) : Str := (strAttr n "alt").getD "media".toList

/-- What an inline node shows. A status is shown as code; a date, an emoji, a mention as plain text. -/
def shown (env : Env) (n : Node) : Option (List Glyph) :=
  match n.cls with
  | .text => match n.hd.text with | some (.str t) => some (t.map (.char · (styleOf (markList n)))) | _ => none
  | .hardBreak => some [.brk]
  | .emoji => ((strAttr n "text").or (strAttr n "shortName")).map (·.map (.char · {}))
  | .mention => (strAttr n "text").map (·.map (.char · {}))
  | .date => match n.toMarkdown env false with | .ok (.str t) => some (t.map (.char · {})) | _ => none
  | .status => (strAttr n "text").map (·.map (.char · { code := true }))
  | .inlineCard => (strAttr n "url").map fun u => u.map (.char · { link := some u })
  | .media => (imageUrl n).map fun u => [.image (imageAlt n) u (styleOf (markList n)).link]
  | _ => none

/-- What surrounds a text: a run of `n` delimiters `c` on both sides, a link, two back ticks and a space, one back tick. -/
inductive Layer where
  | wrap (c : Char) (n : Nat)
  | link (u : Str)
  | code
  | tick
deriving DecidableEq, Repr

def Layer.isLink : Layer → Bool
  | .link _ => true
  | _ => false

/-- The text in its layers, the outermost first. -/
def spell : List Layer → Str → Str
  | [], t => t
  | .wrap c n :: L, t => List.replicate n c ++ spell L t ++ List.replicate n c
  | .link u :: L, t => '[' :: spell L t ++ ']' :: '(' :: u ++ [')']
  | .code :: L, t => "`` ".toList ++ spell L t ++ " ``".toList
  | .tick :: L, t => '`' :: spell L t ++ ['`']

/-- Is the delimiter `c` not used in the layers up to the next link? -/
def free (c : Char) : List Layer → Bool
  | .wrap c' _ :: L => c != c' && free c L
  | .link _ :: _ => true
  | _ :: L => free c L
  | [] => true

/-- One or two more stars. -/
def addStars (k : Nat) : List Layer → Option (List Layer)
  | .wrap '*' j :: L => if j + k = 3 then some (.wrap '*' 3 :: L) else none
  | L => if free '*' L then some (.wrap '*' k :: L) else none

/-- One more mark outside the layers. -/
def addMark (L : List Layer) (m : Mark) : Option (List Layer) :=
  match m.cls with
  | .strong => addStars 2 L
  | .em => addStars 1 L
  | .strike => if free '~' L then some (.wrap '~' 2 :: L) else none
  | .code => if L = [] then some [.code] else none
  | .link =>
    match m.attrs with
    | .val a =>
      match lookupKey a.fields "href", lookupKey a.fields "title" with
      | some (.str _), some (.str _) => none
      | some (.str u), some _ => if L.any Layer.isLink then none else some (.link u :: L)
      | _, _ => none
    | _ => none
  | .indentation => none
  | _ => some L

/-- The layers of a list of marks: the first mark is the innermost. -/
def layersOf : List Layer → List Mark → Option (List Layer)
  | L, [] => some L
  | L, m :: ms => (addMark L m).bind fun L' => layersOf L' ms

/-- A delimiter character that cannot be one in its place: `_` inside a word, `*` and `_` between spaces. -/
def loose (c : Char) (p x : CharClass) : Bool :=
  (c == '_' && p == .other && x == .other) || ((c == '_' || c == '*') && p == .white && x == .white)

/-- Every character of a text, after `prev` and before `next`, stands for itself. -/
def calm (uni : Char → CharClass) : Option Char → Str → Option Char → Bool
  | _, [], _ => true
  | prev, c :: s, next =>
    let x := s.head?.or next
    (if c == ' ' then prev.isSome && prev != some '\n' && x.isSome && x != some '\n' && (!s.isEmpty || x != some ' ')
     else literal c x || loose c (classOf uni prev) (classOf uni x)) && calm uni (some c) s next

/-- Plain link destinations. -/
def plainDest (u : Str) : Bool :=
  !u.isEmpty && u.all fun c => !" \t\n\r\\()<>&\"".toList.contains c && 32 < c.toNat && c.toNat != 127

/-- A text in its layers, after `prev` and before `next`, can be read: delimiters have no white space on their inner side, no
delimiter of the same kind next to them, and no letter on their outer side if they have punctuation on their inner side. -/
def fine (uni : Char → CharClass) : Option Char → List Layer → Str → Option Char → Bool
  | prev, [], t, next => !t.isEmpty && calm uni prev t next
  | _, .code :: L, t, next => L.isEmpty && !t.any (fun c => c == '`' || c == '\n' || c == '\r') && t.any (· != ' ') &&
      next != some '`'
  | _, .tick :: L, t, next => L.isEmpty && !t.any (fun c => c == '`' || c == '\n' || c == '\r') && !t.isEmpty &&
      unpad t == t && next != some '`'
  | prev, .wrap c n :: L, t, next =>
    let a := (spell L t).head?
    let z := (spell L t).getLast?
    ((c == '*' && (n == 1 || n == 2 || n == 3)) || (c == '~' && n == 2)) &&
      free c L && next != some c && a != some c &&
      classOf uni a != .white && classOf uni z != .white &&
      (classOf uni a != .punct || classOf uni prev != .other) &&
      (classOf uni z != .punct || classOf uni next != .other) &&
      fine uni (some c) L t (some c)
  | _, .link u :: L, t, _ => plainDest u && !(spell L t).any (fun c => c == '[' || c == ']') &&
      fine uni (some '[') L t (some ']')

/-- The parts of inline content. -/
inductive Word where
  | word (L : List Layer) (t : Str)
  | brk
  | image (alt url : Str) (link : Option Str)
deriving DecidableEq, Repr

/-- `![alt](url)`. -/
def imageText (alt url : Str) : Str := '!' :: '[' :: alt ++ ']' :: '(' :: url ++ [')']

def Word.str : Word → Str
  | .word L t => spell L t
  | .image alt url none => imageText alt url
  | .image alt url (some u) => spell [.link u] (imageText alt url)
  | .brk => "  \n".toList

/-- A line break is neither at the beginning nor at the end, and no space follows. -/
def fineWord (uni : Char → CharClass) (prev : Option Char) : Word → Option Char → Bool
  | .word L t, next => fine uni prev L t next
  | .brk, next => prev.isSome && next.isSome && next != some ' '
  | .image alt url link, _ => plainDest url && link.all plainDest && calm uni (some '[') alt (some ']')

/-- Every word can be read, where it stands. -/
def fineWords (uni : Char → CharClass) : Option Char → List Word → Bool
  | _, [] => true
  | prev, w :: ws => fineWord uni prev w (ws.flatMap Word.str).head? && fineWords uni (w.str.getLast?.or prev) ws

/-- The form of the Markdown of an inline node. -/
inductive WordOf (env : Env) : Node → Word → Prop
  | text (n : Node) (t : Str) (L : List Layer) (hn : n.cls = .text) (ht : n.hd.text = some (.str t))
      (hm : layersOf [] (markList n) = some L) (hb : L = [] ∨ ∃ c ∈ t, blank c = false) : WordOf env n (.word L t)
  | brk (n : Node) (hn : n.cls = .hardBreak) : WordOf env n .brk
  | emoji (n : Node) (t : Str) (hn : n.cls = .emoji) (ht : (strAttr n "text").or (strAttr n "shortName") = some t) :
      WordOf env n (.word [] t)
  | mention (n : Node) (t : Str) (hn : n.cls = .mention) (ht : strAttr n "text" = some t) : WordOf env n (.word [] t)
  | date (n : Node) (t : Str) (hn : n.cls = .date) (ht : Md env n t) : WordOf env n (.word [] t)
  | status (n : Node) (t : Str) (hn : n.cls = .status) (ht : strAttr n "text" = some t) : WordOf env n (.word [.tick] t)
  | card (n : Node) (u : Str) (hn : n.cls = .inlineCard) (ht : strAttr n "url" = some u) : WordOf env n (.word [.link u] u)
  | image (n : Node) (u : Str) (hn : n.cls = .media) (hu : imageUrl n = some u) (hm : layersOf [] (markList n) = some []) :
      WordOf env n (.image (imageAlt n) u none)
  | linked (n : Node) (u h : Str) (hn : n.cls = .media) (hu : imageUrl n = some u)
      (hm : layersOf [] (markList n) = some [.link h]) : WordOf env n (.image (imageAlt n) u (some h))

end Verif.Spec
