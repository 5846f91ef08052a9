import Verif.Spec.Inline
/-!
# Specification: reading the inline content of a Markdown paragraph

The CommonMark rules (0.31, section 6) for code spans, emphasis, links, images and hard line breaks, and the GFM rule for
strikethrough (6.5). What a reader finds is a sequence of characters, each with its style, and of images. The reader is cautious:
where something that is left out here might begin (escapes, entities, HTML, autolinks in `<>`, soft line breaks, links with
titles, nested brackets other than an image in a link) it gives up.
-/

namespace Verif.Spec
open Verif

structure Style where
  strong : Bool := false
  em : Bool := false
  strike : Bool := false
  code : Bool := false
  link : Option Str := none
deriving DecidableEq, Repr

inductive Glyph where
  | char (c : Char) (style : Style)
  | brk
  | image (alt url : Str) (link : Option Str)
deriving DecidableEq, Repr

inductive CharClass where
  | white | punct | other
deriving DecidableEq, Repr

/-- CommonMark 2.1. The class of characters outside ASCII is given by `uni`. The end of the paragraph counts as white space. -/
def classOf (uni : Char → CharClass) : Option Char → CharClass
  | none => .white
  | some c =>
    if 128 ≤ c.toNat then uni c
    else if c.toNat ≤ 32 then .white
    else if c.isAlphanum || c.toNat == 127 then .other
    else .punct

/-- CommonMark 6.2: left-flanking delimiter runs. -/
def leftFlanking (prev next : CharClass) : Bool := next != .white && (next != .punct || prev != .other)

/-- CommonMark 6.2: right-flanking delimiter runs. -/
def rightFlanking (prev next : CharClass) : Bool := prev != .white && (prev != .punct || next != .other)

/-- CommonMark 6.2, rules 1 to 8: can a run of `c` open, can it close emphasis? -/
def canOpen (c : Char) (prev next : CharClass) : Bool :=
  leftFlanking prev next && (c != '_' || !rightFlanking prev next || prev == .punct)
def canClose (c : Char) (prev next : CharClass) : Bool :=
  rightFlanking prev next && (c != '_' || !leftFlanking prev next || next == .punct)

/-- What has been read so far, the last first: characters, and delimiters that may still be matched: `left` of the `run`
characters are not used yet. -/
inductive Entry where
  | glyph (g : Glyph)
  | delim (c : Char) (left run : Nat) (opens closes : Bool)
deriving DecidableEq, Repr

/-- A delimiter that is never matched stands for itself. -/
def Entry.glyphs : Entry → List Glyph
  | .glyph g => [g]
  | .delim c left _ _ _ => List.replicate left (.char c {})

/-- CommonMark 6.2, rules 9 and 10 (the rule of three); GFM 6.5 for `~`: may the entry be matched with a closing run of `c`, of which
`n` of `run` characters are left and which can open too if `both`? -/
def pairs (c : Char) (n run : Nat) (both : Bool) : Entry → Bool
  | .delim c' left run' opens closes =>
    c == c' && opens &&
      (if c == '~' then left == n
       else !((both || closes) && (run + run') % 3 == 0 && !(run % 3 == 0 && run' % 3 == 0)))
  | _ => false

/-- The style that `m` delimiters give. -/
def dress (c : Char) (m : Nat) : Glyph → Glyph
  | .char x s => .char x (if c == '~' then { s with strike := true } else if m == 2 then { s with strong := true }
      else { s with em := true })
  | g => g

/-- A character or an image in a link. -/
def relink (dest : Str) : Glyph → Glyph
  | .char x s => .char x { s with link := some dest }
  | .image a u _ => .image a u (some dest)
  | .brk => .brk

/-- CommonMark 6.4: the alternative text of an image is the plain text of its description. -/
def glyphText : Glyph → Str
  | .char c _ => [c]
  | .brk => ['\n']
  | .image alt _ _ => alt

/-- The characters that have been read, in their order. -/
def found (st : List Entry) : List Glyph := (st.flatMap fun e => e.glyphs.reverse).reverse

/-- CommonMark, "process emphasis": match a closing run with the nearest fitting ones; how much of it is left, and the entries. -/
def matchRun (c : Char) (run : Nat) (both : Bool) : Nat → Nat → List Entry → Nat × List Entry
  | 0, n, st => (n, st)
  | f + 1, n, st =>
    let above := st.takeWhile fun e => !pairs c n run both e
    match st.drop above.length with
    | .delim c' left run' opens closes :: below =>
      let m := if c == '~' then n else if 2 ≤ n ∧ 2 ≤ left then 2 else 1
      let st' := (above.flatMap fun e => e.glyphs.map fun g => .glyph (dress c m g)) ++
        (if m < left then [.delim c' (left - m) run' opens closes] else []) ++ below
      if m < n then matchRun c run both f (n - m) st' else (0, st')
    | _ => (n, st)

/-- Everything before the next run of exactly `n` back ticks, and what comes after it. -/
def codeEnd (n : Nat) : Nat → Str → Option (Str × Str)
  | 0, _ => none
  | f + 1, s =>
    let a := s.takeWhile (· != '`')
    let r := s.drop a.length
    let k := (r.takeWhile (· == '`')).length
    if k = 0 then none
    else if k = n then some (a, r.drop k)
    else (codeEnd n f (r.drop k)).map fun p => (a ++ r.take k ++ p.1, p.2)

/-- CommonMark 6.1: one space is removed on both sides. -/
def unpad (s : Str) : Str :=
  if s.head? = some ' ' ∧ s.getLast? = some ' ' ∧ s.any (· != ' ') then (s.drop 1).dropLast else s

/-- `label](destination)`, and what comes after it. Only labels without brackets and plain destinations are read. -/
def linkEnd (s : Str) : Option (Str × Str × Str) :=
  let label := s.takeWhile fun c => c != '[' && c != ']'
  match s.drop label.length with
  | ']' :: '(' :: t =>
    let dest := t.takeWhile fun c => !" \t\n\r\\()<>&\"".toList.contains c && 32 < c.toNat && c.toNat != 127
    match t.drop dest.length with
    | ')' :: rest => if dest.isEmpty then none else some (label, dest, rest)
    | _ => none
  | _ => none

/-- `![label](url)](destination)`, and what comes after it: an image in a link. -/
def linkedImage : Str → Option (Str × Str × Str × Str)
  | '!' :: '[' :: s =>
    match linkEnd s with
    | some (label, url, t) =>
      match linkEnd t with
      | some ([], dest, rest) => some (label, url, dest, rest)
      | _ => none
    | none => none
  | _ => none

/-- Does the character stand for itself, before `next`? -/
def literal (c : Char) (next : Option Char) : Bool :=
  if c == '\\' then next.any fun x => x.isAlphanum || x == ' '
  else if c == '<' then !next.any fun x => x.isAlphanum || "/!?".toList.contains x
  else if c == '&' then !next.any fun x => x.isAlphanum || x == '#'
  else if c == '!' then next != some '['
  else !"\n\r\t`*_~[]".toList.contains c

/-- Reads a text, `prev` being the character before it and `after` the one after it. -/
def readFrom (uni : Char → CharClass) : Nat → Option Char → List Entry → Str → Option Char → Option (List Entry)
  | 0, _, _, _, _ => none
  | _ + 1, _, st, [], _ => some st
  | f + 1, prev, st, c :: s, after =>
    if c == '*' || c == '_' || c == '~' then
      let n := (s.takeWhile (· == c)).length + 1
      let rest := s.drop (n - 1)
      let p := classOf uni prev
      let x := classOf uni (rest.head?.or after)
      if c == '~' && n != 2 then none
      else
        let r := if canClose c p x then matchRun c n (canOpen c p x) n n st else (n, st)
        let st' := if r.1 = 0 then r.2
          else if canOpen c p x then .delim c r.1 n true (canClose c p x) :: r.2
          else List.replicate r.1 (.glyph (.char c {})) ++ r.2
        readFrom uni f (some c) st' rest after
    else if c == '`' then
      let n := (s.takeWhile (· == '`')).length + 1
      match codeEnd n (s.length + 1) (s.drop (n - 1)) with
      | some (inner, rest) =>
        if inner.any fun x => x == '\n' || x == '\r' then none
        else readFrom uni f (some '`') (((unpad inner).map fun x => .glyph (.char x { code := true })).reverse ++ st) rest after
      | none => none
    else if c == '!' && s.head? == some '[' then
      match linkEnd (s.drop 1) with
      | some (label, url, rest) =>
        match readFrom uni f (some '[') [] label (some ']') with
        | some inner => readFrom uni f (some ')') (.glyph (.image ((found inner).flatMap glyphText) url none) :: st) rest after
        | none => none
      | none => none
    else if c == '[' then
      match linkedImage s with
      | some (label, url, dest, rest) =>
        match readFrom uni f (some '[') [] label (some ']') with
        | some inner =>
          readFrom uni f (some ')') (.glyph (.image ((found inner).flatMap glyphText) url (some dest)) :: st) rest after
        | none => none
      | none =>
        match linkEnd s with
        | some (label, dest, rest) =>
          match readFrom uni f (some '[') [] label (some ']') with
          | some inner =>
            readFrom uni f (some ')') ((inner.flatMap fun e => e.glyphs.map fun g => .glyph (relink dest g)) ++ st) rest after
          | none => none
        | none => none
    else if c == ' ' then
      match s.dropWhile (· == ' ') with
      | '\n' :: rest =>
        if prev.isNone || s.head? != some ' ' || rest.head?.isNone || rest.head? == some ' ' then none
        else readFrom uni f (some '\n') (.glyph .brk :: st) rest after
      | rest =>
        if prev.isNone || prev == some '\n' || (rest.isEmpty && after.isNone) then none
        else readFrom uni f (some ' ') (.glyph (.char ' ' {}) :: st) s after
    else if literal c (s.head?.or after) then readFrom uni f (some c) (.glyph (.char c {}) :: st) s after
    else none

/-- What a reader finds in a paragraph. -/
def readInline (uni : Char → CharClass) (s : Str) : Option (List Glyph) :=
  (readFrom uni (s.length + 1) none [] s none).map found

end Verif.Spec
