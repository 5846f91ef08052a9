/-!
# Python `str` operations used by atlas_doc_parser

A Python string is modelled as `List Char` (Unicode scalar values; lone surrogates are not
representable).  Only the operations the library calls are modelled; each definition cites the
call sites in /repo/atlas_doc_parser.
-/

namespace Verif

/-- A Python `str`. -/
abbrev Str := List Char

namespace Str

/-- Newline, the only line separator used by `str.split("\n")` and `"\n".join`. -/
abbrev nl : Char := '\n'

/-- Python's `str.isspace` for one character: the characters removed by `strip()` / `rstrip()`.
Call sites: marks/mark_strong.py:23, mark_em.py:23, mark_strike.py:23, mark_code.py:30,
nodes/node_bullet_list.py:89, node_ordered_list.py:111, node_task_list.py:104,
node_decision_item.py:79,93. -/
def isSpace (c : Char) : Bool :=
  let n := c.toNat
  (9 ≤ n && n ≤ 13) || (28 ≤ n && n ≤ 32) || n == 0x85 || n == 0xA0 || n == 0x1680 ||
  (0x2000 ≤ n && n ≤ 0x200A) || n == 0x2028 || n == 0x2029 || n == 0x202F || n == 0x205F ||
  n == 0x3000

/-- `str.rstrip()` without argument. -/
def rstrip (s : Str) : Str := (s.reverse.dropWhile isSpace).reverse

/-- `str.lstrip()` without argument. -/
def lstrip (s : Str) : Str := s.dropWhile isSpace

/-- `str.strip()` without argument. -/
def strip (s : Str) : Str := rstrip (lstrip s)

/-- `line.lstrip(" ")`: only the space character (nodes/node_table_cell.py:97,
node_table_header.py:96). -/
def lstripSpaces (s : Str) : Str := s.dropWhile (· == ' ')

/-- Worker of `replace`: `skip` characters still belong to the last match. -/
def replaceGo (old new : Str) : Nat → Str → Str
  | _, [] => []
  | skip + 1, _ :: cs => replaceGo old new skip cs
  | 0, c :: cs =>
      if old.isPrefixOf (c :: cs) then new ++ replaceGo old new (old.length - 1) cs
      else c :: replaceGo old new 0 cs

/-- `s.replace(old, new)` for a non-empty `old`: leftmost non-overlapping occurrences
(markdown_helpers.py:54, nodes/node_table_cell.py:90, node_table_header.py:89). -/
def replace (old new s : Str) : Str := replaceGo old new 0 s

/-- `s.split("\n")` (nodes/node_bullet_list.py:101,106, node_ordered_list.py:123,128,
node_decision_item.py:82, node_table_cell.py:94, node_table_header.py:93).
Always returns at least one piece. -/
def splitNL : Str → List Str
  | [] => [[]]
  | c :: cs =>
      if c = nl then [] :: splitNL cs
      else match splitNL cs with
        | [] => [[c]]
        | l :: ls => (c :: l) :: ls

/-- `sep.join(parts)`. -/
def join (sep : Str) : List Str → Str
  | [] => []
  | [a] => a
  | a :: b :: l => a ++ sep ++ join sep (b :: l)

/-- Line boundaries of `str.splitlines` (a `\r\n` pair counts once, see `splitLinesKeep`). -/
def isLineBreak (c : Char) : Bool :=
  let n := c.toNat
  (10 ≤ n && n ≤ 13) || (28 ≤ n && n ≤ 30) || n == 0x85 || n == 0x2028 || n == 0x2029

/-- `s.splitlines(True)`: the lines with their terminators (used by `textwrap.indent`). -/
def splitLinesKeep : Str → List Str
  | [] => []
  | '\r' :: '\n' :: cs => ['\r', '\n'] :: splitLinesKeep cs
  | c :: cs =>
      if isLineBreak c then [c] :: splitLinesKeep cs
      else match splitLinesKeep cs with
        | [] => [[c]]
        | l :: ls => (c :: l) :: ls

/-- `textwrap.indent(text, prefix, predicate=lambda line: True)`: the standard library code is
`''.join(prefix + line for line in text.splitlines(True))`
(nodes/node_blockquote.py:65-74, node_panel.py:104-119). -/
def indentAll (pre text : Str) : Str := ((splitLinesKeep text).map (pre ++ ·)).flatten

/-- `s * n` / `n * s`: empty for `n ≤ 0`. -/
def rep (s : Str) (n : Int) : Str := (List.replicate n.toNat s).flatten

/-- `str(n)` for an `int`. -/
def ofInt : Int → Str
  | .ofNat n => Nat.toDigits 10 n
  | .negSucc n => '-' :: Nat.toDigits 10 (n + 1)

/-- Value of an ASCII decimal digit. -/
def asciiDigit (c : Char) : Option Nat :=
  if '0'.toNat ≤ c.toNat ∧ c.toNat ≤ '9'.toNat then some (c.toNat - '0'.toNat) else none

/-- The digits part of `int(s)`: digits with single underscores between them. -/
def parseDigits (digit : Char → Option Nat) : Nat → Bool → Str → Option Nat
  | acc, lastDigit, [] => if lastDigit then some acc else none
  | acc, lastDigit, c :: cs =>
      if c = '_' then (if lastDigit then parseDigits digit acc false cs else none)
      else match digit c with
        | some d => parseDigits digit (acc * 10 + d) true cs
        | none => none

/-- The whitespace `int()` skips around a number: `str.isspace` without the separators U+001C to
U+001F (CPython `PyLong_FromString` skips `Py_ISSPACE` only; other Unicode spaces are mapped to a
blank before).  Used by nodes/node_date.py:47. -/
def intSpace (c : Char) : Bool := isSpace c && !(28 ≤ c.toNat && c.toNat ≤ 31)

/-- The string without the whitespace `int()` skips (nodes/node_date.py:47). -/
def intStrip (s : Str) : Str :=
  ((s.dropWhile intSpace).reverse.dropWhile intSpace).reverse

/-- `int(s)` for a string (nodes/node_date.py:47): surrounding whitespace, optional sign, digits
with single underscores.  `none` is Python's ValueError.  Not modelled: the limit of 4300 digits
(`sys.set_int_max_str_digits`), which only matters for numbers with thousands of leading zeros. -/
def parseInt (digit : Char → Option Nat) (s : Str) : Option Int :=
  match intStrip s with
  | '-' :: cs => (parseDigits digit 0 false cs).map fun n : Nat => -(n : Int)
  | '+' :: cs => (parseDigits digit 0 false cs).map Int.ofNat
  | cs => (parseDigits digit 0 false cs).map Int.ofNat

end Str
end Verif
