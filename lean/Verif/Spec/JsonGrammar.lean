import Verif.Spec.Json
/-!
# JSON text (RFC 8259), and what it denotes

The grammar of the RFC, with the three extra words (`NaN`, `Infinity`, `-Infinity`) that Python's `json` accepts.
An object with repeated names denotes the dict in which every name stands where it came first, with the value it came with
last.
-/

namespace Verif.Spec

/-- White space: space, tab, line feed, carriage return. -/
def JsonSpace (w : List Char) : Prop := ∀ c ∈ w, c ∈ " \t\n\r".toList

/-- The value of a hexadecimal digit, in either case. -/
def HexDigit (c : Char) (n : Nat) : Prop :=
  "0123456789abcdef".toList[n]? = some c ∨ "0123456789ABCDEF".toList[n]? = some c

/-- Four hexadecimal digits and the number they denote. -/
def Hex4 (q : List Char) (n : Nat) : Prop :=
  ∃ a b c d x y z t, q = [a, b, c, d] ∧ HexDigit a x ∧ HexDigit b y ∧ HexDigit c z ∧ HexDigit d t ∧
    n = 4096 * x + 256 * y + 16 * z + t

/-- The UTF-16 code units of a character. -/
def utf16 (c : Char) : List Nat :=
  if c.toNat < 0x10000 then [c.toNat]
  else [0xD800 + (c.toNat - 0x10000) / 0x400, 0xDC00 + (c.toNat - 0x10000) % 0x400]

/-- `\uXXXX` for each of the code units. -/
inductive SpellsUnits : List Char → List Nat → Prop
  | nil : SpellsUnits [] []
  | cons {q p ns n} : Hex4 q n → SpellsUnits p ns → SpellsUnits ('\\' :: 'u' :: q ++ p) (n :: ns)

/-- The two-character escapes and what they stand for. -/
def shortEscapes : List (Char × Char) :=
  [('"', '"'), ('\\', '\\'), ('/', '/'), ('b', Char.ofNat 8), ('f', Char.ofNat 12), ('n', '\n'), ('r', '\r'), ('t', '\t')]

/-- What may stand between the quotes of a string, and the string it denotes. -/
inductive StringBody : List Char → List Char → Prop
  | nil : StringBody [] []
  | plain {c q s} : 32 ≤ c.toNat → c ≠ '"' → c ≠ '\\' → StringBody q s → StringBody (c :: q) (c :: s)
  | short {e c q s} : (e, c) ∈ shortEscapes → StringBody q s → StringBody ('\\' :: e :: q) (c :: s)
  | units {p c q s} : SpellsUnits p (utf16 c) → StringBody q s → StringBody (p ++ q) (c :: s)

/-- A number literal: sign, integer part without leading zeros, fraction, exponent. -/
structure NumberParts (sign ip frac exp : List Char) : Prop where
  sign : sign = [] ∨ sign = ['-']
  int : Digits ip ∧ (ip = ['0'] ∨ ip.head? ≠ some '0')
  frac : frac = [] ∨ ∃ d, Digits d ∧ frac = '.' :: d
  exp : exp = [] ∨ ∃ e sg d, Digits d ∧ (sg = [] ∨ sg = ['-'] ∨ sg = ['+']) ∧ (e = 'e' ∨ e = 'E') ∧ exp = e :: sg ++ d

/-- The dict a list of items denotes: every key where it came first, with the value it came with last. -/
structure DictOf (pairs d : List (String × Val)) : Prop where
  keys : d.map Prod.fst = (pairs.map Prod.fst).eraseDups
  vals : ∀ k, d.lookup k = pairs.reverse.lookup k

mutual
/-- The text of one value, without white space around it, and the value. `rf` is `float(text)`. -/
inductive JsonText (rf : List Char → List Char) : List Char → Val → Prop
  | null : JsonText rf "null".toList .none
  | tt : JsonText rf "true".toList (.bool true)
  | ff : JsonText rf "false".toList (.bool false)
  | nan : JsonText rf "NaN".toList (.float "nan".toList)
  | inf : JsonText rf "Infinity".toList (.float "inf".toList)
  | ninf : JsonText rf "-Infinity".toList (.float "-inf".toList)
  | int (n : Int) : JsonText rf (Str.ofInt n) (.int n)
  | minusZero : JsonText rf "-0".toList (.int 0)
  | float {sign ip frac exp} : NumberParts sign ip frac exp → ¬ (frac = [] ∧ exp = []) →
      JsonText rf (sign ++ ip ++ frac ++ exp) (.float (rf (sign ++ ip ++ frac ++ exp)))
  | str {q s} : StringBody q s → JsonText rf ('"' :: q ++ ['"']) (.str s)
  | emptyList {w} : JsonSpace w → JsonText rf ('[' :: w ++ [']']) (.list [])
  | list {w q vs} : JsonSpace w → JsonItems rf q vs → JsonText rf ('[' :: w ++ q ++ [']']) (.list vs)
  | emptyDict {w} : JsonSpace w → JsonText rf ('{' :: w ++ ['}']) (.dict [])
  | dict {w q ps d} : JsonSpace w → JsonMembers rf q ps → DictOf ps d → JsonText rf ('{' :: w ++ q ++ ['}']) (.dict d)
/-- One or more values with commas between them. -/
inductive JsonItems (rf : List Char → List Char) : List Char → List Val → Prop
  | one {q v w} : JsonText rf q v → JsonSpace w → JsonItems rf (q ++ w) [v]
  | cons {q v w w' q' vs} : JsonText rf q v → JsonSpace w → JsonSpace w' → JsonItems rf q' vs →
      JsonItems rf (q ++ w ++ ',' :: w' ++ q') (v :: vs)
/-- One or more items `"name": value` with commas between them. -/
inductive JsonMembers (rf : List Char → List Char) : List Char → List (String × Val) → Prop
  | one {p k w w' q v u} : StringBody p k → JsonSpace w → JsonSpace w' → JsonText rf q v → JsonSpace u →
      JsonMembers rf ('"' :: p ++ '"' :: w ++ ':' :: w' ++ q ++ u) [(String.ofList k, v)]
  | cons {p k w w' q v u u' q' ps} : StringBody p k → JsonSpace w → JsonSpace w' → JsonText rf q v → JsonSpace u →
      JsonSpace u' → JsonMembers rf q' ps →
      JsonMembers rf ('"' :: p ++ '"' :: w ++ ':' :: w' ++ q ++ u ++ ',' :: u' ++ q') ((String.ofList k, v) :: ps)
end

/-- A JSON text: one value with white space around it. -/
def JsonDocument (rf : List Char → List Char) (s : List Char) (v : Val) : Prop :=
  ∃ w q w', JsonSpace w ∧ JsonText rf q v ∧ JsonSpace w' ∧ s = w ++ q ++ w'

end Verif.Spec
