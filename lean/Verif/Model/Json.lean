import Verif.Py.Val
/-!
# `json.dumps` and `json.loads`

The standard library functions through which documents reach and leave the library
(atlas_doc_parser/tests/data/samples.py:75,86,89, atlas_doc_parser/tests/data/schema.py:24,28,29; every user who stores `to_dict()` as text).

* `dumps(v, indent=…, ensure_ascii=False)`: Lib/json/encoder.py (`py_encode_basestring`, `_make_iterencode`).
* `loads(s)`: Lib/json/decoder.py (`JSONDecoder.decode`, `JSONObject`, `JSONArray`, `py_scanstring`) and
  Lib/json/scanner.py (`NUMBER_RE`, `_scan_once`).

Simplifications: `float(literal)` is a parameter (`readFloat`, giving the `repr` of the result); an escaped lone
surrogate, which Python turns into a string our `Str` cannot hold, makes the model's `loads` fail; nesting deeper
than the interpreter's recursion limit is not modelled.  `none` stands for `json.JSONDecodeError`
(`TypeError` in `dumps`, which is only raised for the `OPT` sentinel).
-/

namespace Verif.Json

/-! ## Encoding -/

/-- Lower-case hexadecimal digit (`'\\u{0:04x}'.format`, Lib/json/encoder.py:26). -/
def hexChar (n : Nat) : Char :=
  if n < 10 then Char.ofNat (48 + n) else Char.ofNat (87 + n)

/-- `ESCAPE_DCT`, Lib/json/encoder.py:13-26: one character inside a string literal (`ensure_ascii=False`). -/
def escapeChar (c : Char) : Str :=
  if c = '\\' then ['\\', '\\']
  else if c = '"' then ['\\', '"']
  else if c = '\n' then ['\\', 'n']
  else if c = '\r' then ['\\', 'r']
  else if c = '\t' then ['\\', 't']
  else if c.toNat = 8 then ['\\', 'b']
  else if c.toNat = 12 then ['\\', 'f']
  else if c.toNat < 32 then ['\\', 'u', '0', '0', hexChar (c.toNat / 16), hexChar (c.toNat % 16)]
  else [c]

/-- `py_encode_basestring`, Lib/json/encoder.py:33-39. -/
def encodeStr (s : Str) : Str := '"' :: s.flatMap escapeChar ++ ['"']

/-- `floatstr`, Lib/json/encoder.py:226-246: a float, given by its `repr`. -/
def encodeFloat (r : Str) : Str :=
  if r = "nan".toList then "NaN".toList
  else if r = "inf".toList then "Infinity".toList
  else if r = "-inf".toList then "-Infinity".toList
  else r

/-- What precedes an element at nesting depth `l` (`newline_indent`, Lib/json/encoder.py:285-288,345-348); nothing for
`indent=None`. -/
def newline (indent : Option Nat) (l : Nat) : Str :=
  match indent with
  | Option.none => []
  | some k => '\n' :: List.replicate (k * l) ' '

/-- `item_separator`: `", "` for `indent=None`, `","` otherwise (Lib/json/encoder.py:147-150). -/
def itemSep (indent : Option Nat) : Str :=
  match indent with
  | Option.none => [',', ' ']
  | some _ => [',']

mutual
/-- `_iterencode`, Lib/json/encoder.py:263-443: the value `v` at nesting depth `l`. -/
def encode (indent : Option Nat) (l : Nat) : Val → Option Str
  | .none => some "null".toList
  | .bool true => some "true".toList
  | .bool false => some "false".toList
  | .int n => some (Str.ofInt n)
  | .float r => some (encodeFloat r)
  | .str s => some (encodeStr s)
  | .list [] => some ['[', ']']
  | .list (v :: vs) => do
      let a ← encode indent (l + 1) v
      let b ← encodeTail indent (l + 1) vs
      some ('[' :: newline indent (l + 1) ++ a ++ b ++ newline indent l ++ [']'])
  | .dict [] => some ['{', '}']
  | .dict ((k, v) :: d) => do
      let a ← encode indent (l + 1) v
      let b ← encodePairs indent (l + 1) d
      some ('{' :: newline indent (l + 1) ++ encodeStr k.toList ++ [':', ' '] ++ a ++ b ++ newline indent l ++ ['}'])
  | .opt => Option.none
/-- The elements of a list after the first, each with its separator. -/
def encodeTail (indent : Option Nat) (l : Nat) : List Val → Option Str
  | [] => some []
  | v :: vs => do
      let a ← encode indent l v
      let b ← encodeTail indent l vs
      some (itemSep indent ++ newline indent l ++ a ++ b)
/-- The items of a dict after the first, each with its separator. -/
def encodePairs (indent : Option Nat) (l : Nat) : List (String × Val) → Option Str
  | [] => some []
  | (k, v) :: d => do
      let a ← encode indent l v
      let b ← encodePairs indent l d
      some (itemSep indent ++ newline indent l ++ encodeStr k.toList ++ [':', ' '] ++ a ++ b)
end

/-- `json.dumps(v, indent=indent, ensure_ascii=False)`. -/
def dumps (indent : Option Nat) (v : Val) : Option Str := encode indent 0 v

/-! ## Decoding -/

/-- `WHITESPACE`, Lib/json/decoder.py: space, tab, line feed, carriage return. -/
def isWs (c : Char) : Bool := c == ' ' || c == '\t' || c == '\n' || c == '\r'

/-- `WHITESPACE.match(s, end).end()`. -/
def skipWs (s : Str) : Str := s.dropWhile isWs

/-- The digit value of a hexadecimal digit. -/
def hexVal (c : Char) : Option Nat :=
  let n := c.toNat
  if 48 ≤ n ∧ n ≤ 57 then some (n - 48)
  else if 97 ≤ n ∧ n ≤ 102 then some (n - 87)
  else if 65 ≤ n ∧ n ≤ 70 then some (n - 55)
  else Option.none

/-- `_decode_uXXXX`, Lib/json/decoder.py:60-69. -/
def hex4 (a b c d : Char) : Option Nat := do
  let a ← hexVal a
  let b ← hexVal b
  let c ← hexVal c
  let d ← hexVal d
  some (((a * 16 + b) * 16 + c) * 16 + d)

/-- `BACKSLASH`, Lib/json/decoder.py:55-58. -/
def unescape (c : Char) : Option Char :=
  if c = '"' then some '"'
  else if c = '\\' then some '\\'
  else if c = '/' then some '/'
  else if c = 'b' then some (Char.ofNat 8)
  else if c = 'f' then some (Char.ofNat 12)
  else if c = 'n' then some '\n'
  else if c = 'r' then some '\r'
  else if c = 't' then some '\t'
  else Option.none

/-- `py_scanstring`, Lib/json/decoder.py:72-129, `strict=True`, behind the opening quote: the string and what follows
the closing quote. -/
def scanStr : Str → Option (Str × Str)
  | [] => Option.none
  | c :: cs =>
      if c = '"' then some ([], cs)
      else if c = '\\' then
        match cs with
        | [] => Option.none
        | e :: r =>
            if e = 'u' then
              match r with
              | h1 :: h2 :: h3 :: h4 :: r1 =>
                  match hex4 h1 h2 h3 h4 with
                  | Option.none => Option.none
                  | some u =>
                      if 0xD800 ≤ u ∧ u ≤ 0xDBFF then
                        match r1 with
                        | b1 :: b2 :: g1 :: g2 :: g3 :: g4 :: r2 =>
                            if b1 = '\\' ∧ b2 = 'u' then
                              match hex4 g1 g2 g3 g4 with
                              | Option.none => Option.none
                              | some w =>
                                  if 0xDC00 ≤ w ∧ w ≤ 0xDFFF then
                                    (scanStr r2).map fun p =>
                                      (Char.ofNat (0x10000 + (u - 0xD800) * 1024 + (w - 0xDC00)) :: p.1, p.2)
                                  else Option.none
                            else Option.none
                        | _ => Option.none
                      else if 0xDC00 ≤ u ∧ u ≤ 0xDFFF then Option.none
                      else (scanStr r1).map fun p => (Char.ofNat u :: p.1, p.2)
              | _ => Option.none
            else
              match unescape e with
              | Option.none => Option.none
              | some x => (scanStr r).map fun p => (x :: p.1, p.2)
      else if c.toNat < 32 then Option.none
      else (scanStr cs).map fun p => (c :: p.1, p.2)

/-- A decimal digit (`[0-9]`, Lib/json/scanner.py `NUMBER_RE`). -/
def isDigit (c : Char) : Bool := 48 ≤ c.toNat && c.toNat ≤ 57

/-- The number a string of decimal digits denotes (`int(integer)`). -/
def digitsVal (s : Str) : Nat := s.foldl (fun a c => a * 10 + (c.toNat - 48)) 0

/-- `(\.[0-9]+)?` of `NUMBER_RE`: matched part and rest. -/
def scanFrac : Str → Str × Str
  | '.' :: s =>
      let d := s.takeWhile isDigit
      if d.isEmpty then ([], '.' :: s) else ('.' :: d, s.dropWhile isDigit)
  | s => ([], s)

/-- `[-+]?` of `NUMBER_RE`. -/
def scanSign : Str → Str
  | [] => []
  | c :: _ => if c = '-' ∨ c = '+' then [c] else []

/-- `([eE][-+]?[0-9]+)?` of `NUMBER_RE`: matched part and rest. -/
def scanExp : Str → Str × Str
  | [] => ([], [])
  | e :: s =>
      if e = 'e' ∨ e = 'E' then
        let sign := scanSign s
        let t := s.drop sign.length
        let d := t.takeWhile isDigit
        if d.isEmpty then ([], e :: s) else (e :: sign ++ d, t.dropWhile isDigit)
      else ([], e :: s)

/-- `NUMBER_RE.match` of an unsigned number and the conversion in `_scan_once`, Lib/json/scanner.py:52-60;
`neg` if a minus sign came before. -/
def scanUnsigned (readFloat : Str → Str) (neg : Bool) (s : Str) : Option (Val × Str) :=
  match s with
  | [] => Option.none
  | c :: cs =>
      if isDigit c then
        let i := if c = '0' then ['0'] else c :: cs.takeWhile isDigit
        let r := if c = '0' then cs else cs.dropWhile isDigit
        let f := scanFrac r
        let e := scanExp f.2
        let sign := if neg then ['-'] else []
        if f.1.isEmpty && e.1.isEmpty then
          some (.int (if neg then -(digitsVal i : Int) else (digitsVal i : Int)), e.2)
        else some (.float (readFloat (sign ++ i ++ f.1 ++ e.1)), e.2)
      else Option.none

/-- `s` with the prefix `p` removed. -/
def afterPrefix (p s : Str) : Option Str := if p.isPrefixOf s then some (s.drop p.length) else Option.none

/-- The scalars other than strings in `_scan_once`, Lib/json/scanner.py:43-67; `c` is the first character. -/
def scanScalar (readFloat : Str → Str) (c : Char) (s : Str) : Option (Val × Str) :=
  if c = 'n' then (afterPrefix "ull".toList s).map fun r => (.none, r)
  else if c = 't' then (afterPrefix "rue".toList s).map fun r => (.bool true, r)
  else if c = 'f' then (afterPrefix "alse".toList s).map fun r => (.bool false, r)
  else if c = 'N' then (afterPrefix "aN".toList s).map fun r => (.float "nan".toList, r)
  else if c = 'I' then (afterPrefix "nfinity".toList s).map fun r => (.float "inf".toList, r)
  else if c = '-' then
    match scanUnsigned readFloat true s with
    | some x => some x
    | Option.none => (afterPrefix "Infinity".toList s).map fun r => (.float "-inf".toList, r)
  else scanUnsigned readFloat false (c :: s)

/-- `dict(pairs)`: a repeated key keeps its place and takes the last value. -/
def setPair (k : String) (v : Val) : List (String × Val) → List (String × Val)
  | [] => [(k, v)]
  | (k', v') :: d => if k' = k then (k', v) :: d else (k', v') :: setPair k v d

/-- `dict(pairs)`, Lib/json/decoder.py:218. -/
def ofPairs (l : List (String × Val)) : List (String × Val) := l.foldl (fun d p => setPair p.1 p.2 d) []

mutual
/-- `_scan_once`, Lib/json/scanner.py:27-67: the value at the start of the text and what follows it. The first argument
bounds the recursion; `loads` passes the length of the text, which is always enough (`Lemmas/Json.parse_fuel`). -/
def parse (readFloat : Str → Str) : Nat → Str → Option (Val × Str)
  | 0, _ => Option.none
  | _ + 1, [] => Option.none
  | f + 1, c :: cs =>
      if c = '"' then (scanStr cs).map fun p => (.str p.1, p.2)
      else if c = '{' then
        match skipWs cs with
        | '}' :: r => some (.dict [], r)
        | r => (parsePairs readFloat f r).map fun p => (.dict (ofPairs p.1), p.2)
      else if c = '[' then
        match skipWs cs with
        | ']' :: r => some (.list [], r)
        | r => (parseItems readFloat f r).map fun p => (.list p.1, p.2)
      else scanScalar readFloat c cs
/-- The loop of `JSONArray`, Lib/json/decoder.py:228-257: elements up to the closing bracket. -/
def parseItems (readFloat : Str → Str) : Nat → Str → Option (List Val × Str)
  | 0, _ => Option.none
  | f + 1, s =>
      match parse readFloat f s with
      | Option.none => Option.none
      | some (v, r) =>
          match skipWs r with
          | ']' :: r' => some ([v], r')
          | ',' :: r' => (parseItems readFloat f (skipWs r')).map fun p => (v :: p.1, p.2)
          | _ => Option.none
/-- The loop of `JSONObject`, Lib/json/decoder.py:137-225: items up to the closing brace. -/
def parsePairs (readFloat : Str → Str) : Nat → Str → Option (List (String × Val) × Str)
  | 0, _ => Option.none
  | f + 1, s =>
      match s with
      | '"' :: s' =>
          match scanStr s' with
          | Option.none => Option.none
          | some (k, r) =>
              match skipWs r with
              | ':' :: r1 =>
                  match parse readFloat f (skipWs r1) with
                  | Option.none => Option.none
                  | some (v, r2) =>
                      match skipWs r2 with
                      | '}' :: r' => some ([(String.ofList k, v)], r')
                      | ',' :: r' =>
                          (parsePairs readFloat f (skipWs r')).map fun p => ((String.ofList k, v) :: p.1, p.2)
                      | _ => Option.none
              | _ => Option.none
      | _ => Option.none
end

/-- `json.loads(s)` for a `str`: Lib/json/__init__.py:299-359 (byte order mark) and `JSONDecoder.decode`,
Lib/json/decoder.py:332-344 (nothing but white space around the value). -/
def loads (readFloat : Str → Str) (s : Str) : Option Val :=
  if s.head? = some (Char.ofNat 0xFEFF) then Option.none
  else
    match parse readFloat (skipWs s).length (skipWs s) with
    | some (v, r) => if (skipWs r).isEmpty then some v else Option.none
    | Option.none => Option.none

end Verif.Json
