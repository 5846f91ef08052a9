import Verif.Lemmas.JsonReads
import Verif.Props.RoundTrip
/-!
# C68: storing a document as JSON text

`rf` is the interpreter's `float(text)`, given by the `repr` of its result; all that is assumed of it is that what it
returns is printed in the form Python prints floats, and that reading what was printed gives the same float.
-/

namespace Verif.Props
open Verif Verif.Json

/-- `float`, as far as the examples need it. -/
def sampleFloat (s : Str) : Str := if s = "66.5".toList then s else "inf".toList

theorem sampleFloat_ok : ∀ s, Spec.FloatRepr sampleFloat (sampleFloat s) := by
  intro s
  unfold sampleFloat
  split
  · next h =>
    subst h
    refine .inr (.inr (.inr ⟨⟨[], ['6', '6'], ['.', '5'], [], ?_⟩, ?_⟩))
    · refine ⟨rfl, .inl rfl, ⟨⟨by simp, by simp⟩, .inr (by simp)⟩, .inr ⟨['5'], ⟨by simp, by simp⟩, rfl⟩, .inl rfl, by simp⟩
    · rfl
  · exact .inr (.inl rfl)

/-- The property one wants: whatever is read from JSON text can be stored as JSON text again. -/
def storable (rf : Str → Str) : Prop :=
  ∀ (s : Str) (v : Val) (n : Node), loads rf s = some v → (parseNode true v).out = .ok n → Spec.Converted n →
    ∃ d' s', n.toDict = .ok d' ∧ dumps Option.none d' = some s'

/-- A document with a link whose optional attributes are left out. -/
def linkText : Str :=
  "{\"type\": \"text\", \"text\": \"T\", \"marks\": [{\"type\": \"link\", \"attrs\": {\"href\": \"u\"}}]}".toList

/-- Reads the text, parses it, and sees whether the result can be written. -/
def storeFails (s : Str) : Bool :=
  match loads sampleFloat s with
  | some v => match (parseNode true v).out with
    | .ok n => (match n.toDict with | .ok d' => (dumps Option.none d').isNone | _ => false) &&
        (match n.content with | .raw _ => false | .val _ => false | _ => true) &&
        (match n.hd.marks with | .raw _ => false | _ => true)
    | _ => false
  | _ => false

theorem linkText_fails : storeFails linkText = true := by decide +kernel

/-- C68 is false: a link that leaves out an optional attribute makes `json.dumps(node.to_dict())` raise TypeError. -/
theorem C68_false : ¬ storable sampleFloat := by
  intro h
  have h1 := linkText_fails
  unfold storeFails at h1
  split at h1
  · rename_i v hs
    split at h1
    · rename_i n hn
      obtain ⟨d', s', hd', hs'⟩ := h _ v n hs hn (by
        have key : ∀ x, Spec.Within n x → x = n := by
          intro x hx
          induction hx with
          | self => rfl
          | child _ hc _ ih => rw [ih] at hc; rw [hc] at h1; simp at h1
        intro x hx
        rw [key x hx]
        constructor
        · intro v hv; rw [hv] at h1; simp at h1
        · intro v hv; rw [hv] at h1; simp at h1)
      rw [hd'] at h1
      simp [hs'] at h1
    · simp at h1
  · simp at h1

/-- C68, what holds: a document read from JSON text (any text, any indentation used for writing) can be written as
JSON text exactly if no mark in it leaves out an attribute; and then the text reads back to what was written, which parses
to the same document again, with nothing logged. -/
theorem C68_partial (rf : Str → Str) (hrf : ∀ lit, Spec.FloatRepr rf (rf lit)) (w w' : Bool) (indent : Option Nat)
    (s : Str) (v : Val) (n : Node) (hs : loads rf s = some v) (hn : (parseNode w v).out = .ok n)
    (hc : Spec.Converted n) :
    ∃ d', n.toDict = .ok d' ∧ ((∃ s', dumps indent d' = some s') ↔ Spec.MarksFilled n) ∧
      ∀ s', dumps indent d' = some s' → loads rf s' = some d' ∧ parseNode w' d' = ⟨[], .ok n⟩ := by
  have hv := (data_iff rf v).1 (loads_data hrf hs)
  obtain ⟨d', h1, h2, -⟩ := C04_parse_node w w' v n hv.2 hn hc
  obtain ⟨d, t, rfl, ht, hr, hf⟩ := parseNode_ok hn
  have hpl := C06_partial w n.cls _ d' n hv.2 hf h1
  have hcl := hv.1
  rw [Clean] at hcl
  have hd' := toDict_clean (rf := rf) n d hcl.2 hf d' h1
  refine ⟨d', h1, ?_, ?_⟩
  · rw [← hpl, ← dumps_isSome rf indent d', Option.isSome_iff_exists]
  · intro s' hs'
    refine ⟨loads_dumps ((data_iff rf d').2 ⟨hd', ?_⟩) hs', h2⟩
    exact (dumps_isSome rf indent d').1 (by simp [hs'])

/-- C68 for plain data in general: what `json.loads` returns, `json.dumps` writes, and it is read back unchanged. -/
theorem C68_data (rf : Str → Str) (hrf : ∀ lit, Spec.FloatRepr rf (rf lit)) (indent : Option Nat) (s : Str) (v : Val)
    (hs : loads rf s = some v) : ∃ s', dumps indent v = some s' ∧ loads rf s' = some v := by
  have hv := loads_data hrf hs
  obtain ⟨s', h⟩ := Option.isSome_iff_exists.1 ((dumps_isSome rf indent v).2 ((data_iff rf v).1 hv).2)
  exact ⟨s', h, loads_dumps hv h⟩

/-- C68: text cut off before its end is never read as a document: of all the beginnings of the text of a document
(of any dict of plain data) `json.loads` accepts only the whole text. -/
theorem C68_cut (rf : Str → Str) (indent : Option Nat) (d : List (String × Val)) (s p : Str) (x : Val)
    (hd : Spec.Data rf (.dict d)) (hs : dumps indent (.dict d) = some s) (hp : p <+: s) (hx : loads rf p = some x) :
    p = s ∧ x = .dict d := loads_prefix hd hs hp hx

/-- A document as text, with escapes, a float, a duplicate key and odd spacing. -/
def textSample : Str :=
  "\n{\"type\": \"x\",\t\"version\" : 1, \"type\":\"doc\", \"content\": [ {\"type\": \"mediaSingle\", \"attrs\": {\"layout\": \"center\", \"width\": 66.5}, \"content\": [{\"type\": \"text\", \"text\": \"\\u00e9\\n\\\"\"}]} ]}".toList

/-- Reads the text, parses it, writes it and reads it again. -/
def storeWorks (s : Str) : Bool :=
  match loads sampleFloat s with
  | some v => match (parseNode true v).out with
    | .ok n => match n.toDict with
      | .ok d' => match dumps (some 2) d' with
        | some s' => s'.length > 100 && dumps Option.none d' = dumps Option.none ((loads sampleFloat s').getD .none)
        | _ => false
      | _ => false
    | _ => false
  | _ => false

example : storeWorks textSample = true := by decide +kernel

/-- Of the beginnings of the sample only the whole text can be read. -/
example : (List.range (linkText.length + 1)).map (fun i => (loads sampleFloat (linkText.take i)).isSome)
    = List.replicate linkText.length false ++ [true] := by decide +kernel

/-- The sample is read, parsed and fully converted, and every mark of it can be stored. -/
theorem textSample_parses : ∃ v n, loads sampleFloat textSample = some v ∧ (parseNode true v).out = .ok n ∧
    Spec.Converted n := by
  have h : (match loads sampleFloat textSample with
    | some v => match (parseNode true v).out with
      | .ok n => noRaw n
      | _ => false
    | _ => false) = true := by decide +kernel
  split at h
  · rename_i v hv
    split at h
    · rename_i n hn
      exact ⟨v, n, hv, hn, converted_of_noRaw h⟩
    · cases h
  · cases h

example : True := by
  obtain ⟨v, n, hv, hn, hc⟩ := textSample_parses
  have h1 := C68_partial sampleFloat sampleFloat_ok true false (some 2) textSample v n hv hn hc
  have h2 := C68_data sampleFloat sampleFloat_ok none textSample v hv
  trivial

/-- A dict, its text, and the text itself as a prefix that reads. -/
example : True := by
  obtain ⟨v, n, hv, hn, hc⟩ := textSample_parses
  have hd := loads_data sampleFloat_ok hv
  obtain ⟨s', h1, h2⟩ := C68_data sampleFloat sampleFloat_ok (some 2) textSample v hv
  cases v with
  | dict d =>
    have := C68_cut sampleFloat (some 2) d s' s' (.dict d) hd h1 (List.prefix_refl _) h2
    trivial
  | _ => trivial

/-- C81: `json.loads` reads exactly the texts of the JSON grammar (RFC 8259 and the words `NaN`, `Infinity`, `-Infinity`),
each as the value it denotes: strings with all their escapes, numbers, lists in order, and objects as dicts in which a
repeated name keeps its first place and its last value. -/
theorem C81_reads (rf : Str → Str) (s : Str) (v : Val) : loads rf s = some v ↔ Spec.JsonDocument rf s v :=
  loads_iff rf s v

/-- C81: a string literal is read as the string it denotes, and nothing else between quotes is. -/
theorem C81_strings (rf : Str → Str) (q x : Str) :
    loads rf ('"' :: q ++ ['"']) = some (.str x) ↔ Spec.StringBody q x := by
  constructor
  · intro h
    unfold loads at h
    have hb : ('"' :: q ++ ['"']).head? ≠ some (Char.ofNat 0xFEFF) := by
      simp only [List.cons_append, List.head?_cons]; decide
    rw [if_neg hb, List.cons_append, skipWs_cons (by decide)] at h
    simp only [List.length_cons, parse, if_true] at h
    split at h
    · rename_i v r hv
      obtain ⟨⟨y, r'⟩, h1, h2⟩ := Option.map_eq_some_iff.1 hv
      cases h2
      split at h
      · rename_i hr
        cases h
        obtain ⟨q', e1, e2⟩ := scanStr_sound _ _ _ h1
        have hr : skipWs r' = [] := by simpa using hr
        obtain ⟨w, k1, k2⟩ := skipWs_spec r'
        rw [hr, List.append_nil] at k1
        subst k1
        have hr0 : r' = [] := by
          rcases List.eq_nil_or_concat r' with h0 | ⟨l, c, h0⟩
          · exact h0
          · rw [h0] at e1 k2
            have e3 : q ++ ['"'] = (q' ++ '"' :: l) ++ [c] := by rw [e1]; simp
            have := congrArg List.getLast? e3
            rw [List.getLast?_concat, List.getLast?_concat, Option.some.injEq] at this
            have hw := k2 c (by simp)
            rw [← this] at hw
            exact absurd hw (by decide)
        rw [hr0] at e1
        rw [List.append_cancel_right e1]
        exact e2
      · cases h
    · cases h
  · intro h
    exact (loads_iff rf _ _).2 ⟨[], _, [], by simp [Spec.JsonSpace], .str h, by simp [Spec.JsonSpace], by simp⟩

/-- An emoji as an escaped surrogate pair, short escapes and a plain character. -/
example : Spec.StringBody "\\ud83D\\ude00\\n\\/é".toList [Char.ofNat 0x1F600, '\n', '/', 'é'] := by
  have h : scanStr ("\\ud83D\\ude00\\n\\/é".toList ++ ['"']) = some ([Char.ofNat 0x1F600, '\n', '/', 'é'], []) := by
    decide +kernel
  obtain ⟨q, h1, h2⟩ := scanStr_sound _ _ _ h
  rw [List.append_cancel_right h1]
  exact h2

/-- The sample text with odd spacing and a repeated name is in the grammar. -/
example : ∃ v, Spec.JsonDocument sampleFloat textSample v := by
  obtain ⟨v, n, hv, hn, hc⟩ := textSample_parses
  exact ⟨v, (C81_reads _ _ _).1 hv⟩

/-- Trailing commas, single quotes, leading zeros, a bare `.5`, an unescaped line break: none is JSON. -/
example : ["[1,]", "{'a': 1}", "01", ".5", "\"a\nb\"", "{\"a\" 1}", "[1 2]", "1.", "+1", "\"\\x41\"", "nul", ""].map
    (fun t => (loads sampleFloat t.toList).isNone) = List.replicate 12 true := by decide +kernel

end Verif.Props
