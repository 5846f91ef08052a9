import Verif.Lemmas.Samples
import Verif.Model.Pipeline
import Verif.Props.Json
import Verif.Props.KeyOrder
import Verif.Props.UnknownKeys
/-!
# C90: from JSON text to Markdown
-/

namespace Verif.Props
open Verif Json

/-- The same document: equal up to the order of keys and keys that the format does not know. -/
inductive SameDoc : Val → Val → Prop where
  | refl (v : Val) : SameDoc v v
  | symm {u v : Val} (h : SameDoc u v) : SameDoc v u
  | trans {u v v' : Val} (h : SameDoc u v) (h' : SameDoc v v') : SameDoc u v'
  | order {v v' : Val} (h : Spec.SameKeys v v') : SameDoc v v'
  | unknown {v v' : Val} (h : Spec.AddNodeKeys v v') : SameDoc v v'

theorem sameDoc_fromDict (w : Bool) (c : NodeCls) {v v' : Val} (h : SameDoc v v') : c.fromDict w v' = c.fromDict w v := by
  induction h with
  | refl => rfl
  | symm _ ih => exact ih.symm
  | trans _ _ ih ih' => rw [ih', ih]
  | order h => exact C51_from_dict w c _ _ h
  | unknown h => exact C02_from_dict w c _ _ h

/-- C90: only what the JSON text denotes matters. Two texts (with any white space, any escapes, any spelling of names and numbers that denotes
the same) of the same document give the same warnings and the same Markdown or exception, in both modes. -/
theorem C90_text_independent (rf : Str → Str) (env : Env) (w ig : Bool) (s s' : Str) (v v' : Val) (hs : Spec.JsonDocument rf s v)
    (hs' : Spec.JsonDocument rf s' v') (h : SameDoc v v') : textToMarkdown rf env w ig s' = textToMarkdown rf env w ig s := by
  unfold textToMarkdown
  rw [(C81_reads rf s v).mpr hs, (C81_reads rf s' v').mpr hs']
  simp only [sameDoc_fromDict w .doc h]

/-- C90: text that is no JSON is refused; nothing is logged. -/
theorem C90_no_json (rf : Str → Str) (env : Env) (w ig : Bool) (s : Str) :
    (textToMarkdown rf env w ig s).out = none ↔ ¬ ∃ v, Spec.JsonDocument rf s v := by
  unfold textToMarkdown
  cases h : loads rf s with
  | none =>
    refine iff_of_true rfl fun ⟨v, hv⟩ => ?_
    rw [(C81_reads rf s v).mpr hv] at h
    cases h
  | some v =>
    refine iff_of_false ?_ fun hn => hn ⟨v, (C81_reads rf s v).mp h⟩
    dsimp only
    split <;> simp

/-- C90: a document that is stored again as JSON text converts to the same Markdown, or raises the same exception, and its parts that were
skipped are not reported again. -/
theorem C90_stored (rf : Str → Str) (hrf : ∀ lit, Spec.FloatRepr rf (rf lit)) (env : Env) (w w' ig : Bool) (indent : Option Nat) (s s' : Str)
    (hc : ∀ v n, loads rf s = some v → (NodeCls.doc.fromDict w v).out = .ok n → Spec.Converted n)
    (hs : textToText rf w indent s = some s') :
    (textToMarkdown rf env w' ig s').out = (textToMarkdown rf env w ig s).out ∧ (textToMarkdown rf env w' ig s').log = [] := by
  unfold textToText at hs
  cases hv : loads rf s with
  | none => rw [hv] at hs; cases hs
  | some v =>
    rw [hv] at hs
    dsimp only at hs
    cases hn : (NodeCls.doc.fromDict w v).out with
    | error e => rw [hn] at hs; cases hs
    | ok n =>
      rw [hn] at hs
      dsimp only at hs
      have hd := (data_iff rf v).1 (loads_data hrf hv)
      obtain ⟨d', h1, h2, -⟩ := C04_from_dict w w' .doc v n hd.2 hn (hc v n hv hn)
      rw [h1] at hs
      dsimp only at hs
      have hcl : Spec.Data rf d' := by
        have := hd.1
        cases v with
        | dict d =>
          rw [Clean] at this
          have h3 := toDict_clean (rf := rf) n d this.2 (by
            have : n.cls = .doc := by
              obtain ⟨a, k, m, _, _, _, _, heq⟩ := nodeFromDict_ok hn
              rw [heq]; rfl
            rw [this]; exact hn) d' h1
          exact (data_iff rf d').2 ⟨h3, (dumps_isSome rf indent d').1 (by rw [hs]; rfl)⟩
        | _ => cases hn
      have hl := loads_dumps hcl hs
      unfold textToMarkdown
      rw [hl, hv]
      dsimp only
      rw [h2, hn]
      exact ⟨rfl, rfl⟩

/-! ## examples -/

/-- The same document as text, written in two ways. -/
def textA : Str := "{\"type\":\"doc\",\"version\":1,\"content\":[{\"type\":\"paragraph\",\"content\":[{\"type\":\"text\",\"text\":\"\\u0061\"}]}]}".toList
def textB : Str := " {\"version\" : 1, \"x\": [2.5], \"type\": \"doc\",\n\"content\": [ {\"content\":[{\"text\":\"a\", \"type\":\"text\"}], \"type\":\"par\\u0061graph\"} ]}\n".toList

def shownText (x : Shown) : Option Str :=
  match x.out with
  | some (.ok (.str s)) => some s
  | _ => none

example : shownText (textToMarkdown sampleFloat Samples.env true false textA) = some "a\n".toList := by decide +kernel
example : shownText (textToMarkdown sampleFloat Samples.env true false textB) = some "a\n".toList := by decide +kernel
example : (textToText sampleFloat true (some 2) textB).isSome = true := by decide +kernel

/-- The second text can be stored, and everything in it was converted. -/
theorem textB_stored : ∃ s', textToText sampleFloat true (some 2) textB = some s' ∧
    ∀ v n, loads sampleFloat textB = some v → (NodeCls.doc.fromDict true v).out = .ok n → Spec.Converted n := by
  have h0 : (textToText sampleFloat true (some 2) textB).isSome = true := by decide +kernel
  have h : (match loads sampleFloat textB with
    | some v => match (NodeCls.doc.fromDict true v).out with
      | .ok n => noRaw n
      | _ => false
    | _ => false) = true := by decide +kernel
  obtain ⟨s', hs'⟩ := Option.isSome_iff_exists.mp h0
  refine ⟨s', hs', fun v n hv hn => ?_⟩
  rw [hv] at h
  dsimp only at h
  rw [hn] at h
  exact converted_of_noRaw h

example : True := by
  obtain ⟨s', hs', hc⟩ := textB_stored
  have := C90_stored sampleFloat sampleFloat_ok Samples.env true false false (some 2) textB s' hc hs'
  trivial

/-- Two dicts that differ in the order of keys. -/
def swapA : Val := .dict [("type", .str "doc".toList), ("version", .int 1)]
def swapB : Val := .dict [("version", .int 1), ("type", .str "doc".toList)]

theorem swap_data : Spec.Data sampleFloat swapA ∧ Spec.Data sampleFloat swapB :=
  ⟨(data_iff _ _).2 ⟨⟨by decide, trivial, trivial, trivial⟩, by decide⟩, (data_iff _ _).2 ⟨⟨by decide, trivial, trivial, trivial⟩, by decide⟩⟩

/-- Two texts of them, one indented. -/
example : True := by
  obtain ⟨sA, hA⟩ := Option.isSome_iff_exists.mp ((dumps_isSome sampleFloat none swapA).2 (by decide))
  obtain ⟨sB, hB⟩ := Option.isSome_iff_exists.mp ((dumps_isSome sampleFloat (some 2) swapB).2 (by decide))
  have := C90_text_independent sampleFloat Samples.env true false sA sB swapA swapB
    ((C81_reads _ _ _).mp (loads_dumps swap_data.1 hA)) ((C81_reads _ _ _).mp (loads_dumps swap_data.2 hB))
    (.order (.more (.same _) (.here [] [] _ _ (by decide))))
  trivial

end Verif.Props
