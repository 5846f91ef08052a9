import Verif.Props.Reference
import Verif.Props.Lossless
import Verif.Props.Serial
import Verif.Lemmas.RoundTrip
/-!
# C66: which documents of the reference survive parsing and serialising
-/

namespace Verif.Props
open Verif Verif.Spec Verif.Spec.Ref

theorem under_cases {v x : Val} (h : Under v x) : x = v ∨ ∃ d l k, v = .dict d ∧
    lookupKey d "content" = some (.list l) ∧ k ∈ l ∧ Under k x := by
  induction h with
  | here => exact .inl rfl
  | @child d l k _ hl hk ih =>
    rcases ih with h | ⟨d', l', k', rfl, hl', hk', hu⟩
    · exact .inr ⟨d, l, k, h.symm, hl, hk, .here⟩
    · exact .inr ⟨d', l', k', rfl, hl', hk', .child hu hl hk⟩

theorem under_child {d : List (String × Val)} {l : List Val} {k x : Val}
    (hl : lookupKey d "content" = some (.list l)) (hk : k ∈ l) (h : Under k x) : Under (.dict d) x := by
  induction h with
  | here => exact .child .here hl hk
  | child _ hl' hk' ih => exact .child ih hl' hk'

/-- Content and marks of a document that follows the reference are lists. -/
theorem valid_converted (w : Bool) {u : List String} (hu : ∀ t ∈ u, ∀ c, (t, c) ∉ nodeTypes) {v : Val}
    (h : Valid u v) : ∀ n, (parseNode w v).out = .ok n → Converted n := by
  induction h with
  | undescribed t v known type =>
    intro n hn
    have := registered_of_ok hn
    rw [unregistered_ofType type (hu t known)] at this
    cases this
  | described t row d known type ok card children ih =>
    intro n hn x hx
    obtain ⟨c, hc, _⟩ := rows_required _ known
    rw [parseNode_of_type w type hc] at hn
    obtain ⟨a, s, m, _, hs, hm, _, rfl⟩ := nodeFromDict_ok hn
    rw [contentStep_eq] at hs
    unfold marksStep at hm
    rcases within_cases hx with rfl | ⟨l, y, hl, hy, hyx⟩
    · simp only [Node.content, Node.hd]
      rw [slotOf_eq c _ (.inr (.inl rfl)), slotOf_eq c _ (.inr (.inr rfl))]
      constructor
      · intro r hr
        split at hr
        · cases hl : lookupKey d "content" with
          | none => rw [hl] at hs; cases hs; cases hr
          | some v =>
            obtain ⟨l, rfl, _⟩ := ok.content v hl
            rw [hl] at hs
            simp only [Res.map_out] at hs
            split at hs <;> cases hs
            cases hr
        · cases hr
      · intro r hr
        split at hr
        · cases hl : lookupKey d "marks" with
          | none => rw [hl] at hm; cases hm; cases hr
          | some v =>
            obtain ⟨l, rfl, _⟩ := ok.marks v hl
            rw [hl] at hm
            simp only [Res.map_out] at hm
            split at hm <;> cases hm
            cases hr
        · cases hr
    · simp only [Node.content] at hl
      rw [slotOf_eq c _ (.inr (.inl rfl))] at hl
      split at hl
      · cases hl' : lookupKey d "content" with
        | none => rw [hl'] at hs; cases hs; cases hl
        | some v =>
          obtain ⟨l', rfl, _⟩ := ok.content v hl'
          rw [hl'] at hs
          simp only [Res.map_out] at hs
          split at hs <;> cases hs
          next ns hns =>
          cases hl
          obtain ⟨v, hv, hp⟩ := parseNodes_mem hns hy
          exact ih l' hl' v hv y hp x hyx
      · cases hl

theorem rows_keys : ∀ e ∈ rows, ∀ x ∈ nodeTypes, x.1 = e.1 → 
    (∀ k ∈ e.2.keys, k ∈ nodeKeys x.2 ∨ (e.1 = "expand" ∧ k = "marks")) ∧
    (∀ k ∈ fieldNames e.2.attrs, k ∈ attrKeys x.2) ∧ (x.2 = .doc → "version" ∈ givenKeys e.2) ∧
    (e.1 = "expand" → "marks" ∉ nodeKeys x.2) := by decide

theorem markRows_keys : ∀ e ∈ markRows, ∀ x ∈ Spec.markTypes, x.1 = e.1 →
    (e.2.isEmpty = false → (requiredMarkAttrs x.2).isSome) ∧
    (∀ k ∈ fieldNames e.2, k ∈ markAttrKeys x.2) ∧ (∀ k ∈ markAttrKeys x.2, k ∈ fieldNames e.2) ∧
    (e.1 ≠ "link" → ∀ k ∈ fieldNames e.2, k ∈ givenAttrs e.2) := by decide

theorem link_keys : ∀ x ∈ Spec.markTypes, x.1 = "link" → ∀ k, k ∈ markAttrKeys x.2 ↔
    k ∈ ["href", "title", "collection", "id", "occurrenceKey"] := by
  have : ∀ x ∈ Spec.markTypes, x.1 = "link" → 
    (∀ k ∈ markAttrKeys x.2, k ∈ ["href", "title", "collection", "id", "occurrenceKey"]) ∧
    ∀ k ∈ ["href", "title", "collection", "id", "occurrenceKey"], k ∈ markAttrKeys x.2 := by decide
  exact fun x hx h k => ⟨(this x hx h).1 k, (this x hx h).2 k⟩

/-- All attributes, if it is a link. -/
def FullLink (m : Val) : Prop := OfType "link" m →
  ∃ md ad, m = .dict md ∧ lookupKey md "attrs" = some (.dict ad) ∧
    ∀ k ∈ ["href", "title", "collection", "id", "occurrenceKey"], (lookupKey ad k).isSome

theorem strict_mark_iff {ts : List String} {m : Val} (hm : MarkOk ts m) (hs : StrictMark m) :
    LosslessMark m ↔ FullLink m := by
  obtain ⟨t, _, fs, hrow, hty, hattrs⟩ := hm
  obtain ⟨c, hc, hreq⟩ := markRows_required _ hrow
  obtain ⟨t', fs', d, hrow', hty', rfl, hk, hak⟩ := hs
  cases ofType_unique hty hty'
  have hfs : fs' = fs := by
    have hnd : (markRows.map Prod.fst).Nodup := by decide
    have h1 := List.inj_on_of_nodup_map hnd hrow hrow' rfl
    exact (Prod.mk.inj h1).2.symm
  subst hfs
  obtain ⟨h1, h2, h3, h4⟩ := markRows_keys _ hrow _ hc rfl
  constructor
  · rintro ⟨d', t', c', he, ht', ⟨name, hc', rfl⟩, hk', had'⟩ hl
    cases he
    cases ofType_unique hty hl
    cases ofType_unique hl (show OfType name (.dict d) from ht')
    cases markTypes_unique hc hc'
    obtain ⟨_, ad, he, had, _⟩ := hattrs (by
      rintro rfl
      have : ∀ e ∈ markRows, e.1 = "link" → e.2.isEmpty = false := by decide
      have := this _ hrow rfl
      cases this)
    cases he
    refine ⟨d, ad, rfl, had, fun k hkl => ?_⟩
    rw [had' ad had, link_keys _ hc rfl]
    exact hkl
  · intro hl
    refine ⟨d, _, c, rfl, hty, ⟨t, hc, rfl⟩, fun k hs => ?_, fun ad had k => ?_⟩
    · rcases hk k hs with h | ⟨h, hne⟩
      · exact .inl h
      · exact .inr ⟨h, h1 (by simpa using hne)⟩
    · refine ⟨fun hs => h2 k (hak ad had k hs), fun hkm => ?_⟩
      by_cases htl : t = "link"
      · subst htl
        obtain ⟨_, ad', he, had', hall⟩ := hl hty
        cases he
        rw [had] at had'
        cases had'
        exact hall k ((link_keys _ hc rfl k).mp hkm)
      · have hn := h3 k hkm
        have hg := h4 htl k hn
        have hne : fs' ≠ [] := by rintro rfl; cases hn
        obtain ⟨_, ad', he, had', hok⟩ := hattrs hne
        cases he
        rw [had] at had'
        cases had'
        exact givenAttrs_ok hok hg

theorem rows_unique {t : String} {r r' : Row} (h : (t, r) ∈ rows) (h' : (t, r') ∈ rows) : r = r' := by
  have hnd : (rows.map Prod.fst).Nodup := by decide
  exact (Prod.mk.inj (List.inj_on_of_nodup_map hnd h h' rfl)).2

theorem strict_lossless_iff {v : Val} (h : Valid [] v) (hs : Strict v) :
    Lossless v ↔ NoExpandMarks v ∧ FullLinks v := by
  induction h with
  | undescribed t v known type => cases known
  | described t row d known type ok card children ih =>
    cases hs with
    | node t' row' d known' type' keys attrs marks kids =>
    cases ofType_unique type type'
    cases rows_unique known known'
    obtain ⟨c, hc, _⟩ := rows_required _ known
    obtain ⟨hk, hak, hver, hexp⟩ := rows_keys _ known _ hc rfl
    constructor
    · intro hl
      cases hl with
      | node d name c' ltype lknown lkeys lversion lattrs lmarks lcontent =>
      cases ofType_unique type (show OfType name (.dict d) from ltype)
      cases nodeTypes_unique hc lknown
      constructor
      · intro d' hu hte
        rcases under_cases hu with he | ⟨d1, l, k, he, hl, hkl, hu'⟩
        · cases he
          cases ofType_unique type hte
          cases hm : lookupKey d "marks" with
          | none => rfl
          | some m => exact absurd (lkeys "marks" (by rw [hm]; rfl)) (hexp rfl)
        · cases he
          exact ((ih l hl k hkl (kids l hl k hkl)).mp (lcontent l hl k hkl)).1 d' hu' hte
      · intro d' hu l hl m hm
        rcases under_cases hu with he | ⟨d1, l', k, he, hl', hkl, hu'⟩
        · cases he
          obtain ⟨_, hel, hmo⟩ := ok.marks _ hl
          cases hel
          exact (strict_mark_iff (hmo m hm) (marks l hl m hm)).mp (lmarks l hl m hm)
        · cases he
          exact ((ih l' hl' k hkl (kids l' hl' k hkl)).mp (lcontent l' hl' k hkl)).2 d' hu' l hl m hm
    · rintro ⟨hne, hfl⟩
      refine .node d t c type hc (fun k hks => ?_) (fun hd => givenKeys_ok ok (hver hd))
        (fun ad had k hks => hak k (attrs ad had k hks)) (fun l hl m hm => ?_) (fun l hl k hkl => ?_)
      · rcases hk k (keys k hks) with h | ⟨rfl, rfl⟩
        · exact h
        · rw [hne d .here type] at hks; cases hks
      · obtain ⟨_, hel, hmo⟩ := ok.marks _ hl
        cases hel
        exact (strict_mark_iff (hmo m hm) (marks l hl m hm)).mpr (hfl d .here l hl m hm)
      · exact (ih l hl k hkl (kids l hl k hkl)).mpr
          ⟨fun d' hu => hne d' (under_child hl hkl hu), fun d' hu => hfl d' (under_child hl hkl hu)⟩

/-- C66 (partial: two exceptions): a document that follows the reference and uses its fields only is given
back equal by parsing and serialising iff no `expand` has marks and every link has all its attributes. -/
theorem C66_partial (iv : Str → Option Int) (w : Bool) (v : Val) (h : DescribedDoc v) (hs : Strict v)
    (hk : UniqueKeys v) (hp : plain v = true) :
    ∃ n d', (parseNode w v).out = .ok n ∧ n.toDict = .ok d' ∧
      (v.eq iv d' = true ↔ NoExpandMarks v ∧ FullLinks v) := by
  obtain ⟨n, hn, _⟩ := C65_parses w v ⟨described_valid h.1, h.2⟩
  obtain ⟨d', h1, h2⟩ := C64_lossless_iff iv w v hk hp n hn (valid_converted w (by simp) h.1 n hn)
  exact ⟨n, d', hn, h1, h2.trans (strict_lossless_iff h.1 hs)⟩

/-- A document that follows the reference and is not given back. -/
def NotGivenBack (v : Val) : Prop :=
  DescribedDoc v ∧ Strict v ∧ UniqueKeys v ∧ plain v = true ∧
    ∃ n d', (parseNode true v).out = .ok n ∧ n.toDict = .ok d' ∧ ∀ iv, v.eq iv d' = false

/-- A link without a title. -/
def plainLink : Val := .dict
  [("version", .int 1), ("type", Samples.str "doc"), ("content", .list
    [Samples.j "paragraph" [("content", .list
       [Samples.j "text" [("text", Samples.str "see"), ("marks", .list
          [Samples.j "link" [("attrs", .dict [("href", Samples.str "http://x")])]])]])]])]

/-- An expand with a mark. -/
def markedExpand : Val := .dict
  [("version", .int 1), ("type", Samples.str "doc"), ("content", .list
    [Samples.j "expand" [("attrs", .dict []), ("marks", .list [Samples.j "strong" []]),
      ("content", .list [Samples.j "rule" []])]])]

/-- C66 is false of the code: neither of these is given back. -/
theorem C66_false : NotGivenBack plainLink ∧ NotGivenBack markedExpand := by
  constructor
  · refine ⟨⟨validB_sound 5 (by decide), rfl⟩, strictB_sound 5 (by decide), ?_, rfl, _, _, rfl, rfl, fun iv => rfl⟩
    simp [plainLink, Samples.j, UniqueKeys, UniqueKeysDict, UniqueKeysList, Samples.str]
  · refine ⟨⟨validB_sound 5 (by decide), rfl⟩, strictB_sound 5 (by decide), ?_, rfl, _, _, rfl, rfl, fun iv => rfl⟩
    simp [markedExpand, Samples.j, UniqueKeys, UniqueKeysDict, UniqueKeysList, Samples.str]

/-- A document with a heading, a link with all its attributes, a date and an ordered list. -/
def givenBack : Val := .dict
  [("version", .int 1), ("type", Samples.str "doc"), ("content", .list
    [Samples.j "heading" [("content", .list [Samples.j "text" [("text", Samples.str "T"), ("marks", .list
          [Samples.j "link" [("attrs", .dict [("href", Samples.str "http://x"), ("title", Samples.str "t"),
            ("id", Samples.str "i"), ("collection", Samples.str "c"), ("occurrenceKey", Samples.str "o")])]])]]),
       ("attrs", .dict [("level", .int 2)])],
     Samples.j "orderedList" [("attrs", .dict [("order", .int 3)]), ("content", .list
       [Samples.j "listItem" [("content", .list [Samples.j "paragraph" [("content", .list
         [Samples.j "date" [("attrs", .dict [("timestamp", Samples.str "0")])]])]])]])]])]

/-- It meets the hypotheses and the condition. -/
example : DescribedDoc givenBack ∧ Strict givenBack ∧ UniqueKeys givenBack ∧ NoExpandMarks givenBack ∧
    FullLinks givenBack := by
  have hd : DescribedDoc givenBack := ⟨validB_sound 6 (by decide), rfl⟩
  have hs : Strict givenBack := strictB_sound 6 (by decide)
  have hk : UniqueKeys givenBack := by
    simp [givenBack, Samples.j, UniqueKeys, UniqueKeysDict, UniqueKeysList, Samples.str]
  obtain ⟨n, d', h1, h2, h3⟩ := C66_partial (fun _ => none) true givenBack hd hs hk rfl
  refine ⟨hd, hs, hk, h3.mp ?_⟩
  cases h1
  cases h2
  rfl

end Verif.Props
