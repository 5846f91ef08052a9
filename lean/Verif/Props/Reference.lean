import Verif.Lemmas.Reference
import Verif.Props.Parsing
import Verif.Lemmas.RefCheck
import Verif.Lemmas.Samples
/-!
# C65: documents that follow the published reference are parsed
-/

namespace Verif.Props
open Verif Verif.Spec Verif.Spec.Ref

theorem doc_type : ∀ e ∈ nodeTypes, e.1 = "doc" → e.2 = .doc := by decide

theorem ofType_unique {t t' : String} {v : Val} (h : OfType t v) (h' : OfType t' v) : t = t' := by
  unfold OfType at h h'
  rw [h] at h'
  exact str_toList_inj (Option.some.inj h')

theorem ofType_dict {t : String} {v : Val} (h : OfType t v) :
    ∃ d, v = .dict d ∧ lookupKey d "type" = some (.str t.toList) := by
  cases v with
  | dict d => exact ⟨d, rfl, h⟩
  | _ => simp [OfType, typeOf] at h

/-- C65: every document that follows the reference is parsed, as a document, by `parse_node` and by
`NodeDoc.from_dict`, with the same result. -/
theorem C65_parses (w : Bool) (v : Val) (h : ValidDoc v) :
    ∃ n, (parseNode w v).out = .ok n ∧ n.cls = .doc ∧ NodeCls.doc.fromDict w v = parseNode w v := by
  obtain ⟨hv, ht⟩ := h
  rcases valid_parse w undescribed_unknown hv with ⟨t, row, n, _, hc, ht', hn⟩ | ⟨t, hu, ht', _⟩
  · cases ofType_unique ht ht'
    obtain ⟨d, rfl, _⟩ := ofType_dict ht
    have hcls : n.cls = .doc := doc_type _ hc rfl
    exact ⟨n, hn, hcls, (parseNode_of_type w ht (hcls ▸ hc)).symm⟩
  · cases ofType_unique ht ht'
    exact absurd hu (by decide)

theorem registered_ofType {t : String} {c : NodeCls} {v : Val} (ht : OfType t v) (hc : (t, c) ∈ nodeTypes) :
    registeredNode v = true := by
  simp only [registeredNode, OfType] at *
  rw [ht]
  simp only [List.any_eq_true]
  exact ⟨_, hc, by simp⟩

theorem unregistered_ofType {t : String} {v : Val} (ht : OfType t v) (hc : ∀ c, (t, c) ∉ nodeTypes) :
    registeredNode v = false := by
  simp only [registeredNode, OfType] at *
  rw [ht]
  simp only [List.any_eq_false]
  rintro ⟨t', c⟩ he h
  have : t' = t := by simpa [String.toList_inj] using h
  exact hc c (this ▸ he)

theorem registered_markOk {ts : List String} {v : Val} (h : MarkOk ts v) : registeredMark v = true := by
  obtain ⟨t, _, _, c, _, _, hc, ht, _⟩ := markOk_parse h
  simp only [registeredMark, OfType] at *
  rw [ht]
  simp only [List.any_eq_true]
  exact ⟨_, hc, by simp⟩

theorem valid_warnings {u : List String} (hu : ∀ t ∈ u, ∀ c, (t, c) ∉ nodeTypes) {v : Val} (h : Valid u v) :
    registeredNode v = true → ∀ x ∈ warnings v, x.category = "node" ∧ ∃ t ∈ u, x.typeValue = .str t.toList := by
  induction h with
  | undescribed t v known type =>
    intro hr
    rw [unregistered_ofType type (hu t known)] at hr
    cases hr
  | described t row d known type ok card children ih =>
    intro _ x hx
    rw [warnings, contentWarnings_eq, List.mem_append] at hx
    rcases hx with hx | hx
    · split at hx
      · next l hl =>
        have hc : ∀ k ∈ l, Valid u k := children l hl
        have hi := ih l hl
        clear hl ih children
        induction l with
        | nil => rw [listWarnings] at hx; cases hx
        | cons k l ihl =>
          rw [listWarnings, List.mem_append] at hx
          rcases hx with hx | hx
          · split at hx
            · next hr => exact hi k (by simp) hr x hx
            · next hr =>
              obtain rfl := List.mem_singleton.mp hx
              refine ⟨rfl, ?_⟩
              rcases hc k (by simp) with ⟨t', row', d', known', type', _⟩ | ⟨t', _, known', type'⟩
              · obtain ⟨c, hcc, _⟩ := rows_required _ known'
                exact absurd (registered_ofType type' hcc) hr
              · refine ⟨t', known', ?_⟩
                have : typeOf k = some (.str t'.toList) := type'
                rw [this]; rfl
          · exact ihl hx (fun k hk => hc k (by simp [hk])) fun k hk => hi k (by simp [hk])
      · cases hx
    · split at hx
      · next l hl =>
        obtain ⟨l', he, hm⟩ := ok.marks _ hl
        cases he
        obtain ⟨m, hml, hx⟩ := List.mem_filterMap.mp hx
        rw [registered_markOk (hm m hml)] at hx
        cases hx
      · cases hx

/-- C65: the only warnings are about the types the reference lists without describing them. -/
theorem C65_warnings (w : Bool) (v : Val) (h : ValidDoc v) :
    ∀ x ∈ (parseNode w v).log, x.category = "node" ∧ ∃ t ∈ undescribed, x.typeValue = .str t.toList := by
  cases w with
  | false => rw [C08_silent]; intro x hx; cases hx
  | true =>
    obtain ⟨n, hn, _⟩ := C65_parses true v h
    rw [C08_warnings v n hn]
    obtain ⟨c, hc, _⟩ := rows_required _ (List.mem_cons_self (a := ("doc", _)) (l := _))
    exact valid_warnings undescribed_unknown h.1 (registered_ofType h.2 hc)

theorem described_valid {u : List String} {v : Val} (h : Valid [] v) : Valid u v := by
  induction h with
  | described t row d known type ok card _ ih => exact .described t row d known type ok card ih
  | undescribed t v known _ => cases known

/-- C65: no warnings for documents of described nodes. -/
theorem C65_described_silent (w : Bool) (v : Val) (h : DescribedDoc v) : (parseNode w v).log = [] := by
  cases w with
  | false => exact C08_silent v
  | true =>
    obtain ⟨n, hn, _⟩ := C65_parses true v ⟨described_valid h.1, h.2⟩
    rw [C08_warnings v n hn]
    obtain ⟨c, hc, _⟩ := rows_required _ (List.mem_cons_self (a := ("doc", _)) (l := _))
    have := valid_warnings (u := []) (by simp) h.1 (registered_ofType h.2 hc)
    rw [List.eq_nil_iff_forall_not_mem]
    intro x hx
    obtain ⟨_, t, ht, _⟩ := this x hx
    cases ht

theorem rows_kids : ∀ e ∈ rows, e.2.kids ≠ [] → ∀ x ∈ nodeTypes, x.1 = e.1 → "content" ∈ nodeKeys x.2 := by
  have : ∀ e ∈ rows, e.2.kids.isEmpty = false → ∀ x ∈ nodeTypes, x.1 = e.1 → "content" ∈ nodeKeys x.2 := by decide
  intro e he hk
  exact this e he (by simpa using hk)

theorem text_cls : ∀ e ∈ nodeTypes, e.1 = "text" → e.2 = .text := by decide

theorem described_whole (w : Bool) {v : Val} (h : Valid [] v) :
    ∀ n, (parseNode w v).out = .ok n → Whole v n := by
  induction h with
  | undescribed t v known type => cases known
  | described t row d known type ok card children ih =>
    intro n hn
    have hv := Valid.described (u := []) t row d known type ok card children
    obtain ⟨c, hc, hreq⟩ := rows_required _ known
    rw [parseNode_of_type w type hc] at hn
    have hcls := parse_cls' hn
    have hcont : ∀ l, lookupKey d "content" = some (.list l) → l ≠ [] → ∃ kids, n.content = .val kids ∧
        l.map (fun v => (parseNode w v).out) = kids.map .ok := by
      intro l hl hne
      have hk : row.kids ≠ [] := by
        obtain ⟨l', he, _, hm⟩ := ok.content _ hl
        cases he
        obtain ⟨x, l, rfl⟩ := List.exists_cons_of_ne_nil hne
        obtain ⟨t, ht, _⟩ := hm x (by simp)
        exact List.ne_nil_of_mem ht
      obtain ⟨kids, h1, h2, _⟩ := C01_content w c d l n hl (rows_kids _ known hk _ hc rfl) hn
      refine ⟨kids, h1, ?_⟩
      rwa [List.filter_eq_self.mpr] at h2
      intro k hkl
      rcases children l hl k hkl with ⟨t', row', d', known', type', _⟩ | ⟨t', _, known', type'⟩
      · obtain ⟨c', hc', _⟩ := rows_required _ known'
        exact registered_ofType type' hc'
      · cases known'
    refine .node d n t type (by rw [hcls]; exact hc) ?_ ?_ ?_
    · rintro rfl
      obtain rfl := text_cls _ hc rfl
      have hs := (C07_from_dict_iff w .text d).mp ⟨n, hn⟩
      have hs := hs.1 "text" (by decide)
      obtain ⟨a, k, m, _, _, _, _, rfl⟩ := nodeFromDict_ok hn
      obtain ⟨v, hv⟩ := Option.isSome_iff_exists.mp hs
      simp [Node.hd, valOf, NodeCls.fields, NodeCls.ownFields, fieldValue, hv]
    · intro l hl hne
      obtain ⟨kids, h1, h2⟩ := hcont l hl hne
      refine ⟨kids, h1, ?_⟩
      have := congrArg List.length h2
      simpa using this.symm
    · intro l kids i v k hl hkids hi hik
      have hne : l ≠ [] := by rintro rfl; simp at hi
      obtain ⟨kids', h1, h2⟩ := hcont l hl hne
      rw [hkids] at h1
      cases h1
      have := congrArg (·[i]?) h2
      simp only [List.getElem?_map, hi, hik, Option.map_some, Option.some.injEq] at this
      exact ih l hl v (List.mem_of_getElem? hi) k this

/-- C65: nothing is skipped in documents of described nodes. -/
theorem C65_described_whole (w : Bool) (v : Val) (h : DescribedDoc v) (n : Node)
    (hn : (parseNode w v).out = .ok n) : Whole v n := described_whole w h.1 n hn

/-- A document with most of the constructs of the reference. -/
def refExample : Val := .dict
  [("version", .int 1), ("type", Samples.str "doc"), ("content", .list
    [Samples.j "heading" [("attrs", .dict [("level", .int 2)]), ("content", .list
       [Samples.j "text" [("text", Samples.str "T"), ("marks", .list [Samples.j "strong" []])]])],
     Samples.j "paragraph" [("content", .list
       [Samples.j "text" [("text", Samples.str "see "), ("marks", .list
          [Samples.j "link" [("attrs", .dict [("href", Samples.str "http://x")])]])],
        Samples.j "emoji" [("attrs", .dict [("shortName", Samples.str ":a:")])],
        Samples.j "date" [("attrs", .dict [("timestamp", Samples.str "0")])],
        Samples.j "inlineCard" [("attrs", .dict [("url", Samples.str "http://x")])]])],
     Samples.j "orderedList" [("attrs", .dict [("order", .int 3)]), ("content", .list
       [Samples.j "listItem" [("content", .list [Samples.j "paragraph" [("content", .list [])]])]])],
     Samples.j "table" [("content", .list [Samples.j "tableRow" [("content", .list
       [Samples.j "tableHeader" [("content", .list [Samples.j "rule" []])]])]])],
     Samples.j "expand" [("attrs", .dict []), ("content", .list
       [Samples.j "mediaSingle" [("attrs", .dict [("layout", Samples.str "center")]), ("content", .list
         [Samples.j "media" [("attrs", .dict [("id", Samples.str "i"), ("type", Samples.str "file"),
           ("collection", Samples.str "c")])]])]])]])]

theorem refExample_described : DescribedDoc refExample := ⟨validB_sound 9 (by decide), rfl⟩

/-- A document with a node of a type that is listed only. -/
def refUndescribed : Val := .dict
  [("version", .int 1), ("type", Samples.str "doc"), ("content", .list
    [Samples.j "multiBodiedExtension" [], Samples.j "rule" []])]

example : ValidDoc refUndescribed ∧ ¬ (parseNode true refUndescribed).log = [] :=
  ⟨⟨validB_sound 3 (by decide), rfl⟩, by decide⟩

example := C65_parses true refExample ⟨described_valid refExample_described.1, rfl⟩

example := C65_warnings true refUndescribed ⟨validB_sound 3 (by decide), rfl⟩

example := C65_described_silent true refExample refExample_described

example := C65_described_whole true refExample refExample_described (Samples.parse refExample) rfl

end Verif.Props
