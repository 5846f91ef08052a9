import Verif.Lemmas.Nesting
import Verif.Props.Quote
/-!
# C55: lines of nested quotes
-/

namespace Verif.Props
open Verif Spec

theorem parsed_expand_marks {n : Node} (hp : Parsed n) (hn : n.cls = .expand) : n.hd.marks = .absent := by
  obtain ⟨w, v, h⟩ := hp
  obtain ⟨d, t, rfl, ht, hr, hf⟩ := parseNode_ok h
  obtain ⟨a, k, m, _, _, _, _, e⟩ := nodeFromDict_ok hf
  have : n.hd.marks = slotOf n.cls.fields "marks" m := by rw [e]; rfl
  rw [this, slotOf_eq n.cls _ (.inr (.inr rfl)), hn, if_neg (by decide)]

/-- Lines of a block are lines of the block container it is in. -/
theorem plain_line (env : Env) (n c : Node) (kids : List Node) (hp : Parsed n)
    (hn : n.cls ∈ [NodeCls.doc, .expand, .nestedExpand]) (hk : n.content = .val kids) (hc : c ∈ kids) (s : Str)
    (h : n.toMarkdown env false = .ok (.str s)) :
    ∃ t, Md env c t ∧ ∀ l, l ≠ [] → l ∈ Str.splitNL t → l ∈ Str.splitNL s := by
  have ht : ∀ k ∈ kids, HasType k := fun k hk' => parsed_hasType (parsed_kids hp hk k hk')
  have hd : docContentToMarkdown false (slotItems env (.val kids)) = .ok s := by
    rw [toMarkdown_eq, hk] at h
    unfold dispatch at h
    simp only [Option.isSome_none, Bool.false_and, Bool.false_eq_true, if_false] at h
    simp only [List.mem_cons, List.not_mem_nil, or_false] at hn
    rcases hn with hn | hn | hn
    · simp only [show n.hd.cls = _ from hn] at h
      obtain ⟨u, h1, e⟩ := strVal_str h; cases e; exact h1
    · simp only [show n.hd.cls = _ from hn, expandMd, parsed_expand_marks hp hn, addStyle] at h
      cases hd : docContentToMarkdown false (slotItems env (.val kids)) with
      | error e => rw [hd] at h; simp at h
      | ok u => rw [hd] at h; simp only [Except.ok.injEq, Val.str.injEq] at h; rw [h]
    · simp only [show n.hd.cls = _ from hn] at h
      obtain ⟨u, h1, e⟩ := strVal_str h; cases e; exact h1
  obtain ⟨ss, h1, rfl⟩ := (docContent_iff env kids ht s).mp hd
  obtain ⟨t, h2, h3⟩ := mem_blocks h1 hc
  refine ⟨t, h2, fun l hne hl => ?_⟩
  unfold docText
  rw [cleaned_lines 3 hne]
  exact h3 l hl

theorem mem_append_nl {l s : Str} (h : l ∈ Str.splitNL s) : l ∈ Str.splitNL (s ++ ['\n']) := by
  rw [show s ++ ['\n'] = s ++ '\n' :: [] from rfl, splitNL_append_gen]
  exact List.mem_append_left _ h

/-- Lines of a block are lines of the quote or panel it is in, with the prefix. -/
theorem quote_line (env : Env) (n c : Node) (kids : List Node) (hp : Parsed n)
    (hn : n.cls ∈ quotes) (hk : n.content = .val kids) (hc : c ∈ kids) (s : Str)
    (h : n.toMarkdown env false = .ok (.str s)) :
    ∃ t, Md env c t ∧ ∀ l, CleanLine l → l ∈ Str.splitNL t → "> ".toList ++ l ∈ Str.splitNL s := by
  have ht : ∀ k ∈ kids, HasType k := fun k hk' => parsed_hasType (parsed_kids hp hk k hk')
  simp only [quotes, List.mem_cons, List.not_mem_nil, or_false] at hn
  rcases hn with hn | hn
  · rw [dispatch_blockquote env n false hn, hk] at h
    unfold blockquoteMd at h
    cases hd : docContentToMarkdown false (slotItems env (.val kids)) with
    | error e => rw [hd] at h; simp [strVal] at h
    | ok u =>
      rw [hd] at h
      simp only [strVal, Except.ok.injEq, Val.str.injEq, strip_eq] at h
      obtain ⟨ss, h1, rfl⟩ := (docContent_iff env kids ht u).mp hd
      obtain ⟨t, h2, h3⟩ := mem_blocks h1 hc
      refine ⟨t, h2, fun l hl hm => ?_⟩
      rw [← h]
      refine mem_append_nl (indentAll_line (by decide) hl ?_)
      have : Spec.mapRuns (iter shrink 3) (docText kids ss) = cleaned 3 (cleaned 3 (blocks kids ss)) := rfl
      rw [this, cleaned_lines 3 hl.1, cleaned_lines 3 hl.1]
      exact h3 l hm
  · rw [dispatch_panel env n false hn, hk] at h
    unfold panelMd at h
    cases hg : getAttr n.hd.attrs "panelType" with
    | error e => rw [hg] at h; simp [strVal] at h
    | ok pt =>
      rw [hg] at h
      simp only at h
      cases hs : pt.asStr? with
      | none => rw [hs] at h; simp [strVal] at h
      | some ty =>
        rw [hs] at h
        simp only at h
        cases hd : docContentToMarkdown false (slotItems env (.val kids)) with
        | error e => rw [hd] at h; simp [strVal] at h
        | ok u =>
          rw [hd] at h
          simp only [strVal, Except.ok.injEq, Val.str.injEq, strip_eq] at h
          obtain ⟨ss, h1, rfl⟩ := (docContent_iff env kids ht u).mp hd
          obtain ⟨t, h2, h3⟩ := mem_blocks h1 hc
          refine ⟨t, h2, fun l hl hm => ?_⟩
          rw [← h]
          refine mem_append_nl (indentAll_line (by decide) hl ?_)
          have : ∀ x, Spec.mapRuns (iter shrink 3) x = cleaned 3 x := fun _ => rfl
          rw [this, cleaned_lines 3 hl.1, show [Str.nl] = ['\n'] from rfl, splitNL_join_flatMap (by simp)]
          simp only [List.flatMap_cons, List.flatMap_nil, List.append_nil, List.mem_append]
          right; right
          unfold docText
          rw [cleaned_lines 3 hl.1]
          exact h3 l hm

/-- C55: a line of a block nested in documents, expands, quotes and panels, `k` of which are quotes or
panels, is a line of the whole, with exactly `k` quote marks in front of it. -/
theorem C55_lines (env : Env) (n m : Node) (k : Nat) (hp : Parsed n) (hq : InQuotes k n m) (s : Str)
    (h : n.toMarkdown env false = .ok (.str s)) :
    ∃ t, m.toMarkdown env false = .ok (.str t) ∧
      ∀ l, CleanLine l → IsLineOf l t → IsLineOf (quoteMarks k ++ l) s := by
  simp only [isLineOf_iff]
  induction hq generalizing s with
  | here n => exact ⟨s, h, fun l _ hl => hl⟩
  | plain hn hk hc _ ih =>
    obtain ⟨u, hu, h1⟩ := plain_line env _ _ _ hp hn hk hc s h
    obtain ⟨t, h2, h3⟩ := ih (parsed_kids hp hk _ hc) u hu
    exact ⟨t, h2, fun l hl hm => h1 _ (by have := hl.1; simp [this]) (h3 l hl hm)⟩
  | @quote n c m kids k hn hk hc _ ih =>
    obtain ⟨u, hu, h1⟩ := quote_line env _ _ _ hp hn hk hc s h
    obtain ⟨t, h2, h3⟩ := ih (parsed_kids hp hk _ hc) u hu
    refine ⟨t, h2, fun l hl hm => ?_⟩
    have hcl : CleanLine (quoteMarks k ++ l) := by
      refine ⟨by have := hl.1; simp [this], fun c hc => ?_⟩
      rcases List.mem_append.mp hc with hc | hc
      · unfold quoteMarks at hc
        obtain ⟨x, hx, hc⟩ := List.mem_flatten.mp hc
        rw [List.eq_of_mem_replicate hx] at hc
        exact (by decide : ∀ c ∈ "> ".toList, Spec.lineBreak c = false) c hc
      · exact hl.2 c hc
    have := h1 _ hcl (h3 l hl hm)
    rw [← List.append_assoc] at this
    exact this

/-- C55: so every block inside a document that converts, converts. -/
theorem C55_converts (env : Env) (n m : Node) (k : Nat) (hp : Parsed n) (hq : InQuotes k n m)
    (h : ∃ s, n.toMarkdown env false = .ok (.str s)) : ∃ t, m.toMarkdown env false = .ok (.str t) := by
  obtain ⟨s, h⟩ := h
  obtain ⟨t, h1, _⟩ := C55_lines env n m k hp hq s h
  exact ⟨t, h1⟩

/-- A quote in a panel in a document. -/
def nestedQuotes : Node :=
  Samples.doc [Samples.panel "info" [Samples.quote [Samples.para [Samples.text "a"]]]]

theorem nestedQuotes_in : InQuotes 2 nestedQuotes (Samples.para [Samples.text "a"]) :=
  .plain (by decide) rfl (.head _) (.quote (by decide) rfl (.head _) (.quote (by decide) rfl (.head _) (.here _)))
example : nestedQuotes.toMarkdown Samples.env false =
    .ok (Samples.str "> **INFO**\n> \n> > a\n> \n\n") := rfl
theorem nestedQuotes_parsed : Parsed nestedQuotes :=
  ⟨true, Samples.j "doc" [("version", .int 1), ("content", .list [Samples.j "panel" [("attrs", .dict [("panelType", Samples.str "info")]),
    ("content", .list [Samples.j "blockquote" [("content", .list [Samples.j "paragraph" [("content", .list
      [Samples.j "text" [("text", Samples.str "a")]])]])]])]])], rfl⟩

example := C55_lines Samples.env nestedQuotes _ 2 nestedQuotes_parsed nestedQuotes_in _ rfl

example := C55_converts Samples.env nestedQuotes _ 2 nestedQuotes_parsed nestedQuotes_in ⟨_, rfl⟩

end Verif.Props
