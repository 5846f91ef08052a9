import Verif.Lemmas.Blocks
import Verif.Lemmas.Join
import Verif.Lemmas.Samples
/-!
# C16, C17, C18, C42, C43: documents
-/

namespace Verif.Props
open Verif

/-! ## C43 -/

/-- C43: `to_markdown` returns a `str` (for every node of every class, at every level and with either
flag), except possibly a text node whose `text` is not a string. -/
theorem C43_returns_str (env : Env) (n : Node) (ht : Spec.TextIsStr n) (level : Option Int)
    (ig : Bool) (v : Val) (h : n.toMarkdownAt env level ig = .ok v) : ∃ s, v = .str s :=
  toMarkdownAt_str env n ht level ig v h

example := C43_returns_str Samples.env (Samples.text "a") (fun _ => ⟨_, rfl⟩) none false (Samples.str "a") rfl

/-- C43: a text node whose `text` is no string is the only exception: without marks it returns that
value. -/
theorem C43_text_exception (env : Env) (n : Node) (hc : n.cls = .text) (v : Val)
    (ht : n.hd.text = some v) (hm : n.hd.marks = .opt) (ig : Bool) :
    n.toMarkdown env ig = .ok v := by
  rw [toMarkdown_eq]
  unfold dispatch
  have : n.hd.cls = .text := hc
  simp only [this, ht, hm, textMd, addStyle]
  rfl

example := C43_text_exception Samples.env (Samples.parse (Samples.j "text" [("text", .int 3)])) rfl (.int 3) rfl rfl false

/-- C43: omitted content converts like an empty list, in every class that uses one of the two shared
loops. -/
theorem C43_omitted_content (env : Env) (n n' : Node) (hhd : n.hd = n'.hd)
    (hc : n.cls ∈ Spec.plainContainers ∨ n.cls ∈ Spec.blockContainers)
    (h1 : n.content = .opt) (h2 : n'.content = .val []) (ig : Bool) :
    n.toMarkdown env ig = n'.toMarkdown env ig := by
  have e1 : ∀ sep, contentToMarkdown sep ig (slotItems env .opt) =
      contentToMarkdown sep ig (slotItems env (.val [])) := by
    intro sep; rw [content_val]; cases ig <;> rfl
  have e2 : docContentToMarkdown ig (slotItems env .opt) =
      docContentToMarkdown ig (slotItems env (.val [])) := by
    rw [docContent_val]; cases ig <;> rfl
  rw [toMarkdown_eq, toMarkdown_eq, hhd, h1, h2]
  have hc' : n'.hd.cls ∈ Spec.plainContainers ∨ n'.hd.cls ∈ Spec.blockContainers := by
    have : n.cls = n'.hd.cls := by unfold Node.cls; rw [hhd]
    rwa [this] at hc
  simp only [Spec.plainContainers, Spec.blockContainers, List.mem_cons, List.not_mem_nil,
    or_false] at hc'
  unfold dispatch
  rcases hc' with (h | h | h | h | h | h | h | h | h) | h | h | h | h | h <;>
    simp only [h, paragraphMd, headingMd, codeBlockMd, cellMd, decisionItemMd, blockquoteMd, panelMd,
      expandMd, e1, e2]

example := C43_omitted_content Samples.env (Samples.parse (Samples.j "paragraph" []))
  (Samples.parse (Samples.j "paragraph" [("content", .list [])])) rfl (.inl (by decide)) rfl rfl false

example : (Node.mk ⟨.paragraph, .none, none, none, .opt, .opt⟩ .opt).cls ∈ Spec.plainContainers := by
  decide

/-! ## C42 -/

/-- C42: a document converts iff every block converts to a string, and then its text is the clean-up
of the blocks' texts, one after the other, separated by a newline; lists and code blocks are set off
by one more newline on both sides. -/
theorem C42_blocks_in_order (env : Env) (n : Node) (kids : List Node) (hn : n.cls = .doc)
    (hc : n.content = .val kids) (hk : ∀ k ∈ kids, Spec.HasType k) (v : Val) :
    n.toMarkdown env false = .ok v ↔
      ∃ ss, Spec.MdAll env kids ss ∧ v = .str (Spec.docText kids ss) := by
  have hn' : n.hd.cls = .doc := hn
  rw [toMarkdown_eq, hc]
  unfold dispatch
  simp only [hn', Option.isSome_none, Bool.false_and, Bool.false_eq_true, if_false]
  constructor
  · intro h
    obtain ⟨s, h1, rfl⟩ := strVal_str h
    obtain ⟨ss, h2, rfl⟩ := (docContent_iff env kids hk s).mp h1
    exact ⟨ss, h2, rfl⟩
  · rintro ⟨ss, h, rfl⟩
    rw [(docContent_iff env kids hk _).mpr ⟨ss, h, rfl⟩]
    rfl

example := C42_blocks_in_order Samples.env (Samples.doc [Samples.para [Samples.text "a"], Samples.heading 2 [Samples.text "b"]])
  [Samples.para [Samples.text "a"], Samples.heading 2 [Samples.text "b"]] rfl rfl (Samples.hasTypes rfl)

/-- C42: the conversion depends on nothing but the blocks' classes and conversions, in either mode. -/
theorem C42_only_blocks (env : Env) (n n' : Node) (kids kids' : List Node) (ig : Bool)
    (hn : n.cls = .doc) (hn' : n'.cls = .doc) (hc : n.content = .val kids)
    (hc' : n'.content = .val kids') (hk : ∀ k ∈ kids, Spec.HasType k)
    (hk' : ∀ k ∈ kids', Spec.HasType k)
    (hsame : List.Forall₂ (fun k k' => k.cls = k'.cls ∧
      k.toMarkdown env false = k'.toMarkdown env false) kids kids') :
    n.toMarkdown env ig = n'.toMarkdown env ig := by
  have h1 : n.hd.cls = .doc := hn
  have h2 : n'.hd.cls = .doc := hn'
  rw [toMarkdown_eq, toMarkdown_eq, hc, hc']
  unfold dispatch
  simp only [h1, h2, Option.isSome_none, Bool.false_and, Bool.false_eq_true, if_false]
  rw [docContent_val, docContent_val]
  have : collect ig (docBlockOf env) kids = collect ig (docBlockOf env) kids' := by
    clear hc hc'
    induction hsame with
    | nil => rfl
    | @cons k k' ks ks' h _ ih =>
      rw [collect_cons, collect_cons, ih (fun a ha => hk a (by simp [ha])) (fun a ha => hk' a (by simp [ha])),
        docBlockOf_eq env (hk _ (by simp)), docBlockOf_eq env (hk' _ (by simp)), h.1, h.2]
  rw [this]

example := C42_only_blocks Samples.env (Samples.doc [Samples.para [Samples.text "a", Samples.text "b"]])
  (Samples.doc [Samples.para [Samples.text "ab"]]) [Samples.para [Samples.text "a", Samples.text "b"]]
  [Samples.para [Samples.text "ab"]] true rfl rfl rfl rfl (Samples.hasTypes rfl) (Samples.hasTypes rfl)
  (.cons ⟨rfl, rfl⟩ .nil)

/-! ## C17 -/

/-- C17: with `ignore_error=True` a document whose content is a list of block nodes (anything but a
text node with a non-string text) converts to a string. -/
theorem C17_total (env : Env) (n : Node) (kids : List Node) (hn : n.cls = .doc)
    (hc : n.content = .val kids) (hk : ∀ k ∈ kids, Spec.HasType k)
    (ht : ∀ k ∈ kids, Spec.TextIsStr k) :
    ∃ s, n.toMarkdown env true = .ok (.str s) := by
  have h1 : n.hd.cls = .doc := hn
  rw [toMarkdown_eq, hc]
  unfold dispatch
  simp only [h1, Option.isSome_none, Bool.false_and, Bool.false_eq_true, if_false]
  rw [docContent_val, collect_true]
  simp only
  obtain ⟨s, hs⟩ := (strJoin_isOk_iff ['\n'] (kids.filterMap fun a => (docBlockOf env a).toOption)).mpr
    (by
      intro v hv
      obtain ⟨k, hkm, hv⟩ := List.mem_filterMap.mp hv
      rw [docBlockOf_eq env (hk k hkm)] at hv
      split at hv
      · cases hm : k.toMarkdown env false with
        | error e => rw [hm] at hv; simp [Except.toOption] at hv
        | ok u =>
          rw [hm] at hv
          cases u <;> simp [padNewlines, Except.toOption] at hv
          exact ⟨_, hv.symm⟩
      · cases hm : k.toMarkdown env false with
        | error e => rw [hm] at hv; simp [Except.toOption] at hv
        | ok u =>
          rw [hm] at hv
          simp [Except.toOption] at hv
          subst hv
          exact toMarkdownAt_str env k (ht k hkm) none false u hm)
  rw [hs]
  exact ⟨_, rfl⟩

example := C17_total Samples.env (Samples.doc [Samples.para [Samples.text "a"], Samples.para [Samples.badCard], Samples.text "b"])
  [Samples.para [Samples.text "a"], Samples.para [Samples.badCard], Samples.text "b"] rfl rfl (Samples.hasTypes rfl)
  (by simp only [List.forall_mem_cons]; exact ⟨nofun, nofun, fun _ => ⟨_, rfl⟩, by simp⟩)

/-! ## C18 -/

/-- C18: in every container that uses the block loop (document, block quote, panel, expand,
nested expand), lenient conversion is the strict conversion of the container without the children
that fail to convert. -/
theorem C18_block_containers (env : Env) (hd : Hd) (kids : List Node)
    (hc : hd.cls ∈ Spec.blockContainers) (hk : ∀ k ∈ kids, Spec.HasType k) :
    (Node.mk hd (.val kids)).toMarkdown env true =
      (Node.mk hd (.val (kids.filter (Spec.converts env)))).toMarkdown env false := by
  rw [toMarkdown_eq, toMarkdown_eq]
  simp only [Node.hd, Node.content]
  simp only [Spec.blockContainers, List.mem_cons, List.not_mem_nil, or_false] at hc
  unfold dispatch
  rcases hc with h | h | h | h | h <;>
    simp only [h, blockquoteMd, panelMd, expandMd, docContent_lenient env kids hk]

example := C18_block_containers Samples.env (Samples.doc []).hd
  [Samples.para [Samples.text "a"], Samples.para [Samples.badCard]] (by decide) (Samples.hasTypes rfl)

/-- C18: the same for every container that uses the plain loop. -/
theorem C18_plain_containers (env : Env) (hd : Hd) (kids : List Node)
    (hc : hd.cls ∈ Spec.plainContainers) :
    (Node.mk hd (.val kids)).toMarkdown env true =
      (Node.mk hd (.val (kids.filter (Spec.converts env)))).toMarkdown env false := by
  rw [toMarkdown_eq, toMarkdown_eq]
  simp only [Node.hd, Node.content]
  simp only [Spec.plainContainers, List.mem_cons, List.not_mem_nil, or_false] at hc
  unfold dispatch
  rcases hc with h | h | h | h | h | h | h | h | h <;>
    simp only [h, paragraphMd, headingMd, codeBlockMd, cellMd, decisionItemMd, content_lenient]

example := C18_plain_containers Samples.env (Samples.para []).hd [Samples.text "a", Samples.badCard] (by decide)

/-- A document with a failing block in the middle, for C17, C18, C42. -/
def sampleDoc : List Node :=
  [Samples.para [Samples.text "a"], Samples.para [Samples.badCard],
   Samples.bullets [Samples.item [Samples.para [Samples.text "b"]]]]

theorem sampleDoc_typed : ∀ k ∈ sampleDoc, Spec.HasType k := by
  intro k hk
  rw [hasType_iff]
  simp only [sampleDoc, List.mem_cons, List.not_mem_nil, or_false] at hk
  rcases hk with rfl | rfl | rfl <;> rfl

example : (Samples.doc sampleDoc).toMarkdown Samples.env true = .ok (.str "a\n\n- b\n".toList) := rfl
example : (Samples.doc sampleDoc).toMarkdown Samples.env false = .error .notImplementedError := rfl
example : sampleDoc.filter (Spec.converts Samples.env) ≠ sampleDoc := by
  intro h; have := congrArg List.length h; revert this; decide

/-! ## C16 -/

/-- Heading, empty paragraph, heading: three consecutive newlines survive. -/
def blankDoc : Node :=
  Samples.doc [Samples.heading 1 [Samples.text "a"], Samples.para [],
    Samples.heading 1 [Samples.text "b"]]

/-- C16 is false of the code: a document whose Markdown has three newlines in a row (two blank
lines).  It is what `parse_node` returns for the obvious JSON. -/
theorem C16_false : ∃ n s, Spec.Parsed n ∧ n.cls = .doc ∧
    n.toMarkdown Samples.env false = .ok (.str s) ∧ Spec.HasRun 3 s :=
  ⟨blankDoc, "\n\n# a\n\n\n# b\n\n".toList,
    ⟨true, Samples.j "doc" [("content", .list [
      Samples.j "heading" [("attrs", .dict [("level", .int 1)]),
        ("content", .list [Samples.j "text" [("text", Samples.str "a")]])],
      Samples.j "paragraph" [("content", .list [])],
      Samples.j "heading" [("attrs", .dict [("level", .int 1)]),
        ("content", .list [Samples.j "text" [("text", Samples.str "b")]])]])], rfl⟩,
    rfl, rfl, by rw [hasRun_iff]; decide⟩

/-- C16, exactly when it holds: the text has three newlines in a row iff the newline-joined blocks had
seven. -/
theorem C16_partial (env : Env) (n : Node) (kids : List Node) (hn : n.cls = .doc)
    (hc : n.content = .val kids) (hk : ∀ k ∈ kids, Spec.HasType k) (s : Str) (ss : List Str)
    (hss : Spec.MdAll env kids ss) (h : n.toMarkdown env false = .ok (.str s)) :
    Spec.HasRun 3 s ↔ Spec.HasRun 7 (Spec.blocks kids ss) := by
  obtain ⟨ss', h1, h2⟩ := (C42_blocks_in_order env n kids hn hc hk _).mp h
  have : ss = ss' := by
    clear h h2 hc hk hn
    induction hss generalizing ss' with
    | nil => cases h1; rfl
    | cons a _ ih =>
      cases h1 with
      | cons b h1' =>
        unfold Spec.Md at a b
        rw [a] at b
        simp only [Except.ok.injEq, Val.str.injEq] at b
        rw [b, ih _ h1']
  subst this
  simp only [Val.str.injEq] at h2
  subst h2
  unfold Spec.docText Spec.cleaned
  rw [← strip_eq]
  rw [hasRun_iff, hasRun_iff, maxRun_strip]
  simp only [Spec.iter, Spec.shrink]
  omega

example := C16_partial Samples.env (Samples.doc [Samples.para [Samples.text "a"], Samples.para [Samples.text "b"]])
  [Samples.para [Samples.text "a"], Samples.para [Samples.text "b"]] rfl rfl (Samples.hasTypes rfl) "a\n\nb\n".toList
  ["a\n".toList, "b\n".toList] (.cons rfl (.cons rfl .nil)) rfl

/-- C16 for the documents one usually has: if no block converts to nothing but newlines and no block
(with its padding) has three newlines in a row itself, the document has no two consecutive blank
lines. -/
theorem C16_partial_visible_blocks (env : Env) (n : Node) (kids : List Node) (hn : n.cls = .doc)
    (hc : n.content = .val kids) (hk : ∀ k ∈ kids, Spec.HasType k) (ss : List Str)
    (hss : Spec.MdAll env kids ss)
    (hb : ∀ b ∈ List.zipWith Spec.padded kids ss, (∃ c ∈ b, c ≠ '\n') ∧ ¬ Spec.HasRun 3 b) :
    ∃ s, n.toMarkdown env false = .ok (.str s) ∧ ¬ Spec.HasRun 3 s := by
  refine ⟨_, (C42_blocks_in_order env n kids hn hc hk _).mpr ⟨ss, hss, rfl⟩, ?_⟩
  have := maxRun_join (List.zipWith Spec.padded kids ss) (by
    intro b hbm
    obtain ⟨⟨c, hc1, hc2⟩, h3⟩ := hb b hbm
    rw [hasRun_iff] at h3
    exact ⟨by simp only [visible, List.any_eq_true]; exact ⟨c, hc1, by simpa using hc2⟩, by omega⟩)
  unfold Spec.docText Spec.cleaned
  rw [← strip_eq]
  rw [hasRun_iff, maxRun_strip]
  rw [join_eq] at this
  have h0 := maxRunGo_zero_le (Spec.blocks kids ss) 3
  have h5 : maxRun (Spec.blocks kids ss) ≤ 5 := Nat.le_trans h0 this
  have := iter_shrink_mono 3 _ _ h5
  have e : Spec.iter Spec.shrink 3 5 = 2 := rfl
  omega

example := C16_partial_visible_blocks Samples.env (Samples.doc [Samples.para [Samples.text "a"], Samples.para [Samples.text "b"]])
  [Samples.para [Samples.text "a"], Samples.para [Samples.text "b"]] rfl rfl (Samples.hasTypes rfl)
  ["a\n".toList, "b\n".toList] (.cons rfl (.cons rfl .nil))
  (by
    have h : ∀ c : Char, c ≠ '\n' → (∃ x ∈ [c, '\n'], x ≠ '\n') ∧ ¬ Spec.HasRun 3 [c, '\n'] := fun c hc =>
      ⟨⟨c, by simp, hc⟩, fun h => by have := h.length_le; simp at this⟩
    simp only [List.zipWith_cons_cons, List.zipWith_nil_left, List.forall_mem_cons, List.not_mem_nil, false_imp_iff,
      implies_true, and_true]
    exact ⟨h 'a' (by decide), h 'b' (by decide)⟩)

example : (Samples.doc [Samples.heading 1 [Samples.text "a"], Samples.heading 1 [Samples.text "b"]]).toMarkdown
    Samples.env false = .ok (.str "\n\n# a\n\n# b\n\n".toList) := rfl

end Verif.Props
