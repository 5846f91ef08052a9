import Verif.Spec.Context
import Verif.Props.Relevant
import Verif.Props.Marks
import Verif.Lemmas.Lines
/-!
# C54: parts with the same Markdown are interchangeable
-/

namespace Verif.Props
set_option linter.unusedSimpArgs false
open Verif Spec

/-- The child without what only the classes in `lookInside` use. -/
def outer (k : Item) : Item := { k with attrs := .absent, content := .absent }

def outerSlot : Slot (List Item) → Slot (List Item)
  | .val l => .val (l.map outer)
  | c => c

theorem iter_outer (c : Slot (List Item)) :
    iterSlot alienItem (outerSlot c) =
      match iterSlot alienItem c with
      | .error e => .error e
      | .ok l => .ok (l.map outer) := by
  cases c with
  | raw v =>
    simp only [outerSlot, iterSlot]
    cases v.iterLen with
    | error e => rfl
    | ok n => simp [show outer alienItem = alienItem from rfl]
  | _ => rfl

theorem content_outer (sep : Str) (ig : Bool) (c : Slot (List Item)) :
    contentToMarkdown sep ig (outerSlot c) = contentToMarkdown sep ig c := by
  cases c with
  | opt => rfl
  | val l =>
    simp only [outerSlot, contentToMarkdown, iterSlot, collect_map]
    rfl
  | _ => rfl

theorem docContent_outer (ig : Bool) (c : Slot (List Item)) :
    docContentToMarkdown ig (outerSlot c) = docContentToMarkdown ig c := by
  cases c with
  | opt => rfl
  | val l =>
    simp only [outerSlot, docContentToMarkdown, iterSlot, collect_map]
    rfl
  | _ => rfl

theorem decision_outer (ig : Bool) (l : List Item) :
    decisionBlocks ig (l.map outer) = decisionBlocks ig l := by
  induction l with
  | nil => rfl
  | cons k l ih => rw [List.map_cons, decisionBlocks, decisionBlocks, ih]; rfl

theorem cells_outer (ig : Bool) (l : List Item) : rowCells ig (l.map outer) = rowCells ig l := by
  induction l with
  | nil => rfl
  | cons k l ih => rw [List.map_cons, rowCells, rowCells, ih]; rfl

theorem dispatch_outer (env : Env) (hd : Hd) (h : hd.cls ∉ lookInside) (c : Slot (List Item)) :
    dispatch env hd (outerSlot c) = dispatch env hd c := by
  funext level ig
  unfold dispatch
  split
  · rfl
  · cases hcls : hd.cls <;> simp only [hcls] <;>
      first
      | rfl
      | exact absurd (by rw [hcls]; decide) h
      | simp only [blockquoteMd, panelMd, expandMd, docContent_outer]
      | simp only [paragraphMd, headingMd, codeBlockMd, cellMd, decisionItemMd, content_outer]
      | skip
    · simp only [decisionListMd, iter_outer]
      cases iterSlot alienItem c with
      | error e => rfl
      | ok l => simp only [decision_outer]
    · simp only [tableRowMd, iter_outer]
      cases iterSlot alienItem c with
      | error e => rfl
      | ok l => simp only [cells_outer]

theorem listItems_eq (env : Env) (l : List Node) : listItems env l = l.map (Node.item env) := by
  induction l with
  | nil => rfl
  | cons n l ih => rw [listItems, ih]; rfl

theorem item_mk (env : Env) (hd : Hd) (l : List Node) :
    Node.item env (.mk hd (.val l)) =
      { isNode := true, type := hd.type, render := dispatch env hd (.val (l.map (Node.item env))),
        attrs := hd.attrs, content := .val (l.map fun k => (k.item env).toKid) } := by
  rw [Node.item, slotItems, listItems_eq]
  simp only [kidsOf, List.map_map]
  rfl

/-- C54: a node may be exchanged, anywhere in a tree (not directly below a list, task list or table,
which look into their children), for a node with the same type and the same Markdown: the Markdown of
every tree around it stays the same, including exceptions, in both modes, at every level. -/
theorem C54_exchange (env : Env) (a b n n' : Node) (ht : a.hd.type = b.hd.type)
    (hmd : ∀ level ig, a.toMarkdownAt env level ig = b.toMarkdownAt env level ig)
    (h : Exchanged a b n n') (level : Option Int) (ig : Bool) :
    n.toMarkdownAt env level ig = n'.toMarkdownAt env level ig := by
  have hk : (a.item env).toKid = (b.item env).toKid := by
    have hr : (a.item env).render = (b.item env).render := by
      funext l i; exact hmd l i
    have h1 : ∀ n : Node, (n.item env).toKid = ⟨true, n.hd.type, (n.item env).render⟩ := by
      intro n; cases n; rw [Node.item]; rfl
    rw [h1 a, h1 b, hr, ht]
  have key : n.item env = n'.item env := by
    clear level ig
    induction h with
    | child hd pre post hl =>
      rw [item_mk, item_mk]
      have hd' := dispatch_outer env hd hl
      rw [← hd' (.val ((pre ++ a :: post).map _)), ← hd' (.val ((pre ++ b :: post).map _))]
      have ho : outer (a.item env) = outer (b.item env) := by
        unfold outer; rw [hk]
      simp only [outerSlot, List.map_append, List.map_cons, hk, ho]
    | deeper hd pre post _ ih =>
      rw [item_mk, item_mk]
      simp only [List.map_append, List.map_cons, ih]
  unfold Node.toMarkdownAt
  rw [key]

/-! ## Runs of children -/

theorem collect_seg {α : Type} (ig : Bool) (f : α → Except PyErr Val) {as bs : List α} {ss ts : List Str}
    (ha : List.Forall₂ (fun x s => f x = .ok (.str s)) as ss)
    (hb : List.Forall₂ (fun x s => f x = .ok (.str s)) bs ts) (pre post : List α) :
    (∃ e, collect ig f (pre ++ as ++ post) = .error e ∧ collect ig f (pre ++ bs ++ post) = .error e) ∨
    ∃ p q, collect ig f (pre ++ as ++ post) = .ok (p ++ ss.map .str ++ q) ∧
      collect ig f (pre ++ bs ++ post) = .ok (p ++ ts.map .str ++ q) := by
  have seg : ∀ {as : List α} {ss : List Str}, List.Forall₂ (fun x s => f x = .ok (.str s)) as ss →
      collect ig f (as ++ post) = match collect ig f post with
        | .error e => .error e
        | .ok q => .ok (ss.map .str ++ q) := by
    intro as ss h
    induction h with
    | nil =>
      rw [List.nil_append]
      cases collect ig f post <;> rfl
    | cons h1 _ ih =>
      rw [List.cons_append, collect_cons, h1, ih]
      cases collect ig f post <;> rfl
  induction pre with
  | nil =>
    rw [List.nil_append, List.nil_append, seg ha, seg hb]
    cases collect ig f post with
    | error e => exact .inl ⟨e, rfl, rfl⟩
    | ok q => exact .inr ⟨[], q, rfl, rfl⟩
  | cons x pre ih =>
    simp only [List.cons_append]
    rw [collect_cons, collect_cons]
    cases f x with
    | error e =>
      cases ig with
      | false => exact .inl ⟨e, rfl, rfl⟩
      | true => exact ih
    | ok v =>
      rcases ih with ⟨e, h1, h2⟩ | ⟨p, q, h1, h2⟩
      · exact .inl ⟨e, by rw [h1], by rw [h2]⟩
      · exact .inr ⟨v :: p, q, by rw [h1]; rfl, by rw [h2]; rfl⟩

theorem strJoin_seg {p q : List Val} {ss ts : List Str} (h : ss.flatten = ts.flatten) :
    strJoin [] (p ++ ss.map .str ++ q) = strJoin [] (p ++ ts.map .str ++ q) := by
  have h1 : ∀ l : List Str, (l.map Val.str).all (fun v => v.asStr?.isSome) = true := by
    intro l; simp [Val.asStr?]
  have h2 : ∀ l : List Str, (l.map Val.str).filterMap Val.asStr? = l := by
    intro l
    induction l with
    | nil => rfl
    | cons a l ih => simp only [List.map_cons, List.filterMap_cons, Val.asStr?, ih]
  unfold strJoin
  simp only [List.all_append, h1, List.filterMap_append, h2, join_nil_eq, List.flatten_append, h]

theorem content_seg (env : Env) (ig : Bool) {as bs : List Node} {ss ts : List Str}
    (ha : MdAll env as ss) (hb : MdAll env bs ts) (h : ss.flatten = ts.flatten) (pre post : List Node) :
    contentToMarkdown [] ig (.val ((pre ++ as ++ post).map (Node.item env))) =
      contentToMarkdown [] ig (.val ((pre ++ bs ++ post).map (Node.item env))) := by
  simp only [contentToMarkdown, iterSlot, collect_map]
  rcases collect_seg ig (fun k : Node => (k.item env).render none false) ha hb pre post with
    ⟨e, h1, h2⟩ | ⟨p, q, h1, h2⟩
  · rw [h1, h2]
  · rw [h1, h2]
    exact strJoin_seg h

/-- C54: in paragraphs, headings, code blocks, cells, items and mediaSingle, a run of children may be
exchanged for any other run whose conversions concatenate to the same text. -/
theorem C54_runs (env : Env) (hd : Hd) (pre as bs post : List Node) (ss ts : List Str)
    (hc : hd.cls ∈ plainContainers) (ha : MdAll env as ss) (hb : MdAll env bs ts)
    (h : ss.flatten = ts.flatten) (level : Option Int) (ig : Bool) :
    (Node.mk hd (.val (pre ++ as ++ post))).toMarkdownAt env level ig =
      (Node.mk hd (.val (pre ++ bs ++ post))).toMarkdownAt env level ig := by
  rw [toMarkdownAt_eq, toMarkdownAt_eq]
  simp only [Node.hd, Node.content, slotItems_val]
  have key := content_seg env ig ha hb h pre post
  simp only [plainContainers, List.mem_cons, List.not_mem_nil, or_false] at hc
  unfold dispatch
  rcases hc with h | h | h | h | h | h | h | h | h <;>
    simp only [h, paragraphMd, headingMd, codeBlockMd, cellMd, decisionItemMd, key]

example := C54_runs Samples.env (Samples.para []).hd [Samples.hardBreak] [Samples.text "ab", Samples.text "c"]
  [Samples.text "a", Samples.text "bc"] [] ["ab".toList, "c".toList] ["a".toList, "bc".toList] (by decide)
  (.cons (by rfl) (.cons (by rfl) .nil)) (.cons (by rfl) (.cons (by rfl) .nil)) rfl

/-- C54: neighbouring text nodes without marks can be merged, or a text split anywhere, without any
change to the Markdown of the paragraph, heading, code block, cell or item they are in — and, by
`C54_exchange`, to the Markdown of anything around it. -/
theorem C54_split_text (env : Env) (hd : Hd) (pre post : List Node) (a b ab : Node) (s t : Str)
    (hc : hd.cls ∈ plainContainers) (ha : plainText a s) (hb : plainText b t) (hab : plainText ab (s ++ t))
    (level : Option Int) (ig : Bool) :
    (Node.mk hd (.val (pre ++ [a, b] ++ post))).toMarkdownAt env level ig =
      (Node.mk hd (.val (pre ++ [ab] ++ post))).toMarkdownAt env level ig :=
  C54_runs env hd pre [a, b] [ab] post [s, t] [s ++ t] hc
    (.cons (C23_no_marks env a _ false ha.1 ha.2.1 ha.2.2)
      (.cons (C23_no_marks env b _ false hb.1 hb.2.1 hb.2.2) .nil))
    (.cons (C23_no_marks env ab _ false hab.1 hab.2.1 hab.2.2) .nil) (by simp) level ig

/-- C54: a text node with empty text and no marks can be left out. -/
theorem C54_empty_text (env : Env) (hd : Hd) (pre post : List Node) (a : Node)
    (hc : hd.cls ∈ plainContainers) (ha : plainText a []) (level : Option Int) (ig : Bool) :
    (Node.mk hd (.val (pre ++ [a] ++ post))).toMarkdownAt env level ig =
      (Node.mk hd (.val (pre ++ [] ++ post))).toMarkdownAt env level ig :=
  C54_runs env hd pre [a] [] post [[]] [] hc
    (.cons (C23_no_marks env a _ false ha.1 ha.2.1 ha.2.2) .nil) .nil rfl level ig

example := C54_empty_text Samples.env (Samples.para []).hd [Samples.text "a"] [Samples.hardBreak] (Samples.text "") (by decide)
  ⟨rfl, rfl, rfl⟩

/-- Below a list it matters what is inside a child, not only its Markdown: the exclusion in
`C54_exchange` is needed. -/
theorem C54_lists_look_inside : ∃ (a b : Node) (hd : Hd),
    a.hd.type = b.hd.type ∧ (∀ level ig, a.toMarkdownAt Samples.env level ig = b.toMarkdownAt Samples.env level ig) ∧
    hd.cls = .bulletList ∧
    (Node.mk hd (.val [a])).toMarkdown Samples.env false ≠ (Node.mk hd (.val [b])).toMarkdown Samples.env false := by
  refine ⟨Samples.item [Samples.text "a", Samples.text "b"], Samples.item [Samples.text "ab"],
    (Samples.bullets []).hd, rfl, ?_, rfl, ?_⟩
  · intro level ig
    exact C54_split_text Samples.env (Samples.item []).hd [] [] (Samples.text "a") (Samples.text "b")
      (Samples.text "ab") "a".toList "b".toList (by decide) ⟨rfl, rfl, rfl⟩ ⟨rfl, rfl, rfl⟩ ⟨rfl, rfl, rfl⟩ level ig
  · intro h
    have h1 : (Node.mk (Samples.bullets []).hd (.val [Samples.item [Samples.text "a", Samples.text "b"]])).toMarkdown
      Samples.env false = .ok (Samples.str "- a\nb") := rfl
    have h2 : (Node.mk (Samples.bullets []).hd (.val [Samples.item [Samples.text "ab"]])).toMarkdown
      Samples.env false = .ok (Samples.str "- ab") := rfl
    rw [h1, h2] at h
    simp only [Except.ok.injEq, Samples.str, Val.str.injEq] at h
    exact absurd h (by decide)

/-- A split text deep inside a list in a panel. -/
example : (Samples.panel "info" [Samples.bullets [Samples.item [Samples.para [Samples.text "a", Samples.text "b"]]]]).toMarkdown
      Samples.env false =
    (Samples.panel "info" [Samples.bullets [Samples.item [Samples.para [Samples.text "ab"]]]]).toMarkdown Samples.env false :=
  C54_exchange Samples.env (Samples.para [Samples.text "a", Samples.text "b"]) (Samples.para [Samples.text "ab"])
    _ _ rfl (fun level ig => C54_split_text Samples.env (Samples.para []).hd [] [] (Samples.text "a") (Samples.text "b")
      (Samples.text "ab") "a".toList "b".toList (by decide) ⟨rfl, rfl, rfl⟩ ⟨rfl, rfl, rfl⟩ ⟨rfl, rfl, rfl⟩ level ig)
    (.deeper (Samples.panel "info" []).hd [] [] (.deeper (Samples.bullets []).hd [] []
      (.child (Samples.item []).hd [] [] (by decide)))) none false

end Verif.Props
