import Verif.Props.Marks
import Verif.Props.Docs
import Verif.Lemmas.Lines
/-!
# C62: containers are their children, in order
-/

namespace Verif.Props
open Verif

theorem applyMarks_fold (env : Env) (ms : List Mark) (s : Str) (hp : ∀ m ∈ ms, ∃ v, parseMark v = .ok m) :
    applyMarks env (.str s) ms = ms.foldlM (fun md m => m.toMarkdown env md) (.str s) := by
  induction ms generalizing s with
  | nil => rfl
  | cons m ms ih =>
    rw [applyMarks, List.foldlM_cons]
    obtain ⟨v, hv⟩ := hp m (by simp)
    cases hmd : m.toMarkdown env (.str s) with
    | ok v' =>
      obtain ⟨s', rfl⟩ := markMd_str env m s v' hmd
      exact ih s' (fun m' hm' => hp m' (by simp [hm']))
    | error e =>
      have := parsed_mark_noAttrErr env m v hv s
      rw [hmd] at this
      cases e <;> first | rfl | exact absurd rfl this

theorem addStyle_iff (env : Env) (n : Node) (hp : Spec.MarksParsed n) (s t : Str) :
    addStyle env (.str s) n.hd.marks = .ok (.str t) ↔ Spec.Styled env n s t := by
  unfold addStyle Spec.Styled
  cases hm : n.hd.marks with
  | val ms => dsimp only; rw [applyMarks_fold env ms s (hp ms hm)]
  | absent => simp [eq_comm]
  | opt => simp [eq_comm]
  | raw v => simp [eq_comm]

/-- C62: a paragraph converts iff its children do; it is their concatenation, with its own marks
applied, and a newline. -/
theorem C62_paragraph (env : Env) (n : Node) (kids : List Node) (hn : n.cls = .paragraph)
    (hc : n.content = .val kids) (hp : Spec.MarksParsed n) (s : Str) :
    Spec.Md env n s ↔
      ∃ ss t, Spec.MdAll env kids ss ∧ Spec.Styled env n ss.flatten t ∧ s = t ++ "\n".toList := by
  have hn' : n.hd.cls = .paragraph := hn
  unfold Spec.Md
  rw [toMarkdown_eq, hc]
  unfold dispatch
  simp only [hn', Option.isSome_none, Bool.false_and, Bool.false_eq_true, if_false, paragraphMd]
  constructor
  · intro h
    obtain ⟨u, h1, h2⟩ := strVal_str h
    cases h2
    cases hk : contentToMarkdown [] false (slotItems env (.val kids)) with
    | error e => rw [hk] at h1; cases h1
    | ok md =>
      rw [hk] at h1
      obtain ⟨ss, h3, rfl⟩ := (content_iff env [] kids md).mp hk
      dsimp only at h1
      cases ha : addStyle env (.str (Str.join [] ss)) n.hd.marks with
      | error e => rw [ha] at h1; cases h1
      | ok v =>
        obtain ⟨t, rfl⟩ := addStyle_str env _ _ _ ha
        rw [ha] at h1
        cases h1
        rw [join_nil_eq] at ha
        exact ⟨ss, t, h3, (addStyle_iff env n hp _ _).mp ha, rfl⟩
  · rintro ⟨ss, t, h1, h2, rfl⟩
    rw [(content_iff env [] kids _).mpr ⟨ss, h1, rfl⟩]
    dsimp only
    rw [join_nil_eq, (addStyle_iff env n hp _ _).mpr h2]
    rfl

/-- C62: list items, tasks and single media are the concatenation of their children. -/
theorem C62_transparent (env : Env) (n : Node) (kids : List Node) (hn : n.cls ∈ Spec.transparent)
    (hc : n.content = .val kids) (s : Str) :
    Spec.Md env n s ↔ ∃ ss, Spec.MdAll env kids ss ∧ s = ss.flatten := by
  have e : n.toMarkdown env false = strVal (contentToMarkdown [] false (slotItems env (.val kids))) := by
    rw [toMarkdown_eq, hc]
    unfold Node.cls at hn
    simp only [Spec.transparent, List.mem_cons, List.not_mem_nil, or_false] at hn
    unfold dispatch
    rcases hn with h | h | h <;> simp only [h] <;> rfl
  unfold Spec.Md
  rw [e]
  constructor
  · intro h
    obtain ⟨u, h1, h2⟩ := strVal_str h
    cases h2
    obtain ⟨ss, h3, rfl⟩ := (content_iff env [] kids _).mp h1
    exact ⟨ss, h3, by rw [join_nil_eq]⟩
  · rintro ⟨ss, h1, rfl⟩
    rw [(content_iff env [] kids _).mpr ⟨ss, h1, rfl⟩, join_nil_eq]
    rfl

example := C62_transparent Samples.env (Samples.item [Samples.para [Samples.text "a"], Samples.para [Samples.text "b"]])
  [Samples.para [Samples.text "a"], Samples.para [Samples.text "b"]] (by decide) rfl

/-- C62: an expand is its blocks like a document, with its marks applied; its title does not appear. -/
theorem C62_expand (env : Env) (n : Node) (kids : List Node) (hn : n.cls = .expand)
    (hc : n.content = .val kids) (hk : ∀ k ∈ kids, Spec.HasType k) (hp : Spec.MarksParsed n) (s : Str) :
    Spec.Md env n s ↔
      ∃ ss, Spec.MdAll env kids ss ∧ Spec.Styled env n (Spec.docText kids ss) s := by
  have hn' : n.hd.cls = .expand := hn
  unfold Spec.Md
  rw [toMarkdown_eq, hc]
  unfold dispatch
  simp only [hn', Option.isSome_none, Bool.false_and, Bool.false_eq_true, if_false, expandMd]
  constructor
  · intro h
    cases hd : docContentToMarkdown false (slotItems env (.val kids)) with
    | error e => rw [hd] at h; cases h
    | ok u =>
      rw [hd] at h
      obtain ⟨ss, h3, rfl⟩ := (docContent_iff env kids hk u).mp hd
      exact ⟨ss, h3, (addStyle_iff env n hp _ _).mp h⟩
  · rintro ⟨ss, h1, h2⟩
    rw [(docContent_iff env kids hk _).mpr ⟨ss, h1, rfl⟩]
    exact (addStyle_iff env n hp _ _).mpr h2

example := C62_expand Samples.env (Samples.parse (Samples.j "expand" [("content", .list
  [Samples.j "paragraph" [("content", .list [])], Samples.j "rule" []])]))
  [Samples.para [], Samples.parse (Samples.j "rule" [])] rfl rfl
  (Samples.hasTypes rfl) (by intro ms h; cases h)

/-- C62: a nested expand is its blocks like a document. -/
theorem C62_nested_expand (env : Env) (n : Node) (kids : List Node) (hn : n.cls = .nestedExpand)
    (hc : n.content = .val kids) (hk : ∀ k ∈ kids, Spec.HasType k) (s : Str) :
    Spec.Md env n s ↔ ∃ ss, Spec.MdAll env kids ss ∧ s = Spec.docText kids ss := by
  have hn' : n.hd.cls = .nestedExpand := hn
  unfold Spec.Md
  rw [toMarkdown_eq, hc]
  unfold dispatch
  simp only [hn', Option.isSome_none, Bool.false_and, Bool.false_eq_true, if_false]
  constructor
  · intro h
    obtain ⟨u, h1, h2⟩ := strVal_str h
    cases h2
    exact (docContent_iff env kids hk _).mp h1
  · intro h
    rw [(docContent_iff env kids hk _).mpr h]
    rfl

example := C62_nested_expand Samples.env (Samples.parse (Samples.j "nestedExpand" [("attrs", .dict [("title", Samples.str "t")]),
  ("content", .list [Samples.j "paragraph" [("content", .list [])], Samples.j "rule" []])]))
  [Samples.para [], Samples.parse (Samples.j "rule" [])] rfl rfl
  (Samples.hasTypes rfl)

/-- C62: media groups, captions and inline media are empty, whatever they contain, and never fail. -/
theorem C62_silent (env : Env) (n : Node) (hn : n.cls ∈ Spec.silent) (ig : Bool) :
    n.toMarkdown env ig = .ok (.str []) := by
  rw [toMarkdown_eq]
  unfold Node.cls at hn
  simp only [Spec.silent, List.mem_cons, List.not_mem_nil, or_false] at hn
  unfold dispatch
  rcases hn with h | h | h <;> simp only [h] <;> rfl

example := C62_silent Samples.env (Samples.parse (Samples.j "mediaGroup" [("content", .list [])])) (by decide) false

/-- C62: a converting container needs every child to convert: one failing child makes it fail. -/
theorem C62_child_fails (env : Env) (n : Node) (kids : List Node) (hn : n.cls ∈ Spec.transparent)
    (hc : n.content = .val kids) (k : Node) (hk : k ∈ kids) (hf : ∀ s, ¬ Spec.Md env k s) (s : Str) :
    ¬ Spec.Md env n s := by
  intro h
  obtain ⟨ss, h1, -⟩ := (C62_transparent env n kids hn hc s).mp h
  have : ∀ (l : List Node) (ss : List Str), Spec.MdAll env l ss → k ∈ l → False := by
    intro l ss h
    induction h with
    | nil => intro h; cases h
    | cons h1 _ ih =>
      intro h
      rcases List.mem_cons.mp h with rfl | h
      · exact hf _ h1
      · exact ih h
  exact this kids ss h1 hk

example := C62_child_fails Samples.env (Samples.item [Samples.text "a", Samples.badCard]) [Samples.text "a", Samples.badCard]
  (by decide) rfl Samples.badCard (by simp) (fun s h => by cases h)

/-- C62: the nodes `parse_node` returns have parsed marks. -/
theorem C62_parsed_marks (n : Node) (hp : Spec.Parsed n) : Spec.MarksParsed n := by
  intro ms hm m hmem
  obtain ⟨w, v, h⟩ := hp
  obtain ⟨d, t, rfl, _, _, h⟩ := parseNode_ok h
  obtain ⟨a, k, mk, _, _, hk, _, e⟩ := nodeFromDict_ok h
  rw [e] at hm
  simp only [Node.hd, slotOf] at hm
  have hmk : mk = some (.val ms) := by
    cases mk with
    | none =>
      exfalso
      revert hm
      cases fieldDflt n.cls.fields "marks" with
      | none => intro hm; cases hm
      | some df => cases df <;> intro hm <;> cases hm
    | some sl =>
      revert hm
      cases fieldDflt n.cls.fields "marks" with
      | none => intro hm; cases hm
      | some df => intro hm; exact congrArg some hm
  unfold marksStep at hk
  split at hk
  · rw [hmk] at hk; cases hk
  · next l hl =>
    simp only [Res.map_out] at hk
    split at hk
    · cases hk
    · next ms' hms =>
      rw [hmk] at hk
      cases hk
      obtain ⟨v, _, hv⟩ := parseMarks_mem hms hmem
      exact ⟨v, hv⟩
  · next v hv hl =>
    rw [hmk] at hk
    simp only [Res.ok, Except.ok.injEq, Option.some.injEq] at hk
    unfold rawSlot at hk
    split at hk <;> cases hk

example := C62_parsed_marks (Samples.parse (Samples.j "text" [("text", Samples.str "a"), ("marks", .list [Samples.j "strong" []])]))
  (Samples.parsed rfl)

example : Spec.Md Samples.env (Samples.para [Samples.text "a", Samples.text "b"]) "ab\n".toList := by
  refine (C62_paragraph Samples.env _ _ rfl rfl (by intro ms h; cases h) _).mpr
    ⟨["a".toList, "b".toList], "ab".toList, .cons (by rfl) (.cons (by rfl) .nil), rfl, rfl⟩

end Verif.Props
