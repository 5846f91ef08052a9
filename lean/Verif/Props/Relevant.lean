import Verif.Spec.Relevant
import Verif.Props.Docs
import Verif.Props.Dates
/-!
# C53: what the Markdown depends on
-/

namespace Verif.Props
set_option linter.unusedSimpArgs false
open Verif Spec

/-! ## A parent looks at a child's attrs only in a task list, and there only at `state` -/

/-- The child as its parent uses it. -/
def norm (k : Item) : Item :=
  { k with attrs :=
      if k.isNode && isTypeOf k.type [.taskItem] then
        match getAttr k.attrs "state" with
        | .ok v => .val ⟨[("state", v)]⟩
        | .error _ => .absent
      else .absent }

def normSlot : Slot (List Item) → Slot (List Item)
  | .val l => .val (l.map norm)
  | c => c

theorem norm_toKid (k : Item) : (norm k).toKid = k.toKid := rfl
theorem norm_content (k : Item) : (norm k).content = k.content := rfl
theorem norm_alien : norm alienItem = alienItem := rfl

theorem iter_norm (c : Slot (List Item)) :
    iterSlot alienItem (normSlot c) =
      match iterSlot alienItem c with
      | .error e => .error e
      | .ok l => .ok (l.map norm) := by
  cases c with
  | raw v =>
    simp only [normSlot, iterSlot]
    cases v.iterLen with
    | error e => rfl
    | ok n => simp [norm_alien]
  | _ => rfl

theorem content_norm (sep : Str) (ig : Bool) (c : Slot (List Item)) :
    contentToMarkdown sep ig (normSlot c) = contentToMarkdown sep ig c := by
  cases c with
  | opt => rfl
  | val l =>
    simp only [normSlot, contentToMarkdown, iterSlot, collect_map]
    rfl
  | _ => rfl

theorem docContent_norm (ig : Bool) (c : Slot (List Item)) :
    docContentToMarkdown ig (normSlot c) = docContentToMarkdown ig c := by
  cases c with
  | opt => rfl
  | val l =>
    simp only [normSlot, docContentToMarkdown, iterSlot, collect_map]
    rfl
  | _ => rfl

theorem bullet_norm (level : Int) (ig : Bool) (l : List Item) :
    bulletLines level ig (l.map norm) = bulletLines level ig l := by
  induction l with
  | nil => rfl
  | cons k l ih => rw [List.map_cons, bulletLines, bulletLines, ih]; rfl

theorem ordered_norm (env : Env) (level : Int) (ig : Bool) (num : Val) (l : List Item) :
    orderedLines env level ig num (l.map norm) = orderedLines env level ig num l := by
  induction l generalizing num with
  | nil => rfl
  | cons k l ih => rw [List.map_cons, orderedLines, orderedLines, ih, ih]; rfl

theorem taskItem_norm (level : Int) (ig : Bool) (k : Item) (h : k.isTypeOf [.taskItem] = .ok true) :
    taskItemLine level ig (norm k) = taskItemLine level ig k := by
  unfold taskItemLine
  rw [norm_content]
  have : getAttr (norm k).attrs "state" = getAttr k.attrs "state" := by
    unfold Kid.isTypeOf at h
    split at h
    · next hn =>
      simp only [Except.ok.injEq] at h
      unfold norm
      simp only [hn, h, Bool.and_self, if_true]
      cases hg : getAttr k.attrs "state" with
      | ok v => rfl
      | error e =>
        unfold getAttr at hg
        split at hg
        · split at hg
          · simp at hg
          · simp only [Except.error.injEq] at hg; subst hg; rfl
        · simp only [Except.error.injEq] at hg; subst hg; rfl
    · simp at h
  rw [this]

theorem task_norm (level : Int) (ig : Bool) (l : List Item) :
    taskLines level ig (l.map norm) = taskLines level ig l := by
  induction l with
  | nil => rfl
  | cons k l ih =>
    rw [List.map_cons, taskLines, taskLines, ih, norm_toKid]
    cases ht : k.isTypeOf [.taskItem] with
    | error e => rfl
    | ok b =>
      cases b with
      | true => simp only [taskItem_norm level ig k ht]
      | false => rfl

theorem decision_norm (ig : Bool) (l : List Item) :
    decisionBlocks ig (l.map norm) = decisionBlocks ig l := by
  induction l with
  | nil => rfl
  | cons k l ih => rw [List.map_cons, decisionBlocks, decisionBlocks, ih]; rfl

theorem cells_norm (ig : Bool) (l : List Item) : rowCells ig (l.map norm) = rowCells ig l := by
  induction l with
  | nil => rfl
  | cons k l ih => rw [List.map_cons, rowCells, rowCells, ih]; rfl

theorem table_norm (ig : Bool) (l : List Item) : tableLines ig (l.map norm) = tableLines ig l := by
  induction l with
  | nil => rfl
  | cons k l ih => rw [List.map_cons, tableLines, tableLines, ih]; rfl

theorem dispatch_norm (env : Env) (hd : Hd) (c : Slot (List Item)) :
    dispatch env hd (normSlot c) = dispatch env hd c := by
  funext level ig
  unfold dispatch
  split
  · rfl
  · cases hcls : hd.cls <;> simp only [hcls] <;>
      first
      | rfl
      | simp only [blockquoteMd, panelMd, expandMd, docContent_norm]
      | simp only [paragraphMd, headingMd, codeBlockMd, cellMd, decisionItemMd, content_norm]
      | skip
    · simp only [bulletListMd, iter_norm]
      cases iterSlot alienItem c with
      | error e => rfl
      | ok l => simp only [bullet_norm]
    · simp only [orderedListMd, iter_norm]
      cases iterSlot alienItem c with
      | error e => rfl
      | ok l => simp only [ordered_norm]
    · simp only [taskListMd, iter_norm]
      cases iterSlot alienItem c with
      | error e => rfl
      | ok l => simp only [task_norm]
    · simp only [decisionListMd, iter_norm]
      cases iterSlot alienItem c with
      | error e => rfl
      | ok l => simp only [decision_norm]
    · simp only [tableRowMd, iter_norm]
      cases iterSlot alienItem c with
      | error e => rfl
      | ok l => simp only [cells_norm]
    · simp only [tableMd, iter_norm]
      cases iterSlot alienItem c with
      | error e => rfl
      | ok l => simp only [table_norm]

/-! ## Own attributes and marks -/

theorem getAttr_agree {names : List String} {a b : Slot AttrsObj} (h : AttrsAgree names a b) {k : String}
    (hk : k ∈ names) : getAttr a k = getAttr b k := by
  rcases h with rfl | rfl | ⟨x, y, rfl, rfl, h⟩
  · simp at hk
  · rfl
  · simp only [getAttr, h k hk]

theorem mark_agree (env : Env) {m m' : Mark} (hc : m.cls = m'.cls)
    (ha : ∀ names, readMarkAttrs m.cls = some names → AttrsAgree names m.attrs m'.attrs) (v : Val) :
    m.toMarkdown env v = m'.toMarkdown env v := by
  unfold Mark.toMarkdown
  rw [← hc]
  cases hm : m.cls <;> simp only <;> rw [hm] at ha
  · rw [getAttr_agree (ha _ rfl) (k := "title") (by simp),
      getAttr_agree (ha _ rfl) (k := "href") (by simp)]
  · rw [getAttr_agree (ha _ rfl) (k := "level") (by simp)]

theorem mark_none (env : Env) {m : Mark} (h : readMarkAttrs m.cls = none) (v : Val) :
    m.toMarkdown env v = .ok v := by
  unfold Mark.toMarkdown
  cases hm : m.cls <;> rw [hm] at h <;> first | rfl | simp [readMarkAttrs] at h

theorem marks_agree (env : Env) {ms ms' : List Mark} (h : MarksAgree ms ms') (v : Val) :
    applyMarks env v ms = applyMarks env v ms' := by
  induction h generalizing v with
  | nil => rfl
  | left h _ ih => rw [applyMarks, mark_none env h]; exact ih v
  | right h _ ih => rw [applyMarks, mark_none env h]; exact ih v
  | both hc ha _ ih =>
    rw [applyMarks, applyMarks, mark_agree env hc ha]
    split
    · exact ih _
    · rfl
    · rfl

theorem addStyle_agree (env : Env) {n n' : Node} (h : MarksAgree (marksOf n) (marksOf n')) (v : Val) :
    addStyle env v n.hd.marks = addStyle env v n'.hd.marks := by
  have key : ∀ n : Node, addStyle env v n.hd.marks = applyMarks env v (marksOf n) := by
    intro n
    unfold addStyle marksOf
    cases n.hd.marks <;> rfl
  rw [key, key, marks_agree env h]

theorem orderedStart_agree {a b : Slot AttrsObj} (h : AttrsAgree ["order"] a b) (level : Int) :
    orderedStart a level = orderedStart b level := by
  unfold orderedStart
  rw [getAttr_agree h (by simp)]

theorem codeLang_agree {a b : Slot AttrsObj} (h : AttrsAgree ["language"] a b) :
    codeLang a = codeLang b := by
  rcases h with h | rfl | ⟨x, y, rfl, rfl, h⟩
  · simp at h
  · rfl
  · simp only [codeLang, getAttr, h "language" (by simp)]

theorem dispatch_agree (env : Env) {n n' : Node} (hcls : n.cls = n'.cls)
    (htext : n.cls = .text → n.hd.text = n'.hd.text)
    (hattrs : AttrsAgree (readAttrs n.cls) n.hd.attrs n'.hd.attrs)
    (hmarks : n.cls ∈ readsMarks → MarksAgree (marksOf n) (marksOf n')) (c : Slot (List Item)) :
    dispatch env n.hd c = dispatch env n'.hd c := by
  funext level ig
  unfold dispatch
  rw [show n'.hd.cls = n.hd.cls from hcls.symm]
  have hst : n.cls ∈ readsMarks → ∀ v, addStyle env v n.hd.marks = addStyle env v n'.hd.marks :=
    fun h v => addStyle_agree env (hmarks h) v
  split
  · rfl
  · unfold Node.cls at htext hattrs hst
    cases hc : n.hd.cls <;> rw [hc] at htext hattrs hst <;> simp only
    · simp only [textMd, htext rfl, hst (by decide)]
    · simp only [orderedListMd, orderedStart_agree hattrs]
    · simp only [paragraphMd, hst (by decide)]
    · simp only [emojiMd, getAttr_agree hattrs (k := "text") (by decide),
        getAttr_agree hattrs (k := "shortName") (by decide)]
    · simp only [getAttr_agree hattrs (k := "timestamp") (by decide)]
    · simp only [mentionMd, getAttr_agree hattrs (k := "text") (by decide)]
    · simp only [statusMd, getAttr_agree hattrs (k := "text") (by decide)]
    · simp only [headingMd, getAttr_agree hattrs (k := "level") (by decide)]
    · simp only [codeBlockMd, codeLang_agree hattrs]
    · simp only [inlineCardMd, getAttr_agree hattrs (k := "url") (by decide)]
    · simp only [blockCardMd, getAttr_agree hattrs (k := "url") (by decide)]
    · simp only [mediaMd, mediaAlt, getAttr_agree hattrs (k := "url") (by decide),
        getAttr_agree hattrs (k := "type") (by decide), getAttr_agree hattrs (k := "id") (by decide),
        getAttr_agree hattrs (k := "alt") (by decide), hst (by decide)]
    · simp only [embedCardMd, getAttr_agree hattrs (k := "url") (by decide)]
    · simp only [extensionMd, getAttr_agree hattrs (k := "extensionKey") (by decide),
        getAttr_agree hattrs (k := "extensionType") (by decide),
        getAttr_agree hattrs (k := "text") (by decide)]
    · simp only [panelMd, getAttr_agree hattrs (k := "panelType") (by decide)]
    · simp only [expandMd, hst (by decide)]

/-! ## C53 -/

theorem kidsOf_norm (c : Slot (List Item)) : kidsOf (normSlot c) = kidsOf c := by
  cases c with
  | val l => simp only [normSlot, kidsOf, List.map_map]; rfl
  | _ => rfl

theorem slot_same (env : Env) {c c' : Slot (List Node)}
    (h : c = c' ∨ ∃ l l', c = .val l ∧ c' = .val l' ∧
      List.Forall₂ (fun k k' => norm (k.item env) = norm (k'.item env)) l l') :
    normSlot (slotItems env c) = normSlot (slotItems env c') := by
  rcases h with rfl | ⟨l, l', rfl, rfl, h⟩
  · rfl
  · simp only [slotItems_val, normSlot, List.map_map]
    congr 1
    induction h with
    | nil => rfl
    | cons h1 _ ih => simp only [List.map_cons, Function.comp_apply, h1, ih]

theorem forall2_mem {α : Type} {R S : α → α → Prop} {l l' : List α} (h : List.Forall₂ R l l')
    (hs : ∀ k ∈ l, ∀ k', R k k' → S k k') : List.Forall₂ S l l' := by
  induction h with
  | nil => exact .nil
  | cons a _ ih => exact .cons (hs _ (by simp) _ a) (ih fun k hk => hs k (by simp [hk]))

theorem item_same (env : Env) (n : Node) : ∀ n', (∀ m, Below m n → HasType m) → SameForMd n n' →
    norm (n.item env) = norm (n'.item env) := by
  induction n using Node.induction with
  | h hd s ih =>
    intro n' ht hsame
    have hcontent : s = n'.content ∨ ∃ l l', s = .val l ∧ n'.content = .val l' ∧
        List.Forall₂ SameForMd l l' := by
      cases hsame with
      | leaf _ hc => exact .inl hc
      | inner _ hl hl' hk => exact .inr ⟨_, _, hl, hl', hk⟩
    obtain ⟨hcls, htype, htext, hattrs, hmarks⟩ : AgreeHere (.mk hd s) n' := by
      cases hsame with
      | leaf h => exact h
      | inner h => exact h
    have hslot : normSlot (slotItems env s) = normSlot (slotItems env n'.content) := by
      apply slot_same
      rcases hcontent with h | ⟨l, l', h1, h2, h3⟩
      · exact .inl h
      · refine .inr ⟨l, l', h1, h2, ?_⟩
        have h1 : s = .val l := h1
        exact forall2_mem h3 fun k hk k' hs =>
          ih l k h1 hk k' (fun m hm => ht m (.step h1 hk hm)) hs
    have hrender : dispatch env hd (slotItems env s) = dispatch env n'.hd (slotItems env n'.content) := by
      rw [← dispatch_norm env hd, hslot, dispatch_norm,
        show dispatch env hd = dispatch env (Node.mk hd s).hd from rfl]
      exact dispatch_agree env hcls htext hattrs hmarks _
    have hkids : kidsOf (slotItems env s) = kidsOf (slotItems env n'.content) := by
      rw [← kidsOf_norm, hslot, kidsOf_norm]
    have hstate : isTypeOf hd.type [.taskItem] = true → getAttr hd.attrs "state" = getAttr n'.hd.attrs "state" := by
      intro h
      have := (isTypeOf_iff (ht _ (.here _)) [.taskItem]).mp h
      have hc : hd.cls = .taskItem := by
        simp only [List.mem_singleton] at this
        have : hd.cls.typeEnum = .taskItem := this
        revert this
        cases hd.cls <;> simp [NodeCls.typeEnum]
      have hattrs : AttrsAgree (readAttrs hd.cls) hd.attrs n'.hd.attrs := hattrs
      rw [hc] at hattrs
      exact getAttr_agree hattrs (by decide)
    have htype : hd.type = n'.hd.type := htype
    have e1 : Node.item env (.mk hd s) = 
        { isNode := true, type := hd.type, render := dispatch env hd (slotItems env s),
          attrs := hd.attrs, content := kidsOf (slotItems env s) } := by rw [Node.item]
    have e2 : Node.item env n' = 
        { isNode := true, type := n'.hd.type, render := dispatch env n'.hd (slotItems env n'.content),
          attrs := n'.hd.attrs, content := kidsOf (slotItems env n'.content) } := by cases n'; rw [Node.item]; rfl
    rw [e1, e2]
    unfold norm
    simp only [hrender, hkids, ← htype, Item.mk.injEq, Kid.mk.injEq, true_and, Bool.true_and]
    by_cases h : isTypeOf hd.type [.taskItem] = true
    · simp [h, hstate h]
    · simp [h]

/-- C53: trees that agree on shape, types, texts and on the attributes and marks listed in
`Spec/Relevant.lean` have the same Markdown (or raise the same error), in strict and lenient mode, at every
level. -/
theorem C53_relevant (env : Env) (n n' : Node) (ht : ∀ m, Below m n → HasType m)
    (h : SameForMd n n') (level : Option Int) (ig : Bool) :
    n.toMarkdownAt env level ig = n'.toMarkdownAt env level ig := by
  have := congrArg (fun i : Item => i.render level ig) (item_same env n n' ht h)
  exact this

theorem below_parsed {m n : Node} (h : Below m n) : Parsed n → Parsed m := by
  induction h with
  | here => exact id
  | step hc hk _ ih => exact fun hp => ih (parsed_kids hp hc _ hk)

/-- C53 for parsed documents. -/
theorem C53_parsed (env : Env) (n n' : Node) (hp : Parsed n) (h : SameForMd n n')
    (level : Option Int) (ig : Bool) : n.toMarkdownAt env level ig = n'.toMarkdownAt env level ig :=
  C53_relevant env n n' (fun _ hm => parsed_hasType (below_parsed hm hp)) h level ig

/-- The node with these attributes. -/
def withAttrs (c : NodeCls) (l : List (String × Val)) : Node :=
  .mk ⟨c, .str c.typeEnum.value.toList, none, none, .val ⟨l⟩, .absent⟩ (.val [])

/-- C53: the list of attributes is minimal: for each of them there are two nodes that differ only in its
value and whose Markdown differs (for task items: inside a task list). -/
theorem C53_minimal (c : NodeCls) (k : String) (hk : k ∈ readAttrs c) :
    ∃ (pre post : List (String × Val)) (x y : Val) (s t : Str), s ≠ t ∧
      (c ≠ .taskItem → ∃ kids,
        (Node.mk (withAttrs c (pre ++ (k, x) :: post)).hd (.val kids)).toMarkdown Samples.env false = .ok (.str s) ∧
        (Node.mk (withAttrs c (pre ++ (k, y) :: post)).hd (.val kids)).toMarkdown Samples.env false = .ok (.str t)) ∧
      (c = .taskItem →
        (Samples.tasks [withAttrs c (pre ++ (k, x) :: post)]).toMarkdown Samples.env false = .ok (.str s) ∧
        (Samples.tasks [withAttrs c (pre ++ (k, y) :: post)]).toMarkdown Samples.env false = .ok (.str t)) := by
  cases c <;> simp only [readAttrs, List.mem_cons, List.not_mem_nil, or_false] at hk
  · subst hk
    exact ⟨[], [], .int 1, .int 2, "1. ".toList, "2. ".toList, by decide, fun _ => ⟨[Samples.item []], rfl, rfl⟩,
      fun h => absurd h (by decide)⟩
  · subst hk
    exact ⟨[], [], Samples.str "DONE", Samples.str "TODO", "- [x] ".toList, "- [ ] ".toList, by decide,
      fun h => absurd rfl h, fun _ => ⟨rfl, rfl⟩⟩
  · rcases hk with rfl | rfl
    · exact ⟨[], [("shortName", Samples.str "c")], Samples.str "a", Samples.str "b", "a".toList, "b".toList,
        by decide, fun _ => ⟨[], rfl, rfl⟩, fun h => absurd h (by decide)⟩
    · exact ⟨[("text", .opt)], [], Samples.str "a", Samples.str "b", "a".toList, "b".toList,
        by decide, fun _ => ⟨[], rfl, rfl⟩, fun h => absurd h (by decide)⟩
  · subst hk
    exact ⟨[], [], .int 0, .int 86400000, "1970-01-01".toList, "1970-01-02".toList, by decide,
      fun _ => ⟨[], (C37_utc_date Samples.env _ 0 false rfl _ rfl (.int _) _).mpr
        ⟨1970, 1, 1, ⟨by omega, by omega, by omega, by omega, by decide⟩, by omega, by
          rw [isUtcDay_iff, epoch_ok]; rfl, rfl⟩, (C37_utc_date Samples.env _ 86400000 false rfl _ rfl (.int _) _).mpr
        ⟨1970, 1, 2, ⟨by omega, by omega, by omega, by omega, by decide⟩, by omega, by
          rw [isUtcDay_iff]
          have : Spec.dayNumber 1970 1 2 = 719164 := by
            unfold Spec.dayNumber; rw [daysBeforeYear_closed 1969]; rfl
          rw [this]; rfl, rfl⟩⟩, fun h => absurd h (by decide)⟩
  · subst hk
    exact ⟨[], [], Samples.str "a", Samples.str "b", "a".toList, "b".toList, by decide,
      fun _ => ⟨[], rfl, rfl⟩, fun h => absurd h (by decide)⟩
  · subst hk
    exact ⟨[], [], Samples.str "a", Samples.str "b", "`a`".toList, "`b`".toList, by decide,
      fun _ => ⟨[], rfl, rfl⟩, fun h => absurd h (by decide)⟩
  · subst hk
    exact ⟨[], [], .int 1, .int 2, "\n\n# \n\n".toList, "\n\n## \n\n".toList, by decide,
      fun _ => ⟨[], rfl, rfl⟩, fun h => absurd h (by decide)⟩
  · subst hk
    exact ⟨[], [], Samples.str "a", Samples.str "b", "```a\n\n```".toList, "```b\n\n```".toList, by decide,
      fun _ => ⟨[], rfl, rfl⟩, fun h => absurd h (by decide)⟩
  · subst hk
    exact ⟨[], [], Samples.str "a", Samples.str "b", "[a](a)".toList, "[b](b)".toList, by decide,
      fun _ => ⟨[], rfl, rfl⟩, fun h => absurd h (by decide)⟩
  · subst hk
    exact ⟨[], [], Samples.str "a", Samples.str "b", "\n[a](a)\n".toList, "\n[b](b)\n".toList, by decide,
      fun _ => ⟨[], rfl, rfl⟩, fun h => absurd h (by decide)⟩
  · rcases hk with rfl | rfl | rfl | rfl
    · exact ⟨[], [("url", Samples.str "u"), ("alt", .opt), ("id", .opt)], Samples.str "external", Samples.str "link",
        "![media](u)".toList, "[media]".toList,
        by decide, fun _ => ⟨[], rfl, rfl⟩, fun h => absurd h (by decide)⟩
    · exact ⟨[("type", Samples.str "external")], [("alt", .opt), ("id", .opt)], Samples.str "u", Samples.str "v",
        "![media](u)".toList, "![media](v)".toList,
        by decide, fun _ => ⟨[], rfl, rfl⟩, fun h => absurd h (by decide)⟩
    · exact ⟨[("type", Samples.str "external"), ("url", Samples.str "u")], [("id", .opt)], Samples.str "a", .opt,
        "![a](u)".toList, "![media](u)".toList,
        by decide, fun _ => ⟨[], rfl, rfl⟩, fun h => absurd h (by decide)⟩
    · exact ⟨[("type", Samples.str "file"), ("url", .opt), ("alt", .opt)], [], Samples.str "1", Samples.str "2",
        "![media](media:1)".toList, "![media](media:2)".toList,
        by decide, fun _ => ⟨[], rfl, rfl⟩, fun h => absurd h (by decide)⟩
  · subst hk
    exact ⟨[], [], Samples.str "a", Samples.str "b", "\n[a](a)\n".toList, "\n[b](b)\n".toList, by decide,
      fun _ => ⟨[], rfl, rfl⟩, fun h => absurd h (by decide)⟩
  · rcases hk with rfl | rfl | rfl
    · exact ⟨[], [("extensionType", Samples.str "t"), ("text", .opt)], Samples.str "a", Samples.str "b",
        "[Extension: t/a]".toList, "[Extension: t/b]".toList,
        by decide, fun _ => ⟨[], rfl, rfl⟩, fun h => absurd h (by decide)⟩
    · exact ⟨[("extensionKey", Samples.str "k")], [("text", .opt)], Samples.str "a", Samples.str "b",
        "[Extension: a/k]".toList, "[Extension: b/k]".toList,
        by decide, fun _ => ⟨[], rfl, rfl⟩, fun h => absurd h (by decide)⟩
    · exact ⟨[("extensionKey", Samples.str "k"), ("extensionType", Samples.str "t")], [], Samples.str "a", .opt,
        "[Extension: k] a".toList, "[Extension: t/k]".toList,
        by decide, fun _ => ⟨[], rfl, rfl⟩, fun h => absurd h (by decide)⟩
  · subst hk
    exact ⟨[], [], Samples.str "a", Samples.str "b", "> **A**\n> \n\n".toList, "> **B**\n> \n\n".toList, by decide,
      fun _ => ⟨[], rfl, rfl⟩, fun h => absurd h (by decide)⟩

/-- Two documents that differ in version, ids, a colour mark and a mark on a heading. -/
def relA : Node :=
  .mk ⟨.doc, Samples.str "doc", some (.int 1), none, .absent, .absent⟩ (.val
    [.mk ⟨.heading, Samples.str "heading", none, none,
      Samples.attrs [("level", .int 2), ("localId", .opt)], .opt⟩ (.val [Samples.textM "a" [Samples.mark .strong]])])

def relB : Node :=
  .mk ⟨.doc, Samples.str "doc", some (.int 7), none, .absent, .absent⟩ (.val
    [.mk ⟨.heading, Samples.str "heading", none, none,
      Samples.attrs [("level", .int 2), ("localId", Samples.str "x")], .val [Samples.mark .em]⟩ (.val
        [Samples.textM "a" [Samples.mark .underline, Samples.mark .strong]])])

theorem relAB : SameForMd relA relB := by
  refine .inner ⟨rfl, rfl, fun h => (by simp [relA, Node.cls, Node.hd] at h), .inl rfl,
    fun h => absurd h (by decide)⟩ rfl rfl (.cons ?_ .nil)
  refine .inner ⟨rfl, rfl, fun h => (by simp [Node.cls, Node.hd] at h),
    .inr (.inr ⟨_, _, rfl, rfl, by simp [readAttrs, Node.cls, Node.hd, lookupKey]⟩),
    fun h => absurd h (by decide)⟩ rfl rfl (.cons ?_ .nil)
  exact .leaf ⟨rfl, rfl, fun _ => rfl, .inl rfl,
    fun _ => .right rfl (.both rfl (fun _ _ => .inr (.inl rfl)) .nil)⟩ rfl

example : relA.toMarkdown Samples.env false = .ok (.str "\n\n## **a**\n\n".toList) := rfl

/-- `relA` is what its JSON parses to. -/
theorem relA_parsed : Parsed relA := ⟨true, Samples.j "doc" [("version", .int 1), ("content", .list
  [Samples.j "heading" [("attrs", .dict [("level", .int 2)]), ("content", .list
    [Samples.j "text" [("text", Samples.str "a"), ("marks", .list [Samples.j "strong" []])]])]])], rfl⟩

example := C53_parsed Samples.env relA relB relA_parsed relAB none false

example := C53_minimal .heading "level" (by decide)

example := C53_relevant Samples.env relA relB (fun _ hm => parsed_hasType (below_parsed hm relA_parsed)) relAB none false

end Verif.Props
