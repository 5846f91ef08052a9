import Verif.Spec.Lenient
import Verif.Props.Lenient
/-!
# C50: lenient conversion is strict conversion of what is not skipped
-/

namespace Verif.Props
set_option linter.unusedSimpArgs false
open Verif Spec

/-! ## the loops -/

theorem collect_alien {β : Type} (f : Item → Except PyErr β) (e : PyErr) (hf : f alienItem = .error e)
    (m : Nat) : collect true f (List.replicate m alienItem) = .ok [] := by
  induction m with
  | zero => rfl
  | succ m ih => rw [List.replicate_succ, collect_cons, hf]; simpa using ih

theorem content_skip (env : Env) (sep : Str) (c : Slot (List Node)) :
    contentToMarkdown sep true (slotItems env c) =
      contentToMarkdown sep false (slotItems env (skipFailing env c)) := by
  cases c with
  | absent => rfl
  | opt => rfl
  | val l => exact content_lenient env sep l
  | raw v =>
    unfold skipFailing
    cases h : v.iterLen with
    | error e => simp [contentToMarkdown, iterSlot, h]
    | ok m =>
      simp only [slotItems_raw, slotItems_val, List.map_nil, contentToMarkdown, iterSlot, h]
      rw [collect_alien _ .attributeError rfl]
      rfl

theorem docContent_skip (env : Env) (c : Slot (List Node))
    (hk : ∀ l, c = .val l → ∀ k ∈ l, HasType k) :
    docContentToMarkdown true (slotItems env c) =
      docContentToMarkdown false (slotItems env (skipFailing env c)) := by
  cases c with
  | absent => rfl
  | opt => rfl
  | val l => exact docContent_lenient env l (hk l rfl)
  | raw v =>
    unfold skipFailing
    cases h : v.iterLen with
    | error e => simp [docContentToMarkdown, iterSlot, h]
    | ok m =>
      simp only [slotItems_raw, slotItems_val, List.map_nil, docContentToMarkdown, iterSlot, h]
      rw [collect_alien _ .attributeError rfl]
      rfl

theorem typeEnum_inj {a b : NodeCls} (h : a.typeEnum = b.typeEnum) : a = b := by
  revert h; cases a <;> cases b <;> decide

theorem kid_isTypeOf (env : Env) {n : Node} (h : HasType n) (c : NodeCls) (te : TypeEnum)
    (hte : c.typeEnum = te) : (n.item env).toKid.isTypeOf [te] = .ok (decide (n.cls = c)) := by
  subst hte
  rw [item_isTypeOf env h]
  congr 2
  simp only [List.mem_singleton, eq_iff_iff]
  exact ⟨typeEnum_inj, fun h => by rw [h]⟩

/-! ## bullet and numbered lists -/

theorem listItemChild_isOk (env : Env) (kind : NodeCls) (level : Int) (k : Node) :
    (listItemChild level (decide (k.cls = kind)) (k.item env).toKid).toOption.isSome =
      (if k.cls = kind then convertsAt env (some (level + 1)) k else givesText env k) := by
  unfold listItemChild
  by_cases h : k.cls = kind
  · simp only [h, decide_true, if_true, item_render, convertsAt]
    cases k.toMarkdownAt env (some (level + 1)) false <;> rfl
  · simp only [h, decide_false, if_false, item_render, givesText, Bool.false_eq_true]
    unfold Node.toMarkdown
    cases hm : k.toMarkdownAt env none false with
    | error e => rfl
    | ok v => cases v <;> rfl

theorem itemContent_skip (env : Env) (kind : NodeCls) (level : Int) (n : Node)
    (hn : n.cls = .listItem) (hk : ∀ l, n.content = .val l → ∀ k ∈ l, HasType k) :
    listItemContent kind.typeEnum level true (n.item env) =
      listItemContent kind.typeEnum level false ((lenientItem env kind level n).item env) := by
  obtain ⟨hd, c⟩ := n
  have hcls : hd.cls = .listItem := hn
  unfold listItemContent
  simp only [item_content]
  cases c with
  | absent => rfl
  | opt => rfl
  | raw v =>
    simp only [lenientItem, Node.content, slotItems_raw, kidsOf, iterSlot]
    cases v.iterLen with
    | error e => rfl
    | ok m =>
      cases m with
      | zero => rfl
      | succ m => rfl
  | val l =>
    have hk : ∀ k ∈ l, HasType k := hk l rfl
    simp only [lenientItem, hcls, if_true, Node.content, slotItems_val, kidsOf, iterSlot, List.map_map]
    rw [show l.map (Item.toKid ∘ Node.item env) = l.map (fun k => (k.item env).toKid) from rfl]
    have key : ∀ (ig : Bool) (l : List Node), (∀ k ∈ l, HasType k) →
        collectPre ig (fun k : Kid => k.isTypeOf [kind.typeEnum]) (listItemChild level)
          (l.map fun k => (k.item env).toKid) =
        collect ig (fun k : Node => listItemChild level (decide (k.cls = kind)) (k.item env).toKid) l := by
      intro ig l hk
      induction l with
      | nil => rfl
      | cons k l ih =>
        rw [List.map_cons, collectPre, kid_isTypeOf env (hk k (by simp)) kind _ rfl, collect_cons,
          ih (fun k hk' => hk k (by simp [hk']))]
        rfl
    rw [key true l hk]
    rw [show (List.map (Item.toKid ∘ Node.item env) (l.filter _)) =
      (l.filter fun k => if k.cls = kind then convertsAt env (some (level + 1)) k else givesText env k).map
        (fun k => (k.item env).toKid) from rfl]
    rw [key false _ (fun k hk' => hk k (List.mem_filter.mp hk').1), collect_filter,
      List.filter_congr (fun a _ => listItemChild_isOk env kind level a)]

theorem lenientItem_hd (env : Env) (kind : NodeCls) (level : Int) (n : Node) :
    (lenientItem env kind level n).hd = n.hd := by
  obtain ⟨hd, c⟩ := n
  cases c <;> simp only [lenientItem]
  split <;> rfl

theorem lenientItem_type (env : Env) (kind : NodeCls) (level : Int) {n : Node} (h : HasType n) :
    HasType (lenientItem env kind level n) := by
  unfold HasType Node.cls at *
  rwa [lenientItem_hd]

/-- What the parents need to know about the children of a node and of its children. -/
def Typed (l : List Node) : Prop :=
  ∀ k ∈ l, HasType k ∧ ∀ l', k.content = .val l' → ∀ k' ∈ l', HasType k'

theorem bullet_skip (env : Env) (level : Int) (l : List Node) (hl : Typed l) :
    bulletLines level true (l.map (Node.item env)) =
      bulletLines level false ((l.map (lenientItem env .bulletList level)).map (Node.item env)) := by
  induction l with
  | nil => rfl
  | cons n l ih =>
    obtain ⟨h1, h2⟩ := hl n (by simp)
    simp only [List.map_cons]
    rw [bulletLines, bulletLines, ih (fun k hk => hl k (by simp [hk])),
      kid_isTypeOf env h1 .listItem .listItem rfl, kid_isTypeOf env (lenientItem_type env .bulletList level h1) .listItem .listItem rfl]
    have hc : (lenientItem env .bulletList level n).cls = n.cls := by
      unfold Node.cls; rw [lenientItem_hd]
    rw [hc]
    by_cases hn : n.cls = .listItem
    · simp only [hn, decide_true]
      rw [show TypeEnum.bulletList = NodeCls.bulletList.typeEnum from rfl,
        itemContent_skip env .bulletList level n hn h2]
    · simp only [hn, decide_false]

theorem ordered_skip (env : Env) (level : Int) (l : List Node) (hl : Typed l) (num : Val) :
    orderedLines env level true num (l.map (Node.item env)) =
      orderedLines env level false num
        ((l.map (lenientItem env .orderedList level)).map (Node.item env)) := by
  induction l generalizing num with
  | nil => rfl
  | cons n l ih =>
    obtain ⟨h1, h2⟩ := hl n (by simp)
    have ih := ih (fun k hk => hl k (by simp [hk]))
    simp only [List.map_cons]
    rw [orderedLines, orderedLines, ih, ih,
      kid_isTypeOf env h1 .listItem .listItem rfl, kid_isTypeOf env (lenientItem_type env .orderedList level h1) .listItem .listItem rfl]
    have hc : (lenientItem env .orderedList level n).cls = n.cls := by
      unfold Node.cls; rw [lenientItem_hd]
    rw [hc]
    by_cases hn : n.cls = .listItem
    · simp only [hn, decide_true]
      rw [show TypeEnum.orderedList = NodeCls.orderedList.typeEnum from rfl,
        itemContent_skip env .orderedList level n hn h2]
    · simp only [hn, decide_false]

/-! ## tables -/

theorem headerWidth_val (env : Env) (k : Node) (ks : List Node) :
    ∃ w, headerWidth (kidsOf (slotItems env (.val (k :: ks)))) = .ok w := by
  simp only [slotItems_val, List.map_cons, kidsOf, headerWidth]
  unfold Kid.isTypeOf
  rw [item_isNode, if_pos rfl]
  cases isTypeOf (k.item env).type [.tableHeader] <;> exact ⟨_, rfl⟩

theorem headerWidth_other (env : Env) (c : Slot (List Node)) (h : ∀ k ks, c ≠ .val (k :: ks)) :
    ∃ e, headerWidth (kidsOf (slotItems env c)) = .error e := by
  cases c with
  | absent => exact ⟨_, rfl⟩
  | opt => exact ⟨_, rfl⟩
  | val l =>
    cases l with
    | nil => exact ⟨_, rfl⟩
    | cons k ks => exact absurd rfl (h k ks)
  | raw v =>
    cases v with
    | str s => cases s <;> exact ⟨_, rfl⟩
    | list s => cases s <;> exact ⟨_, rfl⟩
    | _ => exact ⟨_, rfl⟩

theorem strJoin_bad (sep : Str) (l : List Val) (h : ∃ v ∈ l, v.asStr? = none) :
    strJoin sep l = .error .typeError := by
  unfold strJoin
  rw [if_neg]
  obtain ⟨v, hv, h⟩ := h
  intro ha
  have := List.all_eq_true.mp ha v hv
  rw [h] at this
  simp at this

theorem standIn_md (env : Env) (v : Val) :
    (standIn v).toMarkdown env false = strVal (strJoin [] [v]) := rfl

theorem standIn_str (env : Env) (s : Str) :
    (standIn (.str s)).toMarkdown env false = .ok (.str s) := by
  rw [standIn_md]
  have := strJoin_str [] [s]
  rw [show [Val.str s] = [s].map Val.str from rfl, this]
  rfl

theorem table_skip (env : Env) (l : List Node) :
    ∃ L, tableLines true (l.map (Node.item env)) = .ok L ∧
      (tableLines false ((l.filterMap (lenientRow env)).map (Node.item env)) = .ok L ∨
       (tableLines false ((l.filterMap (lenientRow env)).map (Node.item env)) = .error .typeError ∧
        ∃ v ∈ L, v.asStr? = none)) := by
  induction l with
  | nil => exact ⟨[], rfl, .inl rfl⟩
  | cons n l ih =>
    obtain ⟨L, hL, ih⟩ := ih
    rw [List.map_cons, tableLines, hL, item_render]
    have hmd : n.toMarkdown env false = n.toMarkdownAt env none false := rfl
    cases hm : n.toMarkdownAt env none false with
    | error e =>
      rw [hm] at hmd
      refine ⟨L, rfl, ?_⟩
      rw [List.filterMap_cons_none (by unfold lenientRow; rw [hmd])]
      exact ih
    | ok v =>
      rw [hm] at hmd
      simp only [item_content]
      by_cases hc : ∃ k ks, n.content = .val (k :: ks)
      · obtain ⟨k, ks, hc⟩ := hc
        obtain ⟨w, hw⟩ := headerWidth_val env k ks
        rw [List.filterMap_cons_some (b := n) (by unfold lenientRow; rw [hmd, hc]), List.map_cons,
          tableLines, item_render, hm]
        simp only [item_content, hc, hw]
        rcases ih with ih | ⟨ih, v', hv', hn⟩
        · rw [ih]
          cases w with
          | none => exact ⟨_, rfl, .inl rfl⟩
          | some m => exact ⟨_, rfl, .inl rfl⟩
        · rw [ih]
          cases w with
          | none => exact ⟨_, rfl, .inr ⟨rfl, v', by simp [hv'], hn⟩⟩
          | some m => exact ⟨_, rfl, .inr ⟨rfl, v', by simp [hv'], hn⟩⟩
      · have hc : ∀ k ks, n.content ≠ .val (k :: ks) := fun k ks h => hc ⟨k, ks, h⟩
        obtain ⟨e, he⟩ := headerWidth_other env n.content hc
        have hr : lenientRow env n = some (standIn v) := by
          unfold lenientRow
          rw [hmd]
          simp only
        rw [List.filterMap_cons_some hr, List.map_cons, he]
        refine ⟨v :: L, rfl, ?_⟩
        rw [tableLines, item_render]
        have hs := standIn_md env v
        rw [show (standIn v).toMarkdown env false = (standIn v).toMarkdownAt env none false from rfl] at hs
        rw [hs]
        cases hv : v.asStr? with
        | none =>
          rw [strJoin_bad _ _ ⟨v, by simp, hv⟩]
          exact .inr ⟨rfl, v, by simp, hv⟩
        | some s =>
          have : v = .str s := by cases v <;> simp [Val.asStr?] at hv; rw [hv]
          subst this
          rw [show [Val.str s] = [s].map Val.str from rfl, strJoin_str]
          simp only [strVal]
          have hw : headerWidth ((standIn (.str s)).item env).content = .ok none := rfl
          rw [hw]
          rcases ih with ih | ⟨ih, v', hv', hn⟩
          · rw [ih]; exact .inl rfl
          · rw [ih]; exact .inr ⟨rfl, v', by simp [hv'], hn⟩

theorem tableMd_skip (env : Env) (c : Slot (List Node)) :
    tableMd (slotItems env c) true = tableMd (slotItems env (lenientRows env c)) false := by
  cases c with
  | absent => rfl
  | opt => rfl
  | val l =>
    simp only [lenientRows, tableMd, slotItems_val, iterSlot]
    obtain ⟨L, hL, h | ⟨h, hbad⟩⟩ := table_skip env l
    · rw [hL, h]
    · rw [hL, h]
      simp only [strJoin_bad _ _ hbad]
  | raw v =>
    unfold lenientRows
    cases h : v.iterLen with
    | error e => simp [tableMd, iterSlot, h]
    | ok m =>
      simp only [slotItems_raw, slotItems_val, List.map_nil, tableMd, iterSlot, h]
      have : tableLines true (List.replicate m alienItem) = .ok [] := by
        clear h
        induction m with
        | zero => rfl
        | succ m ih => exact ih
      rw [this]
      rfl

/-! ## rows, decisions, tasks -/

/-- Lenient conversion of `n` is strict conversion of what remains of it. -/
def Exact (env : Env) (n : Node) : Prop :=
  ∀ level, n.toMarkdownAt env level true = (lenient env level n).toMarkdownAt env level false

theorem lenient_hd (env : Env) (level : Option Int) (n : Node) :
    (lenient env level n).hd = n.hd := by
  obtain ⟨hd, c⟩ := n
  rw [lenient]; rfl

theorem hd_type {n m : Node} (h : m.hd = n.hd) (hn : HasType n) : HasType m := by
  unfold HasType Node.cls at *
  rwa [h]

theorem cells_skip (env : Env) (l : List Node) (hl : ∀ k ∈ l, Exact env k) :
    rowCells true (l.map (Node.item env)) =
      rowCells false ((lenientCellList env l).map (Node.item env)) := by
  induction l with
  | nil => rw [lenientCellList]; rfl
  | cons n l ih =>
    rw [lenientCellList, List.map_cons, List.map_cons, rowCells, rowCells,
      ih (fun k hk => hl k (by simp [hk])), item_render, item_render, hl n (by simp) none]

theorem decisions_skip (env : Env) (l : List Node) (ht : ∀ k ∈ l, HasType k)
    (hl : ∀ k ∈ l, Exact env k) :
    decisionBlocks true (l.map (Node.item env)) =
      decisionBlocks false ((lenientDecisionList env l).map (Node.item env)) := by
  induction l with
  | nil => rw [lenientDecisionList]; rfl
  | cons n l ih =>
    have ih := ih (fun k hk => ht k (by simp [hk])) (fun k hk => hl k (by simp [hk]))
    have h1 := ht n (by simp)
    rw [lenientDecisionList, List.map_append, List.map_cons, decisionBlocks,
      kid_isTypeOf env h1 .decisionItem .decisionItem rfl]
    by_cases hn : n.cls = .decisionItem
    · simp only [hn, decide_true, if_true, item_render]
      rw [hl n (by simp) none]
      unfold converts Node.toMarkdown
      cases hm : (lenient env none n).toMarkdownAt env none false with
      | error e => simpa using ih
      | ok v =>
        simp only [if_true, List.map_cons, List.map_nil, List.cons_append, List.nil_append]
        rw [decisionBlocks, kid_isTypeOf env (hd_type (lenient_hd env none n) h1) .decisionItem .decisionItem rfl]
        have : (lenient env none n).cls = .decisionItem := by
          unfold Node.cls; rw [lenient_hd]; exact hn
        simp only [this, decide_true, item_render, hm, ih]
    · simp only [hn, decide_false, if_false, List.map_cons, List.map_nil, List.cons_append,
        List.nil_append]
      rw [decisionBlocks, kid_isTypeOf env h1 .decisionItem .decisionItem rfl, ih]
      simp only [hn, decide_false]

theorem taskItem_skip (env : Env) (level : Int) (n : Node) :
    taskItemLine level true (n.item env) =
      taskItemLine level false ((Node.mk n.hd (skipFailing env n.content)).item env) := by
  have key : ∀ c : Slot (List Node),
      (match iterSlot alienKid (kidsOf (slotItems env c)) with
        | .error e => (.error e : Except PyErr (List Val))
        | .ok kids => collect true (fun k : Kid => k.render none false) kids) =
      (match iterSlot alienKid (kidsOf (slotItems env (skipFailing env c))) with
        | .error e => (.error e : Except PyErr (List Val))
        | .ok kids => collect false (fun k : Kid => k.render none false) kids) := by
    intro c
    cases c with
    | absent => rfl
    | opt => rfl
    | raw v =>
      unfold skipFailing
      cases h : v.iterLen with
      | error e => simp [kidsOf, iterSlot, h]
      | ok m =>
        simp only [slotItems_raw, slotItems_val, List.map_nil, kidsOf, iterSlot, h]
        clear h
        induction m with
        | zero => rfl
        | succ m ih => exact ih
    | val l =>
      simp only [skipFailing, slotItems_val, kidsOf, iterSlot, List.map_map, collect_map,
        Function.comp_apply, item_render]
      rw [collect_filter]
      congr 1
      apply List.filter_congr
      intro a _
      unfold converts Node.toMarkdown
      cases a.toMarkdownAt env none false <;> rfl
  obtain ⟨hd, c⟩ := n
  have key := key c
  unfold taskItemLine
  simp only [item_content, item_attrs, Node.content, Node.hd]
  generalize iterSlot alienKid (kidsOf (slotItems env c)) = x at key ⊢
  generalize iterSlot alienKid (kidsOf (slotItems env (skipFailing env c))) = y at key ⊢
  cases x <;> cases y <;> simp only at key ⊢
  · rw [Except.error.inj key]
  · rw [← key]
  · rw [key]
  · rw [key]

theorem tasks_skip (env : Env) (level : Int) (l : List Node) (ht : ∀ k ∈ l, HasType k)
    (hl : ∀ k ∈ l, Exact env k) :
    taskLines level true (l.map (Node.item env)) =
      taskLines level false ((lenientTaskList env level l).map (Node.item env)) := by
  induction l with
  | nil => rw [lenientTaskList]; rfl
  | cons n l ih =>
    have ih := ih (fun k hk => ht k (by simp [hk])) (fun k hk => hl k (by simp [hk]))
    have h1 := ht n (by simp)
    rw [lenientTaskList, List.map_append, List.map_cons, taskLines,
      kid_isTypeOf env h1 .taskItem .taskItem rfl]
    by_cases hn : n.cls = .taskItem
    · simp only [hn, decide_true, if_true, List.map_cons, List.map_nil, List.cons_append,
        List.nil_append]
      rw [taskLines, kid_isTypeOf env (n := .mk n.hd (skipFailing env n.content)) h1 .taskItem .taskItem rfl,
        ← taskItem_skip, ih]
      have : (Node.mk n.hd (skipFailing env n.content)).cls = .taskItem := hn
      simp only [this, decide_true]
    · simp only [hn, decide_false, if_false]
      rw [kid_isTypeOf env h1 .taskList .taskList rfl]
      by_cases hn2 : n.cls = .taskList
      · simp only [hn2, decide_true, if_true, item_render]
        rw [hl n (by simp) (some (level + 1))]
        unfold convertsAt
        cases hm : (lenient env (some (level + 1)) n).toMarkdownAt env (some (level + 1)) false with
        | error e => simpa using ih
        | ok v =>
          have hT := hd_type (lenient_hd env (some (level + 1)) n) h1
          have hc : (lenient env (some (level + 1)) n).cls = .taskList := by
            unfold Node.cls; rw [lenient_hd]; exact hn2
          simp only [if_true, List.map_cons, List.map_nil, List.cons_append, List.nil_append]
          rw [taskLines, kid_isTypeOf env hT .taskItem .taskItem rfl, kid_isTypeOf env hT .taskList .taskList rfl]
          have hne : ¬ (NodeCls.taskList = NodeCls.taskItem) := by decide
          simp only [hc, hne, decide_true, decide_false, item_render, hm, ih]
      · simp only [hn2, decide_false, if_false, List.map_cons, List.map_nil, List.cons_append,
          List.nil_append]
        rw [taskLines, kid_isTypeOf env h1 .taskItem .taskItem rfl, kid_isTypeOf env h1 .taskList .taskList rfl, ih]
        simp only [hn, hn2, decide_false]

/-! ## C50 -/

theorem exact_of_kids (env : Env) (n : Node)
    (hk : ∀ l, n.content = .val l → Typed l ∧ ∀ k ∈ l, Exact env k) : Exact env n := by
  intro level
  obtain ⟨hd, c⟩ := n
  have hk : ∀ l, c = .val l → Typed l ∧ ∀ k ∈ l, Exact env k := hk
  have ht : ∀ l, c = .val l → ∀ k ∈ l, HasType k := fun l h k hk' => ((hk l h).1 k hk').1
  rw [toMarkdownAt_eq, toMarkdownAt_eq, lenient_hd]
  rw [lenient]
  simp only [Node.hd, Node.content]
  unfold dispatch
  split
  · rfl
  · cases hcls : hd.cls <;> simp only [hcls] <;>
      first
      | rfl
      | simp only [blockquoteMd, panelMd, expandMd, docContent_skip env c ht]
      | simp only [paragraphMd, headingMd, codeBlockMd, cellMd, decisionItemMd, content_skip]
      | rw [tableMd_skip]
      | skip
    · -- bulletList
      congr 1
      cases c with
      | val l =>
        simp only [mapContent, bulletListMd, slotItems_val, iterSlot]
        rw [bullet_skip env _ l (hk l rfl).1]
      | raw v =>
        simp only [mapContent, bulletListMd, slotItems_raw, iterSlot]
        cases v.iterLen with
        | error e => rfl
        | ok m => cases m <;> rfl
      | _ => rfl
    · -- orderedList
      congr 1
      cases c with
      | val l =>
        simp only [mapContent, orderedListMd, slotItems_val, iterSlot, ordered_skip env _ l (hk l rfl).1]
      | raw v =>
        simp only [mapContent, orderedListMd, slotItems_raw, iterSlot]
        cases v.iterLen with
        | error e => rfl
        | ok m => cases m <;> rfl
      | _ => rfl
    · -- taskList
      congr 1
      cases c with
      | val l =>
        rw [lenientTasks]
        simp only [taskListMd, slotItems_val, iterSlot, tasks_skip env _ l (ht l rfl) (hk l rfl).2]
      | raw v =>
        rw [lenientTasks.eq_2 _ _ _ (by simp)]
        simp only [taskListMd, slotItems_raw, iterSlot]
        cases v.iterLen with
        | error e => rfl
        | ok m => cases m <;> rfl
      | _ => rw [lenientTasks.eq_2 _ _ _ (by simp)]; rfl
    · -- decisionList
      congr 1
      cases c with
      | val l =>
        rw [lenientDecisions]
        simp only [decisionListMd, slotItems_val, iterSlot, decisions_skip env l (ht l rfl) (hk l rfl).2]
      | raw v =>
        rw [lenientDecisions.eq_2 _ _ (by simp)]
        simp only [decisionListMd, slotItems_raw, iterSlot]
        cases v.iterLen with
        | error e => rfl
        | ok m => cases m <;> rfl
      | _ => rw [lenientDecisions.eq_2 _ _ (by simp)]; rfl
    · -- tableRow
      congr 1
      cases c with
      | val l =>
        rw [lenientCells]
        simp only [tableRowMd, slotItems_val, iterSlot, cells_skip env l (hk l rfl).2]
      | raw v =>
        rw [lenientCells.eq_2 _ _ (by simp)]
        simp only [tableRowMd, slotItems_raw, iterSlot]
        cases v.iterLen with
        | error e => rfl
        | ok m => cases m <;> rfl
      | _ => rw [lenientCells.eq_2 _ _ (by simp)]; rfl

theorem exact_parsed (env : Env) (n : Node) : Parsed n → Exact env n := by
  induction n using Node.induction with
  | h hd s ih =>
    intro hp
    refine exact_of_kids env _ fun l hl => ⟨fun k hk => ⟨?_, fun l' hl' k' hk' => ?_⟩, fun k hk => ?_⟩
    · exact parsed_hasType (parsed_kids hp hl k hk)
    · exact parsed_hasType (parsed_kids (parsed_kids hp hl k hk) hl' k' hk')
    · exact ih l k hl hk (parsed_kids hp hl k hk)

/-- C50: for every node parsed from JSON, of any type and depth, and any `level` argument: lenient
conversion gives exactly what strict conversion gives for the tree `Spec.lenient` leaves — the same text,
or the same exception. -/
theorem C50_exact (env : Env) (n : Node) (h : Parsed n) (level : Option Int) :
    n.toMarkdownAt env level true = (lenient env level n).toMarkdownAt env level false :=
  exact_parsed env n h level

/-- C50 for the result of `from_dict` called on a class (`NodeDoc.from_dict(...)`). -/
theorem C50_from_dict (env : Env) (w : Bool) (c : NodeCls) (v : Val) (n : Node)
    (h : (c.fromDict w v).out = .ok n) (level : Option Int) :
    n.toMarkdownAt env level true = (lenient env level n).toMarkdownAt env level false := by
  refine exact_of_kids env n (fun l hl => ⟨fun k hk => ⟨?_, fun l' hl' k' hk' => ?_⟩, fun k hk => ?_⟩) level
  · exact parsed_hasType (kids_parsed h hl k hk)
  · exact parsed_hasType (parsed_kids (kids_parsed h hl k hk) hl' k' hk')
  · exact exact_parsed env k (kids_parsed h hl k hk)

/-- A task list three levels deep with failing parts at each level; the nested lists survive without
them. -/
def sampleTasks : Node :=
  Samples.tasks [Samples.task "DONE" (.val [Samples.text "a", Samples.badCard]),
    Samples.tasks [Samples.task "TODO" (.val [Samples.badCard, Samples.text "b"]),
      Samples.tasks [Samples.task "TODO" .opt]]]

def sampleTasksJson : Val :=
  Samples.j "taskList" [("attrs", .dict [("localId", Samples.str "i")]), ("content", .list [
    Samples.j "taskItem" [("attrs", .dict [("localId", Samples.str "i"), ("state", Samples.str "DONE")]),
      ("content", .list [Samples.j "text" [("text", Samples.str "a")],
        Samples.j "inlineCard" [("attrs", .dict [("data", .dict [])])]])],
    Samples.j "taskList" [("attrs", .dict [("localId", Samples.str "i")]), ("content", .list [
      Samples.j "taskItem" [("attrs", .dict [("localId", Samples.str "i"), ("state", Samples.str "TODO")]),
        ("content", .list [Samples.j "inlineCard" [("attrs", .dict [("data", .dict [])])],
          Samples.j "text" [("text", Samples.str "b")]])],
      Samples.j "taskList" [("attrs", .dict [("localId", Samples.str "i")]), ("content", .list [
        Samples.j "taskItem" [("attrs", .dict [("localId", Samples.str "i"),
          ("state", Samples.str "TODO")])]])]])]])]

theorem sampleTasks_parsed : Parsed sampleTasks := ⟨true, sampleTasksJson, rfl⟩
example : sampleTasks.toMarkdown Samples.env false = .error .notImplementedError := rfl
example : lenient Samples.env none sampleTasks =
    Samples.tasks [Samples.task "DONE" (.val [Samples.text "a"]),
      Samples.tasks [Samples.task "TODO" (.val [Samples.text "b"])]] := rfl
example : sampleTasks.toMarkdown Samples.env true =
    .ok (.str "- [x] a\n    - [ ] b".toList) := rfl

-- a table: the failing row goes, the empty row keeps its line without separator
example : (Samples.table [Samples.row [Samples.hcell [Samples.text "h"]], Samples.row [],
      Samples.row [Samples.cell [Samples.badCard]]]).toMarkdown Samples.env true =
    .ok (.str "| h |\n| --- |\n|  |".toList) := rfl
example : lenient Samples.env none (Samples.table [Samples.row [Samples.hcell [Samples.text "h"]],
      Samples.row [], Samples.row [Samples.cell [Samples.badCard]]]) =
    Samples.table [Samples.row [Samples.hcell [Samples.text "h"]], standIn (.str "|  |".toList)] := rfl

-- an item of a list loses a failing paragraph and keeps the other
example : lenient Samples.env none (Samples.bullets [Samples.item
      [Samples.para [Samples.text "a"], Samples.para [Samples.badCard], Samples.bullets []]]) =
    Samples.bullets [Samples.item [Samples.para [Samples.text "a"], Samples.bullets []]] := rfl

example := C50_exact Samples.env sampleTasks sampleTasks_parsed none

example := C50_from_dict Samples.env true .taskList sampleTasksJson sampleTasks rfl (some 1)

end Verif.Props
