import Verif.Lemmas.SampleChecks
import Mathlib.Data.List.Induction
import Verif.Lemmas.Lists
import Verif.Lemmas.WellFormed
import Verif.Props.Lists
/-!
# C28, C29, C30: task lists and decisions
-/

namespace Verif.Props
open Verif

theorem dispatch_task (env : Env) (n : Node) (l : Option Int) (ig : Bool) (hn : n.cls = .taskList) :
    n.toMarkdownAt env l ig = strVal (taskListMd (slotItems env n.content) (l.getD 0) ig) := by
  have hn' : n.hd.cls = .taskList := hn
  rw [toMarkdownAt_eq]; unfold dispatch; simp [hn', NodeCls.takesLevel]

theorem dispatch_decision (env : Env) (n : Node) (ig : Bool) (hn : n.cls = .decisionItem) :
    n.toMarkdown env ig = strVal (decisionItemMd (slotItems env n.content) ig) := by
  have hn' : n.hd.cls = .decisionItem := hn
  rw [toMarkdown_eq]; unfold dispatch; simp only [hn']; rfl

theorem dispatch_decisions (env : Env) (n : Node) (ig : Bool) (hn : n.cls = .decisionList) :
    n.toMarkdown env ig = strVal (decisionListMd (slotItems env n.content) ig) := by
  have hn' : n.hd.cls = .decisionList := hn
  rw [toMarkdown_eq]; unfold dispatch; simp only [hn']; rfl

/-! ## C28 -/

theorem checkbox_eq {k : Node} {st : Val} (h : Spec.attr k "state" = some st) :
    (if st.asStr? = some "DONE".toList then ['[', 'x', ']'] else ['[', ' ', ']']) = Spec.checkbox k := by
  unfold Spec.checkbox
  rw [h]
  cases st <;> simp [Val.asStr?]

theorem taskItemLine_ok (env : Env) (lvl : Nat) (k : Node) (hp : Spec.Proper k) (hcls : k.cls = .taskItem)
    (hst : ∃ st, Spec.attr k "state" = some st) (e : Str) :
    taskItemLine lvl false (k.item env) = .ok e ↔ Spec.TaskEntry env lvl k e := by
  obtain ⟨st, hst⟩ := hst
  have hne : k.cls ≠ .taskList := by rw [hcls]; decide
  unfold taskItemLine Spec.TaskEntry
  rw [item_content]
  simp only [hcls, true_implies, reduceCtorEq, false_implies, and_true]
  cases hc : k.content with
  | absent => simp [kidsOf, iterSlot]
  | opt => simp [kidsOf, iterSlot]
  | raw v => exact absurd hc (hp.1 v)
  | val ks =>
    rw [kidsOf_val]
    simp only [iterSlot]
    rw [collect_map]
    have hcr : (fun a : Node => (a.item env).toKid.render none false) =
        fun a : Node => a.toMarkdown env false := rfl
    rw [hcr]
    constructor
    · intro h
      cases hcl : collect false (fun (a : Node) => a.toMarkdown env false) ks with
      | error e => rw [hcl] at h; simp at h
      | ok l =>
        rw [hcl] at h
        simp only at h
        cases hj : strJoin [] l with
        | error e => rw [hj] at h; simp at h
        | ok s =>
          rw [hj] at h
          obtain ⟨ss, rfl, rfl⟩ := strJoin_ok hj
          rw [item_attrs, getAttr_eq hst] at h
          simp only [checkbox_eq hst, rep_spaces] at h
          refine ⟨ks, ss, rfl, forall2_map_str.mp ((collect_false _ _ _).mp hcl), ?_⟩
          rw [← Except.ok.inj h, join_nil_eq, rstrip_eq]
          rfl
    · rintro ⟨ks', ss, hks, hss, rfl⟩
      cases hks
      rw [(collect_false _ _ (ss.map .str)).mpr
        (forall2_map_str (R := fun (a : Node) b => a.toMarkdown env false = .ok b).mpr hss)]
      simp only [strJoin_str]
      rw [item_attrs, getAttr_eq hst]
      simp only [checkbox_eq hst, rep_spaces, join_nil_eq, rstrip_eq]
      rfl

theorem taskLines_ok (env : Env) (lvl : Nat) (kids : List Node)
    (hk : ∀ k ∈ kids, Spec.HasType k ∧
      (k.cls = .taskItem → Spec.Proper k ∧ ∃ st, Spec.attr k "state" = some st)) (vs : List Val) :
    taskLines lvl false (kids.map (Node.item env)) = .ok vs ↔
      ∃ es : List Str, vs = es.map .str ∧
        List.Forall₂ (Spec.TaskEntry env lvl) (Spec.tasksOf kids) es := by
  induction kids generalizing vs with
  | nil =>
    simp only [List.map_nil, taskLines, Spec.tasksOf, List.filter_nil]
    constructor
    · intro h; cases h; exact ⟨[], rfl, .nil⟩
    · rintro ⟨es, rfl, h⟩; cases h; rfl
  | cons k kids ih =>
    obtain ⟨ht, hkk⟩ := hk k (by simp)
    have ih := ih (fun x hx => hk x (by simp [hx]))
    rw [List.map_cons, taskLines, item_isTypeOf env ht, item_isTypeOf env ht]
    rw [show [TypeEnum.taskItem] = [NodeCls.taskItem.typeEnum] from rfl,
      show [TypeEnum.taskList] = [NodeCls.taskList.typeEnum] from rfl]
    simp only [typeEnum_mem]
    by_cases hc : k.cls = .taskItem
    · have hto : Spec.tasksOf (k :: kids) = k :: Spec.tasksOf kids := by
        unfold Spec.tasksOf; rw [List.filter_cons_of_pos (by simp [hc])]
      obtain ⟨hp, hst⟩ := hkk hc
      simp only [hc, decide_true]
      rw [hto]
      constructor
      · intro h
        cases hi : taskItemLine lvl false (k.item env) with
        | error e => rw [hi] at h; simp at h
        | ok t =>
          rw [hi] at h
          simp only at h
          cases hb : taskLines lvl false (kids.map (Node.item env)) with
          | error e => rw [hb] at h; simp at h
          | ok rest =>
            rw [hb] at h
            obtain ⟨es, rfl, hes⟩ := (ih rest).mp hb
            exact ⟨t :: es, (Except.ok.inj h).symm,
              .cons ((taskItemLine_ok env lvl k hp hc hst t).mp hi) hes⟩
      · rintro ⟨es, rfl, h⟩
        cases h with
        | cons h1 h2 =>
          rw [(taskItemLine_ok env lvl k hp hc hst _).mpr h1, (ih _).mpr ⟨_, rfl, h2⟩]
          rfl
    · by_cases hl : k.cls = .taskList
      · have hto : Spec.tasksOf (k :: kids) = k :: Spec.tasksOf kids := by
          unfold Spec.tasksOf; rw [List.filter_cons_of_pos (by simp [hl])]
        rw [hto]
        simp only [hl, decide_true]
        have hr : (k.item env).render (some ((lvl : Int) + 1)) false =
            k.toMarkdownAt env (some (lvl + 1 : Nat)) false := by
          rw [Int.natCast_add]; rfl
        have hdf : decide (NodeCls.taskList = NodeCls.taskItem) = false := rfl
        rw [hr, hdf]
        simp only
        constructor
        · intro h
          cases hi : k.toMarkdownAt env (some (lvl + 1 : Nat)) false with
          | error e => rw [hi] at h; simp at h
          | ok t =>
            rw [hi] at h
            simp only at h
            cases hb : taskLines lvl false (kids.map (Node.item env)) with
            | error e => rw [hb] at h; simp at h
            | ok rest =>
              rw [hb] at h
              obtain ⟨es, rfl, hes⟩ := (ih rest).mp hb
              obtain ⟨s, rfl⟩ := toMarkdownAt_str env k (by
                intro ht; rw [hl] at ht; exact absurd ht (by decide)) _ _ _ hi
              exact ⟨s :: es, (Except.ok.inj h).symm, .cons ⟨fun h => absurd h hc, fun _ => hi⟩ hes⟩
        · rintro ⟨es, rfl, h⟩
          cases h with
          | cons h1 h2 =>
            rw [h1.2 hl, (ih _).mpr ⟨_, rfl, h2⟩]
            rfl
      · have hto : Spec.tasksOf (k :: kids) = Spec.tasksOf kids := by
          unfold Spec.tasksOf; rw [List.filter_cons_of_neg (by simp [hc, hl])]
        rw [hto]
        simp only [hc, hl, decide_false]
        exact ih vs

/-- C28 (what is missing: a task without content raises, `C28_false`).  A task list at level `lvl`
converts iff all its entries exist, and then it is the entries of its tasks and nested task lists, in
order, one below the other, and nothing else. -/
theorem C28_partial (env : Env) (n : Node) (l : Option Int) (lvl : Nat) (kids : List Node)
    (hl : l.getD 0 = lvl) (hn : n.cls = .taskList) (hc : n.content = .val kids)
    (hk : ∀ k ∈ kids, Spec.HasType k ∧
      (k.cls = .taskItem → Spec.Proper k ∧ ∃ st, Spec.attr k "state" = some st)) (v : Val) :
    n.toMarkdownAt env l false = .ok v ↔
      ∃ es, List.Forall₂ (Spec.TaskEntry env lvl) (Spec.tasksOf kids) es ∧
        v = .str (Spec.lines es) := by
  rw [dispatch_task env n l false hn, hl, hc, slotItems_val]
  unfold taskListMd
  simp only [iterSlot]
  constructor
  · intro h
    obtain ⟨s, h1, rfl⟩ := strVal_str h
    cases hb : taskLines lvl false (kids.map (Node.item env)) with
    | error e => rw [hb] at h1; simp at h1
    | ok ls =>
      rw [hb] at h1
      obtain ⟨es, rfl, hes⟩ := (taskLines_ok env lvl kids hk ls).mp hb
      replace h1 : strJoin _ _ = _ := h1
      rw [strJoin_str] at h1
      exact ⟨es, hes, by rw [← Except.ok.inj h1, join_eq]; rfl⟩
  · rintro ⟨es, hes, rfl⟩
    rw [(taskLines_ok env lvl kids hk _).mpr ⟨es, rfl, hes⟩]
    simp only [strJoin_str, join_eq]
    rfl

/-- The last clause of C28 is false of the code: a task list with a task without content never
converts, in either mode. -/
theorem C28_false : ∃ n k, Spec.Parsed n ∧ n.cls = .taskList ∧ n.content = .val [k] ∧
    k.cls = .taskItem ∧ k.content = .opt ∧
    ∀ ig, n.toMarkdown Samples.env ig = .error .typeError :=
  ⟨Samples.tasks [Samples.task "DONE" .opt], Samples.task "DONE" .opt,
    ⟨true, Samples.j "taskList" [("attrs", .dict [("localId", Samples.str "i")]), ("content", .list
      [Samples.j "taskItem" [("attrs", .dict [("localId", Samples.str "i"), ("state", Samples.str "DONE")])]])],
     rfl⟩, rfl, rfl, rfl, rfl, fun ig => by cases ig <;> rfl⟩

/-- C28: the check box is ticked iff the state is `DONE`. -/
theorem C28_checkbox (k : Node) :
    (Spec.attr k "state" = some (.str "DONE".toList) → Spec.checkbox k = "[x]".toList) ∧
    (Spec.attr k "state" ≠ some (.str "DONE".toList) → Spec.checkbox k = "[ ]".toList) := by
  unfold Spec.checkbox
  constructor
  · intro h; rw [h]; rfl
  · intro h
    split
    · next s hs => rw [if_neg]; rintro rfl; exact h hs
    · rfl

/-- C28: every parsed task has a state. -/
theorem C28_state (k : Node) (hp : Spec.Parsed k) (hk : k.cls = .taskItem) :
    ∃ st, Spec.attr k "state" = some st :=
  parsed_attr hp (by rw [hk]; decide) (by rw [hk]; decide)

example : (Samples.tasks [Samples.task "DONE" (.val [Samples.text "a "]), Samples.tasks
      [Samples.task "TODO" (.val [Samples.text "b"])], Samples.para []]).toMarkdown Samples.env false =
    .ok (Samples.str "- [x] a\n    - [ ] b") := rfl

/-! ## C29 -/

theorem rstrip_snoc_space (s : Str) (c : Char) (h : Spec.blank c = true) :
    Str.rstrip (s ++ [c]) = Str.rstrip s := by
  unfold Str.rstrip
  rw [isSpace_fun, List.reverse_append, List.reverse_singleton, List.singleton_append, List.dropWhile_cons, if_pos h]

theorem rstrip_snoc (s : Str) (c : Char) (h : Spec.blank c = false) :
    Str.rstrip (s ++ [c]) = s ++ [c] := by
  unfold Str.rstrip
  rw [isSpace_fun, List.reverse_append, List.reverse_singleton, List.singleton_append, List.dropWhile_cons, h]
  simp

theorem exists_snoc (s : Str) : s = [] ∨ ∃ t c, s = t ++ [c] := by
  rcases List.eq_nil_or_concat s with h | ⟨t, c, h⟩
  · exact .inl h
  · exact .inr ⟨t, c, by rw [h]; simp⟩

/-- `rstrip` removes a suffix of whitespace and leaves no trailing whitespace. -/
theorem rstrip_spec (s : Str) : (∃ w, s = Str.rstrip s ++ w ∧ ∀ c ∈ w, Spec.blank c = true) ∧
    (∀ t c, Str.rstrip s = t ++ [c] → Spec.blank c = false) := by
  induction s using List.reverseRecOn with
  | nil => exact ⟨⟨[], rfl, by simp⟩, by intro t c h; simp [Str.rstrip] at h⟩
  | append_singleton s c ih =>
    cases hc : Spec.blank c with
    | true =>
      rw [rstrip_snoc_space s c hc]
      obtain ⟨⟨w, hw, hws⟩, h2⟩ := ih
      refine ⟨⟨w ++ [c], by rw [← List.append_assoc, ← hw], ?_⟩, h2⟩
      intro x hx
      rcases List.mem_append.mp hx with h | h
      · exact hws x h
      · rw [List.mem_singleton.mp h]; exact hc
    | false =>
      rw [rstrip_snoc s c hc]
      refine ⟨⟨[], by simp, by simp⟩, ?_⟩
      intro t d h
      have := List.append_inj' h rfl
      simp at this
      rw [← this.2]; exact hc

theorem rstrip_idem (s : Str) : Str.rstrip (Str.rstrip s) = Str.rstrip s := by
  rcases exists_snoc (Str.rstrip s) with h | ⟨t, c, h⟩
  · rw [h]; rfl
  · rw [h]; exact rstrip_snoc t c ((rstrip_spec s).2 t c h)

/-- The non-blank lines of a text, right-stripped. -/
def _root_.Verif.Spec.nonBlank (ls : List Str) : List Str :=
  (ls.map Spec.trimEnd).filter fun l => !l.isEmpty

theorem nonBlank_append (a b : List Str) :
    Spec.nonBlank (a ++ b) = Spec.nonBlank a ++ Spec.nonBlank b := by
  unfold Spec.nonBlank; simp

theorem splitNL_snoc (s : Str) (c : Char) (hc : c ≠ '\n') :
    ∃ i l, Str.splitNL s = i ++ [l] ∧ Str.splitNL (s ++ [c]) = i ++ [l ++ [c]] := by
  induction s with
  | nil => exact ⟨[], [], rfl, by simp [Str.splitNL, hc]⟩
  | cons a s ih =>
    obtain ⟨i, l, h1, h2⟩ := ih
    rw [List.cons_append, Str.splitNL, Str.splitNL, h1, h2]
    by_cases ha : a = '\n'
    · rw [if_pos ha, if_pos ha]; exact ⟨[] :: i, l, rfl, rfl⟩
    · rw [if_neg ha, if_neg ha]
      cases i with
      | nil => exact ⟨[], a :: l, rfl, rfl⟩
      | cons x i => exact ⟨(a :: x) :: i, l, rfl, rfl⟩

theorem nonBlank_snoc_space (s : Str) (c : Char) (hc : Spec.blank c = true) :
    Spec.nonBlank (Str.splitNL (s ++ [c])) = Spec.nonBlank (Str.splitNL s) := by
  by_cases hn : c = '\n'
  · subst hn
    rw [show s ++ ['\n'] = s ++ '\n' :: [] from rfl, splitNL_append_gen, nonBlank_append]
    simp [Spec.nonBlank, Str.splitNL, Spec.trimEnd]
  · obtain ⟨i, l, h1, h2⟩ := splitNL_snoc s c hn
    rw [h1, h2, nonBlank_append, nonBlank_append]
    simp [Spec.nonBlank, ← rstrip_eq, rstrip_snoc_space l c hc]

theorem nonBlank_rstrip (s : Str) :
    Spec.nonBlank (Str.splitNL (Str.rstrip s)) = Spec.nonBlank (Str.splitNL s) := by
  induction s using List.reverseRecOn with
  | nil => rfl
  | append_singleton s c ih =>
    cases hc : Spec.blank c with
    | true => rw [rstrip_snoc_space s c hc, ih, nonBlank_snoc_space s c hc]
    | false => rw [rstrip_snoc s c hc]

/-- The last line of a right-stripped non-empty text is not blank. -/
theorem last_line_nonblank (s : Str) (hne : Str.rstrip s ≠ []) :
    ∃ i l, Str.splitNL (Str.rstrip s) = i ++ [l] ∧ Str.rstrip l ≠ [] := by
  rcases exists_snoc (Str.rstrip s) with h | ⟨t, c, h⟩
  · exact absurd h hne
  · have hc := (rstrip_spec s).2 t c h
    have hn : c ≠ '\n' := by rintro rfl; revert hc; decide
    obtain ⟨i, l, _, h2⟩ := splitNL_snoc t c hn
    refine ⟨i, l ++ [c], by rw [h]; exact h2, ?_⟩
    rw [rstrip_snoc l c hc]; simp

/-- A bare quoted line. -/
abbrev bare : Str := ['>']

theorem decisionLoop_nonblank (n : Nat) (b : Bool) (ls : List Str) :
    (decisionLoop n b ls).filter (fun l => decide (l ≠ bare)) =
      (Spec.nonBlank ls).map ("> ".toList ++ ·) := by
  induction ls generalizing n b with
  | nil => rfl
  | cons a ls ih =>
    unfold Spec.nonBlank at ih ⊢
    simp only [← rstrip_fun] at ih ⊢
    rw [decisionLoop, List.map_cons]
    cases hr : (Str.rstrip a).isEmpty with
    | true =>
      rw [List.filter_cons_of_neg (by simp [hr])]
      simp only [if_true]
      split
      · exact ih _ _
      · rw [List.filter_cons_of_neg (by simp)]; exact ih _ _
    | false =>
      rw [List.filter_cons_of_pos (by simp [hr])]
      simp only [Bool.false_eq_true, if_false]
      rw [List.filter_cons_of_pos (by simp), ih]
      rfl

theorem decisionLoop_mem (n : Nat) (b : Bool) (ls : List Str) :
    ∀ l ∈ decisionLoop n b ls, l = bare ∨ ∃ a ∈ ls, Str.rstrip a ≠ [] ∧ l = "> ".toList ++ Str.rstrip a := by
  induction ls generalizing n b with
  | nil => simp [decisionLoop]
  | cons a ls ih =>
    intro l hl
    rw [decisionLoop] at hl
    have lift : ∀ n b, l ∈ decisionLoop n b ls →
        l = bare ∨ ∃ a' ∈ a :: ls, Str.rstrip a' ≠ [] ∧ l = "> ".toList ++ Str.rstrip a' := by
      intro n b h
      rcases ih n b l h with h | ⟨a', ha', h⟩
      · exact .inl h
      · exact .inr ⟨a', by simp [ha'], h⟩
    split at hl
    · split at hl
      · exact lift _ _ hl
      · rcases List.mem_cons.mp hl with rfl | h
        · exact .inl rfl
        · exact lift _ _ h
    · next he =>
      rcases List.mem_cons.mp hl with rfl | h
      · exact .inr ⟨a, by simp, by simpa using he, rfl⟩
      · exact lift _ _ h

theorem cons_ne_bare (s : Str) : (['>', ' '] ++ s) ≠ bare := by simp

/-- After a bare line comes no bare line. -/
theorem decisionLoop_head (n : Nat) (ls : List Str) :
    (decisionLoop n true ls).head? ≠ some bare := by
  induction ls generalizing n with
  | nil => simp [decisionLoop]
  | cons a ls ih =>
    rw [decisionLoop]
    split
    · simp only [Bool.or_true, if_true]; exact ih n
    · simp

theorem decisionLoop_no_double (n : Nat) (b : Bool) (ls : List Str) :
    ¬ [bare, bare] <:+: decisionLoop n b ls := by
  have key : ∀ (x : Str) (r : List Str), ¬ [bare, bare] <:+: r → (x = bare → r.head? ≠ some bare) →
      ¬ [bare, bare] <:+: x :: r := by
    intro x r hr hx h
    rw [List.infix_cons_iff] at h
    rcases h with h | h
    · obtain ⟨t, ht⟩ := h
      simp at ht
      exact hx ht.1.symm (by rw [← ht.2]; rfl)
    · exact hr h
  induction ls generalizing n b with
  | nil => simp [decisionLoop]
  | cons a ls ih =>
    rw [decisionLoop]
    split
    · split
      · exact ih _ _
      · exact key _ _ (ih _ _) (fun _ => decisionLoop_head n ls)
    · exact key _ _ (ih _ _) (fun h => absurd h (cons_ne_bare _))

theorem decisionLoop_small (n : Nat) (hn : n ≤ 1) (b : Bool) (ls : List Str) :
    ∀ i, i + n ≤ 1 → (decisionLoop n b ls)[i]? ≠ some bare := by
  induction ls generalizing n b with
  | nil => simp [decisionLoop]
  | cons a ls ih =>
    intro i hi
    rw [decisionLoop]
    split
    · have : (decide (n ≤ 1) || b) = true := by simp [hn]
      rw [if_pos this]
      exact ih n hn b i hi
    · cases i with
      | zero => simp
      | succ i => rw [List.getElem?_cons_succ]; exact ih (n + 1) (by omega) false i (by omega)

theorem decisionLoop_last (n : Nat) (b : Bool) (i : List Str) (l : Str) (hl : Str.rstrip l ≠ []) :
    (decisionLoop n b (i ++ [l])).getLast? = some ("> ".toList ++ Str.rstrip l) := by
  induction i generalizing n b with
  | nil =>
    rw [List.nil_append, decisionLoop]
    rw [if_neg (by simpa using hl)]
    simp [decisionLoop]
  | cons a i ih =>
    rw [List.cons_append, decisionLoop]
    split
    · split
      · exact ih _ _
      · rw [List.getLast?_cons, ih]; rfl
    · rw [List.getLast?_cons, ih]; rfl

/-- C29: a decision item converts iff its children do, to lines (none for a blank item) such that:
every line is `>`, or `> ` and a non-empty text without newline or trailing whitespace; no two
consecutive lines are `>`; neither the first, the second nor the last line is; and the others are, in
order, the right-stripped non-blank lines of the item's content, quoted. -/
theorem C29_decision (env : Env) (n : Node) (kids : List Node) (hn : n.cls = .decisionItem)
    (hc : n.content = .val kids) (s : Str) (h : n.toMarkdown env false = .ok (.str s)) :
    ∃ ss ls, Spec.MdAll env kids ss ∧ s = Spec.lines ls ∧
      (∀ l ∈ ls, l = ">".toList ∨ ∃ t, l = "> ".toList ++ t ∧ t ≠ [] ∧ '\n' ∉ t ∧ Spec.trimEnd t = t) ∧
      (¬ [">".toList, ">".toList] <:+: ls) ∧
      ls[0]? ≠ some ">".toList ∧ ls[1]? ≠ some ">".toList ∧ ls.getLast? ≠ some ">".toList ∧
      ls.filter (fun l => decide (l ≠ ">".toList)) =
        (Spec.nonBlank (ss.flatten.splitOn '\n')).map ("> ".toList ++ ·) := by
  simp only [splitOn_nl, ← rstrip_eq, Spec.lines, lines_eq]
  rw [dispatch_decision env n false hn, hc] at h
  unfold decisionItemMd at h
  obtain ⟨s', h1, e⟩ := strVal_str h
  cases e
  cases hd : contentToMarkdown [] false (slotItems env (.val kids)) with
  | error e => rw [hd] at h1; simp at h1
  | ok t =>
    obtain ⟨ss, h2, rfl⟩ := (content_iff env [] kids t).mp hd
    rw [hd, join_nil_eq] at h1
    refine ⟨ss, _, h2, (Except.ok.inj h1).symm, ?_, decisionLoop_no_double _ _ _,
      decisionLoop_small 0 (by omega) _ _ 0 (by omega), decisionLoop_small 0 (by omega) _ _ 1 (by omega), ?_, ?_⟩
    · intro l hl
      rcases decisionLoop_mem _ _ _ l hl with h | ⟨a, ha, hne, rfl⟩
      · exact .inl h
      · refine .inr ⟨_, rfl, hne, ?_, rstrip_idem a⟩
        obtain ⟨w, hw, _⟩ := (rstrip_spec a).1
        intro hm
        exact splitNL_noNL _ a ha (by rw [hw]; exact List.mem_append_left _ hm)
    · by_cases hne : Str.rstrip ss.flatten = []
      · rw [hne]
        have : decisionLoop 0 false (Str.splitNL []) = [] := by
          simp [Str.splitNL, decisionLoop, Str.rstrip]
        rw [this]; simp
      · obtain ⟨i, l, h3, h4⟩ := last_line_nonblank ss.flatten hne
        rw [h3, decisionLoop_last _ _ _ _ h4]
        simp
    · rw [← nonBlank_rstrip ss.flatten]
      exact decisionLoop_nonblank _ _ _

/-- C29: a decision item converts whenever its children do. -/
theorem C29_converts (env : Env) (n : Node) (kids : List Node) (hn : n.cls = .decisionItem)
    (hc : n.content = .val kids) (ss : List Str) (h : Spec.MdAll env kids ss) :
    ∃ s, n.toMarkdown env false = .ok (.str s) := by
  rw [dispatch_decision env n false hn, hc]
  unfold decisionItemMd
  rw [(content_iff env [] kids _).mpr ⟨ss, h, rfl⟩]
  exact ⟨_, rfl⟩

example : (Samples.decision [Samples.text "a\n\nb\n\n\nc \n"]).toMarkdown Samples.env false =
    .ok (Samples.str "> a\n> b\n>\n> c") := rfl

/-! ## C30 -/

/-- C30: a decision list converts iff its decision items do, to their Markdown in order with a blank
line between; other children are ignored. -/
theorem C30_decisions (env : Env) (n : Node) (kids : List Node) (hn : n.cls = .decisionList)
    (hc : n.content = .val kids) (hk : ∀ k ∈ kids, Spec.HasType k) (v : Val) :
    n.toMarkdown env false = .ok v ↔
      ∃ ss, Spec.MdAll env (kids.filter fun k => decide (k.cls = .decisionItem)) ss ∧
        v = .str ("\n\n".toList.intercalate ss) := by
  simp only [← join_eq]
  have hb : ∀ vs, decisionBlocks false (kids.map (Node.item env)) = .ok vs ↔
      ∃ ss : List Str, vs = ss.map .str ∧
        Spec.MdAll env (kids.filter fun k => decide (k.cls = .decisionItem)) ss := by
    clear hc
    induction kids with
    | nil =>
      intro vs
      simp only [List.map_nil, decisionBlocks, List.filter_nil]
      constructor
      · intro h; cases h; exact ⟨[], rfl, .nil⟩
      · rintro ⟨ss, rfl, h⟩; cases h; rfl
    | cons k kids ih =>
      intro vs
      have ih := ih (fun x hx => hk x (by simp [hx]))
      have ht := hk k (by simp)
      rw [List.map_cons, decisionBlocks, item_isTypeOf env ht,
        show [TypeEnum.decisionItem] = [NodeCls.decisionItem.typeEnum] from rfl]
      simp only [typeEnum_mem]
      by_cases hd : k.cls = .decisionItem
      · rw [List.filter_cons_of_pos (by simp [hd])]
        simp only [hd, decide_true]
        have hr : (k.item env).render none false = k.toMarkdown env false := rfl
        rw [hr]
        constructor
        · intro h
          cases hi : k.toMarkdown env false with
          | error e => rw [hi] at h; simp at h
          | ok t =>
            rw [hi] at h
            simp only at h
            cases hb : decisionBlocks false (kids.map (Node.item env)) with
            | error e => rw [hb] at h; simp at h
            | ok rest =>
              rw [hb] at h
              obtain ⟨es, rfl, hes⟩ := (ih rest).mp hb
              obtain ⟨s, rfl⟩ := toMarkdownAt_str env k (by
                intro ht; rw [hd] at ht; exact absurd ht (by decide)) _ _ _ hi
              exact ⟨s :: es, (Except.ok.inj h).symm, .cons hi hes⟩
        · rintro ⟨es, rfl, h⟩
          cases h with
          | cons h1 h2 =>
            unfold Spec.Md at h1
            rw [h1, (ih _).mpr ⟨_, rfl, h2⟩]
            rfl
      · rw [List.filter_cons_of_neg (by simp [hd])]
        simp only [hd, decide_false]
        exact ih vs
  rw [dispatch_decisions env n false hn, hc, slotItems_val]
  unfold decisionListMd
  simp only [iterSlot]
  constructor
  · intro h
    obtain ⟨s, h1, rfl⟩ := strVal_str h
    cases hbl : decisionBlocks false (kids.map (Node.item env)) with
    | error e => rw [hbl] at h1; simp at h1
    | ok ls =>
      rw [hbl] at h1
      obtain ⟨ss, rfl, hss⟩ := (hb ls).mp hbl
      replace h1 : strJoin _ _ = _ := h1
      rw [strJoin_str] at h1
      exact ⟨ss, hss, by rw [← Except.ok.inj h1]; rfl⟩
  · rintro ⟨ss, hss, rfl⟩
    rw [(hb _).mpr ⟨ss, rfl, hss⟩]
    simp only [strJoin_str]
    rfl

example : (Samples.decisions [Samples.decision [Samples.text "a"], Samples.para [],
      Samples.decision [Samples.text "b"]]).toMarkdown Samples.env false =
    .ok (Samples.str "> a\n\n> b") := rfl

/-! ### The theorems on samples -/

example := C28_partial Samples.env (Samples.tasks [Samples.task "DONE" (.val [Samples.text "a"]),
    Samples.tasks [Samples.task "TODO" (.val [Samples.text "b"])]]) (some 1) 1 _ rfl rfl rfl
  (fun k hk => ⟨(Samples.proper_of (kids := [Samples.task "DONE" (.val [Samples.text "a"]),
      Samples.tasks [Samples.task "TODO" (.val [Samples.text "b"])]]) rfl k hk).1,
    fun h => ⟨(Samples.proper_of (kids := [Samples.task "DONE" (.val [Samples.text "a"]),
      Samples.tasks [Samples.task "TODO" (.val [Samples.text "b"])]]) rfl k hk).2, by
      simp at hk; rcases hk with rfl | rfl
      · exact ⟨_, rfl⟩
      · cases h⟩⟩)

example := C28_state (Samples.parse (Samples.j "taskItem" [("attrs", .dict [("localId", Samples.str "i"), ("state", Samples.str "DONE")])]))
  (Samples.parsed rfl) rfl

example := C29_decision Samples.env (Samples.decision [Samples.text "a\n\nb\n\n\nc \n"]) _ rfl rfl _ rfl

example := C29_converts Samples.env (Samples.decision [Samples.text "a\n\nb", Samples.text "c"]) _ rfl rfl
  ["a\n\nb".toList, "c".toList] (.cons rfl (.cons rfl .nil))

example := C30_decisions Samples.env (Samples.decisions [Samples.decision [Samples.text "a"], Samples.para [],
  Samples.decision [Samples.text "b"]]) _ rfl rfl (Samples.hasTypes rfl)

end Verif.Props
