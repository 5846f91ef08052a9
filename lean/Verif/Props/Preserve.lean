import Verif.Lemmas.SampleChecks
import Verif.Lemmas.Preserve
/-!
# C21, C22: no text is lost
-/

namespace Verif.Props
open Verif Verif.Spec

/-- Only lists and task lists accept a level. -/
theorem level_none {env : Env} {n : Node} {l : Option Int} {v : Val} (hn : n.cls.takesLevel = false)
    (h : n.toMarkdownAt env l false = .ok v) : n.toMarkdown env false = .ok v := by
  cases l with
  | none => exact h
  | some i =>
    rw [toMarkdownAt_eq] at h
    unfold dispatch at h
    have : n.hd.cls.takesLevel = false := hn
    simp [this] at h

theorem strVal_ok {x : Except PyErr Str} {s : Str} (h : strVal x = .ok (.str s)) : x = .ok s := by
  obtain ⟨s', h1, e⟩ := strVal_str h
  cases e; exact h1

theorem fits_items {n : Node} {kids : List Node} {p : Node → Bool}
    (hf : ∀ k ∈ kids, fits n.cls k.cls = true ∨ (n.cls ∈ selective ∧ textOf k = []))
    (hp : ∀ k ∈ kids, fits n.cls k.cls = true → p k = true) :
    listText (kids.filter p) = listText kids :=
  listText_filter fun k hk => (hf k hk).imp (hp k hk) (·.2)

theorem keeps_node (env : Env) {n : Node} {kids : List Node} (hn : n.cls ∈ containers)
    (hc : n.content = .val kids) (hm : ∀ ms, n.hd.marks = .val ms → ∀ m ∈ ms, KeepsText m)
    (hf : ∀ k ∈ kids, fits n.cls k.cls = true ∨ (n.cls ∈ selective ∧ textOf k = []))
    (hw : ∀ k ∈ kids, WellFormed k)
    (hk : ∀ k ∈ kids, Keeps env k) (hkk : ∀ k ∈ kids, KidsKeep env k) : Keeps env n := by
  intro l s hl h
  have htext : n.cls ≠ .text := by intro h; rw [h] at hn; exact absurd hn (by decide)
  unfold Kept
  rw [textOf_container htext hc]
  have ht : ∀ k ∈ kids, HasType k := fun k hk => wf_hasType (hw k hk)
  obtain ⟨lvl, hlvl⟩ := Int.eq_ofNat_of_zero_le hl
  -- the classes without a level
  have plain : ∀ {x : Except PyErr Val}, n.cls.takesLevel = false →
      (dispatch env n.hd (slotItems env n.content) none false = x) → x = .ok (.str s) := by
    intro x h1 h2
    have := level_none h1 h
    rw [toMarkdown_eq] at this
    rw [← h2]; exact this
  have content : contentToMarkdown [] false (slotItems env (.val kids)) = .ok s →
      (ink (listText kids)).Sublist (ink s) := content_kept hk
  have listOk : ListOk kids := fun k hk' => ⟨ht k hk', fun _ => wf_proper (hw k hk')⟩
  simp only [containers, List.mem_cons, List.not_mem_nil, or_false] at hn
  rcases hn with hn | hn | hn | hn | hn | hn | hn | hn | hn | hn | hn | hn | hn | hn | hn | hn | hn | hn | hn | hn
  · -- doc
    have h1 := strVal_ok (plain (by rw [hn]; rfl)
      (by unfold dispatch; simp only [show n.hd.cls = _ from hn]; rfl))
    rw [hc] at h1
    exact doc_kept hk ht h1
  · -- paragraph
    have h1 := strVal_ok (plain (by rw [hn]; rfl)
      (by unfold dispatch; simp only [show n.hd.cls = _ from hn]; rfl))
    rw [hc] at h1
    unfold paragraphMd at h1
    cases hd : contentToMarkdown [] false (slotItems env (.val kids)) with
    | error e => rw [hd] at h1; cases h1
    | ok t =>
      rw [hd] at h1
      simp only at h1
      cases ha : addStyle env (.str t) n.hd.marks with
      | error e => rw [ha] at h1; cases h1
      | ok v =>
        obtain ⟨t', rfl⟩ := addStyle_str env _ _ _ ha
        rw [ha] at h1
        rw [← Except.ok.inj h1, ink_append]
        exact ((content_kept hk hd).trans (addStyle_kept env hm ha)).trans (List.sublist_append_left _ _)
  · -- heading
    have h1 := strVal_ok (plain (by rw [hn]; rfl)
      (by unfold dispatch; simp only [show n.hd.cls = _ from hn]; rfl))
    rw [hc] at h1
    unfold headingMd at h1
    split at h1
    · cases h1
    · split at h1
      · cases h1
      · cases hd : contentToMarkdown [] false (slotItems env (.val kids)) with
        | error e => rw [hd] at h1; cases h1
        | ok t =>
          rw [hd] at h1
          rw [← Except.ok.inj h1]
          refine (content_kept hk hd).trans (ink_mono ?_)
          exact (((List.sublist_append_right _ _).trans (List.sublist_append_right _ _)).trans
            (List.sublist_append_left _ _))
  · -- codeBlock
    have h1 := strVal_ok (plain (by rw [hn]; rfl)
      (by unfold dispatch; simp only [show n.hd.cls = _ from hn]; rfl))
    rw [hc] at h1
    unfold codeBlockMd at h1
    cases hd : contentToMarkdown [] false (slotItems env (.val kids)) with
    | error e => rw [hd] at h1; cases h1
    | ok t =>
      rw [hd] at h1
      simp only at h1
      split at h1
      · cases h1
      · rw [← Except.ok.inj h1]
        refine (content_kept hk hd).trans (ink_mono ?_)
        exact (List.sublist_append_right _ _).trans (List.sublist_append_left _ _)
  · -- blockquote
    have h1 := strVal_ok (plain (by rw [hn]; rfl)
      (by unfold dispatch; simp only [show n.hd.cls = _ from hn]; rfl))
    rw [hc] at h1
    unfold blockquoteMd at h1
    cases hd : docContentToMarkdown false (slotItems env (.val kids)) with
    | error e => rw [hd] at h1; cases h1
    | ok t =>
      rw [hd] at h1
      rw [← Except.ok.inj h1, ink_append, strip_eq]
      refine List.Sublist.trans ?_ (List.sublist_append_left _ _)
      refine (doc_kept hk ht hd).trans ?_
      rw [← ink_cleaned 3 t]
      exact ink_indent _ _
  · -- panel
    have h1 := strVal_ok (plain (by rw [hn]; rfl)
      (by unfold dispatch; simp only [show n.hd.cls = _ from hn]; rfl))
    rw [hc] at h1
    unfold panelMd at h1
    split at h1
    · cases h1
    · split at h1
      · cases h1
      · cases hd : docContentToMarkdown false (slotItems env (.val kids)) with
        | error e => rw [hd] at h1; cases h1
        | ok t =>
          rw [hd] at h1
          rw [← Except.ok.inj h1, ink_append, strip_eq]
          refine List.Sublist.trans ?_ (List.sublist_append_left _ _)
          refine (doc_kept hk ht hd).trans ?_
          refine List.Sublist.trans ?_ (ink_indent _ _)
          change (ink t).Sublist (ink (cleaned 3 _))
          rw [ink_cleaned]
          refine ink_mono (List.Sublist.trans ?_ (join_sub _ _))
          rw [List.flatten_cons, List.flatten_cons, List.flatten_cons, List.flatten_nil, List.append_nil]
          exact (List.sublist_append_right _ _).trans (List.sublist_append_right _ _)
  · -- expand
    have h1 := plain (by rw [hn]; rfl)
      (by unfold dispatch; simp only [show n.hd.cls = _ from hn]; rfl)
    rw [hc] at h1
    unfold expandMd at h1
    cases hd : docContentToMarkdown false (slotItems env (.val kids)) with
    | error e => rw [hd] at h1; cases h1
    | ok t =>
      rw [hd] at h1
      exact (doc_kept hk ht hd).trans (addStyle_kept env hm h1)
  · -- nestedExpand
    have h1 := strVal_ok (plain (by rw [hn]; rfl)
      (by unfold dispatch; simp only [show n.hd.cls = _ from hn]; rfl))
    rw [hc] at h1
    exact doc_kept hk ht h1
  · -- listItem
    have h1 := strVal_ok (plain (by rw [hn]; rfl)
      (by unfold dispatch; simp only [show n.hd.cls = _ from hn]; rfl))
    rw [hc] at h1
    exact content h1
  · -- bulletList
    have hitems : listText (itemsOf kids) = listText kids :=
      fits_items hf fun k _ h => by rw [hn] at h; exact h
    obtain ⟨ts, h1, e⟩ := (C25_bullets env n l lvl kids hlvl hn hc listOk _).mp h
    cases e
    rw [← hitems]
    unfold lines
    rw [lines_eq]
    refine kept_join ?_ _
    rw [List.forall₂_map_right_iff]
    refine forall2_imp_mem h1 fun a ha b hb => ?_
    obtain ⟨ha1, ha2⟩ := List.mem_filter.mp ha
    have hcls : a.cls = .listItem := of_decide_eq_true ha2
    have := itemText_kept (by rw [hcls]; decide) (hkk a ha1) hb
    unfold Kept at this ⊢
    rw [ink_append]
    exact this.trans (List.sublist_append_right _ _)
  · -- orderedList
    have hitems : listText (itemsOf kids) = listText kids :=
      fits_items hf fun k _ h => by rw [hn] at h; exact h
    rw [dispatch_ordered env n l false hn, hlvl, hc, slotItems_val] at h
    have h1 := strVal_ok h
    unfold orderedListMd at h1
    split at h1
    · cases h1
    · next start _ =>
      simp only [iterSlot] at h1
      cases hb : orderedLines env (lvl : Nat) false start (kids.map (Node.item env)) with
      | error e => rw [hb] at h1; cases h1
      | ok ls =>
        rw [hb] at h1
        rw [← Except.ok.inj h1, ← hitems]
        exact (orderedLines_kept env lvl kids listOk hkk start ls hb).trans (ink_mono (join_sub _ _))
  · -- taskItem
    have h1 := strVal_ok (plain (by rw [hn]; rfl)
      (by unfold dispatch; simp only [show n.hd.cls = _ from hn]; rfl))
    rw [hc] at h1
    exact content h1
  · -- taskList
    have hitems : listText (tasksOf kids) = listText kids :=
      fits_items hf fun k _ h => by rw [hn] at h; exact h
    have hst : ∀ k ∈ kids, k.cls = .taskItem → ∃ st, attr k "state" = some st := by
      have h2 := h
      rw [dispatch_task env n l false hn, hc, slotItems_val] at h2
      have h1 := strVal_ok h2
      unfold taskListMd at h1
      simp only [iterSlot] at h1
      cases hb : taskLines (l.getD 0) false (kids.map (Node.item env)) with
      | error e => rw [hb] at h1; cases h1
      | ok vs => exact taskLines_state env _ kids ht vs hb
    obtain ⟨es, h1, e⟩ := (C28_partial env n l lvl kids hlvl hn hc
      (fun k hk' => ⟨ht k hk', fun hc' => ⟨wf_proper (hw k hk'), hst k hk' hc'⟩⟩) _).mp h
    cases e
    rw [← hitems]
    unfold lines
    rw [lines_eq]
    refine kept_join (forall2_imp_mem h1 fun a ha b hb => ?_) _
    obtain ⟨ha1, ha2⟩ := List.mem_filter.mp ha
    exact taskEntry_kept (hk a ha1) (hkk a ha1) (of_decide_eq_true ha2) hb
  · -- decisionItem
    have h1 := strVal_ok (plain (by rw [hn]; rfl)
      (by unfold dispatch; simp only [show n.hd.cls = _ from hn]; rfl))
    rw [hc] at h1
    unfold decisionItemMd at h1
    cases hd : contentToMarkdown [] false (slotItems env (.val kids)) with
    | error e => rw [hd] at h1; cases h1
    | ok t =>
      rw [hd] at h1
      rw [← Except.ok.inj h1]
      refine (content_kept hk hd).trans ?_
      rw [← ink_rstrip, ← ink_splitNL]
      exact (decisionLoop_kept _ _ _).trans (ink_mono (join_sub _ _))
  · -- decisionList
    obtain ⟨ss, h1, e⟩ := (C30_decisions env n kids hn hc ht _).mp (level_none (by rw [hn]; rfl) h)
    cases e
    have hitems : listText (kids.filter fun k => decide (k.cls = .decisionItem)) = listText kids :=
      fits_items hf fun k _ h => by rw [hn] at h; exact h
    rw [← hitems]
    rw [← join_eq]
    exact kept_join (keeps_md (fun k hk' => hk k (List.mem_filter.mp hk').1) h1) _
  · -- tableCell
    obtain ⟨ss, outs, h1, h2, e⟩ := (C31_cell env n kids (.inl hn) hc _).mp (level_none (by rw [hn]; rfl) h)
    rw [splitOn_nl] at h2
    rw [← join_eq] at e
    cases e
    exact (kept_flatten (keeps_md hk h1)).trans (cell_kept h2)
  · -- tableHeader
    obtain ⟨ss, outs, h1, h2, e⟩ := (C31_cell env n kids (.inr hn) hc _).mp (level_none (by rw [hn]; rfl) h)
    rw [splitOn_nl] at h2
    rw [← join_eq] at e
    cases e
    exact (kept_flatten (keeps_md hk h1)).trans (cell_kept h2)
  · -- tableRow
    have h1 := level_none (by rw [hn]; rfl) h
    rw [dispatch_row env n false hn, hc, slotItems_val] at h1
    replace h1 := strVal_ok h1
    unfold tableRowMd at h1
    simp only [iterSlot] at h1
    cases hb : rowCells false (kids.map (Node.item env)) with
    | error e => rw [hb] at h1; cases h1
    | ok vs =>
      rw [hb] at h1
      simp only at h1
      cases hj : strJoin [' ', '|', ' '] vs with
      | error e => rw [hj] at h1; cases h1
      | ok t =>
        obtain ⟨cs, rfl, rfl⟩ := strJoin_ok hj
        rw [hj] at h1
        rw [← Except.ok.inj h1]
        have h2 : MdAll env kids cs :=
          forall2_map_str.mp ((rowCells_ok env false kids _).mp hb)
        refine List.Sublist.trans (kept_join (keeps_md hk h2) [' ', '|', ' ']) (ink_mono ?_)
        exact (List.sublist_append_right _ _).trans (List.sublist_append_left _ _)
  · -- table
    have hrow : ∀ k ∈ kids, k.cls ≠ .text := fun k hk' => by
      rcases hf k hk' with h | h
      · rw [hn] at h; exact of_decide_eq_true h
      · rw [hn] at h; exact absurd h.1 (by decide)
    obtain ⟨lss, h1, e⟩ := (C32_table env n kids hn hc
      (fun k hk' => ⟨hrow k hk', wf_proper (hw k hk')⟩) _).mp (level_none (by rw [hn]; rfl) h)
    cases e
    unfold lines
    rw [lines_eq]
    refine List.Sublist.trans ?_ (ink_mono (join_sub _ _))
    clear h hc hf hw hkk ht content listOk plain hrow hl hlvl
    induction h1 with
    | nil => exact List.nil_sublist _
    | @cons r ls rows lss hr _ ih =>
      rw [List.flatten_cons, List.flatten_append, ink_append, listText, ink_append]
      refine List.Sublist.append ?_ (ih (fun k hk' => hk k (by simp [hk'])))
      obtain ⟨s, first, rest, hi, _, ha, hb⟩ := hr
      have := hk r (by simp) none s (by simp) hi
      refine List.Sublist.trans this (ink_mono ?_)
      by_cases hh : first.cls = .tableHeader
      · rw [ha hh]; simp
      · rw [hb hh]; simp
  · -- mediaSingle
    have h1 := strVal_ok (plain (by rw [hn]; rfl)
      (by unfold dispatch; simp only [show n.hd.cls = _ from hn]; rfl))
    rw [hc] at h1
    exact content h1

theorem keeps_noText (env : Env) {n : Node} (h : textOf n = []) : Keeps env n := by
  intro l s _ _
  unfold Kept
  rw [h]; exact List.nil_sublist _

theorem kidsKeep_noText (env : Env) {n : Node} (h : textOf n = []) : KidsKeep env n := by
  intro ks hc k hk
  rw [textOf_eq, List.append_eq_nil_iff, hc] at h
  exact keeps_noText env (listText_nil h.2 k hk)

theorem supported_keeps (env : Env) {n : Node} (h : Supported n) (hw : WellFormed n) :
    Keeps env n ∧ KidsKeep env n := by
  induction h with
  | @text n hn hc hm =>
    refine ⟨?_, ?_⟩
    swap
    · intro ks h k hk
      rw [h] at hc
      exact keeps_noText env (listText_nil hc k hk)
    intro l s _ h
    have h := level_none (by rw [hn]; rfl) h
    rw [toMarkdown_eq] at h
    unfold dispatch at h
    simp only [show n.hd.cls = _ from hn] at h
    unfold Kept
    rw [textOf_eq, hc]
    unfold ownText
    rw [show n.hd.cls = _ from hn]
    replace h : textMd env n.hd.text n.hd.marks = .ok (.str s) := h
    cases ht : n.hd.text with
    | none => exact List.nil_sublist _
    | some v =>
      rw [ht] at h
      cases v <;> try exact List.nil_sublist _
      next t =>
      rw [List.append_nil]
      exact addStyle_kept env hm h
  | noText h => exact ⟨keeps_noText env h, kidsKeep_noText env h⟩
  | @node n kids hn hc hm hf _ ih =>
    have hwk := wf_listOk hw hc
    have ih' := fun k hk => ih k hk (hwk k hk)
    refine ⟨keeps_node env hn hc hm hf hwk (fun k hk => (ih' k hk).1) (fun k hk => (ih' k hk).2), ?_⟩
    intro ks hks k hk
    rw [hc] at hks
    cases hks
    exact (ih' k hk).1

/-- C21: for a well-formed tree of supported constructs, the visible characters of all its text nodes,
in document order, are a subsequence of the visible characters of its Markdown. -/
theorem C21_preserved (env : Env) (n : Node) (hw : WellFormed n) (hs : Supported n) (s : Str)
    (h : n.toMarkdown env false = .ok (.str s)) :
    (ink (textOf n)).Sublist (ink s) :=
  (supported_keeps env hs hw).1 none s (by simp) h

/-- C21 for parsed input: if the `content`s of the JSON are lists, the parsed tree is well-formed. -/
theorem C21_parsed (env : Env) (w : Bool) (v : Val) (n : Node) (hv : ContentLists v)
    (hp : (parseNode w v).out = .ok n) (hs : Supported n) (s : Str)
    (h : n.toMarkdown env false = .ok (.str s)) : (ink (textOf n)).Sublist (ink s) :=
  C21_preserved env n (parsed_wellFormed hv hp) hs s h

/-- A document with most of the supported constructs. -/
def Samples.rich : Node :=
  Samples.doc [Samples.heading 1 [Samples.text "T"], Samples.para [Samples.text "a ",
      Samples.textM "b" [Samples.mark .strong]],
    Samples.bullets [Samples.item [Samples.para [Samples.text "c"],
      Samples.ordered (Samples.orderAttrs 3) [Samples.item [Samples.para [Samples.text "d"]]]], Samples.hardBreak],
    Samples.table [Samples.row [Samples.hcell [Samples.para [Samples.text "e|f"]]]],
    Samples.panel "info" [Samples.para [Samples.text "g"]]]

theorem Samples.rich_supported : Supported Samples.rich := by
  have ht : ∀ s, Supported (Samples.text s) := fun s => .text rfl rfl (by intro ms h; cases h)
  have hpar : ∀ kids, (∀ k ∈ kids, Supported k) → Supported (Samples.para kids) := fun kids h =>
    .node (by show NodeCls.paragraph ∈ containers; decide) rfl (by intro ms h; cases h) (fun _ _ => .inl rfl) h
  have hp1 : ∀ s, Supported (Samples.para [Samples.text s]) := fun s => hpar _ (by simpa using ht s)
  have hitem : ∀ kids, (∀ k ∈ kids, Supported k) → Supported (Samples.item kids) := fun kids h =>
    .node (by show NodeCls.listItem ∈ containers; decide) rfl (by intro ms h; cases h) (fun _ _ => .inl rfl) h
  refine .node (by decide) rfl (by intro ms h; cases h) (fun _ _ => .inl rfl) ?_
  intro k hk
  simp only [List.mem_cons, List.not_mem_nil, or_false] at hk
  rcases hk with rfl | rfl | rfl | rfl | rfl
  · exact .node (by decide) rfl (by intro ms h; cases h) (fun _ _ => .inl rfl) (by simpa using ht "T")
  · refine hpar _ ?_
    simp only [List.mem_cons, List.not_mem_nil, or_false, forall_eq_or_imp, forall_eq]
    refine ⟨ht _, .text rfl rfl ?_⟩
    intro ms h m hm
    cases h
    simp only [List.mem_singleton] at hm
    subst hm
    exact ⟨by decide, by intro h; cases h⟩
  · refine .node (by decide) rfl (by intro ms h; cases h) ?_ ?_
    · simp only [List.mem_cons, List.not_mem_nil, or_false, forall_eq_or_imp, forall_eq]
      exact ⟨.inl (by decide), .inr ⟨by decide, rfl⟩⟩
    · simp only [List.mem_cons, List.not_mem_nil, or_false, forall_eq_or_imp, forall_eq]
      refine ⟨hitem _ ?_, .noText rfl⟩
      simp only [List.mem_cons, List.not_mem_nil, or_false, forall_eq_or_imp, forall_eq]
      refine ⟨hp1 _, .node (by decide) rfl (by intro ms h; cases h) ?_ ?_⟩
      · simp only [List.mem_singleton, forall_eq]; exact .inl (by decide)
      · simp only [List.mem_singleton, forall_eq]; exact hitem _ (by simpa using hp1 _)
  · refine .node (by decide) rfl (by intro ms h; cases h) ?_ ?_
    · simp only [List.mem_singleton, forall_eq]; exact .inl (by decide)
    · simp only [List.mem_singleton, forall_eq]
      refine .node (by decide) rfl (by intro ms h; cases h) (fun _ _ => .inl rfl) ?_
      simp only [List.mem_singleton, forall_eq]
      exact .node (by decide) rfl (by intro ms h; cases h) (fun _ _ => .inl rfl) (by simpa using hp1 _)
  · exact .node (by decide) rfl (by intro ms h; cases h) (fun _ _ => .inl rfl) (by simpa using hp1 _)

example : Samples.rich.toMarkdown Samples.env false = .ok (Samples.str
    "\n\n# T\n\na **b**\n\n- c\n3. d\n\n| e\\|f<br> |\n| --- |\n> **INFO**\n> \n> g\n\n") := rfl

example : ink (textOf Samples.rich) = "Tabcde|fg".toList := by decide

/-! ## C22 -/

/-- Every well-formed tree is supported or contains a construct that loses text. -/
theorem supported_or (n : Node) (hw : WellFormed n) :
    Supported n ∨ ∃ m, Below m n ∧ (LosesMark m ∨ IgnoresContent m ∨ StrayChild m) := by
  by_cases hmarks : ∀ ms, n.hd.marks = .val ms → ∀ m ∈ ms, KeepsText m
  case neg =>
    right
    push Not at hmarks
    obtain ⟨ms, h1, mk, h2, h3⟩ := hmarks
    exact ⟨n, .here n, .inl ⟨ms, mk, h1, h2, h3⟩⟩
  case pos =>
  have hleaf : slotText n.content = [] → Supported n := by
    intro hs
    by_cases ht : n.cls = .text
    · exact .text ht hs hmarks
    · refine .noText ?_
      rw [textOf_eq, hs, List.append_nil]
      unfold ownText
      split
      · next h _ => exact absurd h ht
      · rfl
  induction hw with
  | leaf _ h => exact .inl (hleaf (by rcases h with h | h <;> rw [h] <;> rfl))
  | @node n kids _ hc hk ih =>
    by_cases h0 : listText kids = []
    · exact .inl (hleaf (by rw [hc]; exact h0))
    by_cases hcont : n.cls ∈ containers
    case neg => exact .inr ⟨n, .here n, .inr (.inl ⟨hcont, kids, hc, h0⟩)⟩
    by_cases hf : ∀ k ∈ kids, fits n.cls k.cls = true ∨ (n.cls ∈ selective ∧ textOf k = [])
    case neg =>
      right
      push Not at hf
      obtain ⟨k, h1, h2, h3⟩ := hf
      exact ⟨n, .here n, .inr (.inr ⟨kids, k, hc, h1, by simpa using h2, h3⟩)⟩
    by_cases hall : ∀ k ∈ kids, Supported k
    · exact .inl (.node hcont hc hmarks hf hall)
    · right
      push Not at hall
      obtain ⟨k, hk', hns⟩ := hall
      by_cases hm : ∀ ms, k.hd.marks = .val ms → ∀ m ∈ ms, KeepsText m
      · have hlk : slotText k.content = [] → Supported k := by
          intro hs
          by_cases ht : k.cls = .text
          · exact .text ht hs hm
          · refine .noText ?_
            rw [textOf_eq, hs, List.append_nil]
            unfold ownText
            split
            · next h _ => exact absurd h ht
            · rfl
        rcases ih k hk' hm hlk with h | ⟨m, hb, h⟩
        · exact absurd h hns
        · exact ⟨m, .step hc hk' hb, h⟩
      · push Not at hm
        obtain ⟨ms, h1, mk, h2, h3⟩ := hm
        exact ⟨k, .step hc hk' (.here k), .inl ⟨ms, mk, h1, h2, h3⟩⟩

/-- C22 (what is missing: the constructs listed here, `C22_false_*`).  If a well-formed tree converts
and its text is not preserved, then it contains a node with a mark that replaces text (an indentation
mark or a link with its own title), a node with text below it whose class does not render children, or
a child with text that a list does not render. -/
theorem C22_partial (env : Env) (n : Node) (hw : WellFormed n) (s : Str)
    (h : n.toMarkdown env false = .ok (.str s)) (hl : ¬ (ink (textOf n)).Sublist (ink s)) :
    ∃ m, Below m n ∧ (LosesMark m ∨ IgnoresContent m ∨ StrayChild m) := by
  rcases supported_or n hw with hs | h'
  · exact absurd (C21_preserved env n hw hs s h) hl
  · exact h'

/-- C22: the classes that may have children and do not render them are `caption` and `mediaGroup`. -/
theorem C22_partial_classes (n : Node) (hp : Spec.Parsed n) (h : IgnoresContent n) :
    n.cls = .caption ∨ n.cls = .mediaGroup := by
  obtain ⟨hc, kids, hk, _⟩ := h
  obtain ⟨w, v, hp⟩ := hp
  obtain ⟨d, t, rfl, ht, hreg, hf⟩ := parseNode_ok hp
  have hdecl : "content" ∈ Spec.nodeKeys n.cls := by
    obtain ⟨a, k, m, _, _, _, _, e⟩ := nodeFromDict_ok hf
    rw [e] at hk
    simp only [Node.content] at hk
    rw [slotOf_eq n.cls _ (.inr (.inl rfl))] at hk
    by_contra hno
    rw [if_neg hno] at hk
    cases hk
  revert hdecl hc
  generalize n.cls = c
  cases c <;> decide

/-- A parsed document with a single block, that converts but loses text. -/
def Loses (n : Node) : Prop :=
  Spec.Parsed n ∧ n.cls = .doc ∧ ∃ s, n.toMarkdown Samples.env false = .ok (.str s) ∧
    ¬ (ink (textOf n)).Sublist (ink s)

/-- The JSON of a document with one block. -/
def Samples.docJ (block : Val) : Val := Samples.j "doc" [("version", .int 1), ("content", .list [block])]

/-- C22 is false of the code: the text of an indented paragraph is lost (`mark_indentation.py`). -/
theorem C22_false_indentation : ∃ n, Loses n ∧ ∃ m mk, Below m n ∧ m.cls = .paragraph ∧
    m.hd.marks = .val [mk] ∧ mk.cls = .indentation :=
  ⟨_, ⟨⟨true, Samples.docJ (Samples.j "paragraph"
      [("content", .list [Samples.j "text" [("text", Samples.str "hi")]]),
       ("marks", .list [Samples.j "indentation" [("attrs", .dict [("level", .int 1)])]])]), rfl⟩,
    rfl, _, rfl, by decide⟩, _, _, .step rfl (.head _) (.here _), rfl, rfl, rfl⟩

/-- C22 is false of the code: the text of a link with a title is lost (`mark_link.py`). -/
theorem C22_false_link : ∃ n, Loses n ∧ ∃ m mk, Below m n ∧ m.cls = .text ∧
    m.hd.marks = .val [mk] ∧ mk.cls = .link :=
  ⟨_, ⟨⟨true, Samples.docJ (Samples.j "paragraph" [("content", .list [Samples.j "text"
      [("text", Samples.str "hi"), ("marks", .list [Samples.j "link"
        [("attrs", .dict [("href", Samples.str "u"), ("title", Samples.str "t")])]])]])]), rfl⟩,
    rfl, _, rfl, by decide⟩, _, _, .step rfl (.head _) (.step rfl (.head _) (.here _)), rfl, rfl, rfl⟩

/-- C22 is false of the code: captions are not rendered (`node_caption.py`). -/
theorem C22_false_caption : ∃ n, Loses n ∧ ∃ m, Below m n ∧ m.cls = .caption ∧ IgnoresContent m :=
  ⟨_, ⟨⟨true, Samples.docJ (Samples.j "mediaSingle" [("content", .list [Samples.j "caption" [("content",
      .list [Samples.j "text" [("text", Samples.str "hi")]])]])]), rfl⟩,
    rfl, _, rfl, by decide⟩, _, .step rfl (.head _) (.step rfl (.head _) (.here _)), rfl,
    by decide, _, rfl, by decide⟩

/-- C22 is false of the code: a list does not render children that are not list items
(`node_bullet_list.py`). -/
theorem C22_false_stray : ∃ n, Loses n ∧ ∃ m, Below m n ∧ m.cls = .bulletList ∧ StrayChild m :=
  ⟨_, ⟨⟨true, Samples.docJ (Samples.j "bulletList" [("content", .list [Samples.j "paragraph" [("content",
      .list [Samples.j "text" [("text", Samples.str "hi")]])]])]), rfl⟩,
    rfl, _, rfl, by decide⟩, _, .step rfl (.head _) (.here _), rfl,
    _, _, rfl, .head _, rfl, by decide⟩

/-! ### The theorems on samples -/

example := C21_preserved Samples.env Samples.rich (Samples.wellFormed_of 9 rfl) Samples.rich_supported _ rfl

example : True := by
  have ht : Supported (Samples.text "a") := .text rfl rfl (by intro ms h; cases h)
  have hp : Supported (Samples.para [Samples.text "a"]) :=
    .node (by decide) rfl (by intro ms h; cases h) (fun _ _ => .inl rfl) (by simpa using ht)
  have hd : Supported (Samples.doc [Samples.para [Samples.text "a"]]) :=
    .node (by decide) rfl (by intro ms h; cases h) (fun _ _ => .inl rfl) (by simpa using hp)
  have := C21_parsed Samples.env true (Samples.docJ (Samples.j "paragraph" [("content", .list
    [Samples.j "text" [("text", Samples.str "a")]])])) (Samples.doc [Samples.para [Samples.text "a"]])
    (.node _ _ rfl (by simpa using .node _ _ rfl (by simpa using .leaf _ rfl))) rfl hd _ rfl
  trivial

/-- A document with a caption, whose text is lost. -/
def Samples.captioned : Node := Samples.parse (Samples.docJ (Samples.j "mediaSingle" [("content", .list [Samples.j "caption"
  [("content", .list [Samples.j "text" [("text", Samples.str "hi")]])]])]))

example := C22_partial Samples.env Samples.captioned (Samples.wellFormed_of 9 rfl) _ rfl (by decide)

example := C22_partial_classes (Samples.parse (Samples.j "caption" [("content", .list [Samples.j "text" [("text", Samples.str "hi")]])]))
  (Samples.parsed rfl) ⟨by decide, _, rfl, by decide⟩

end Verif.Props
