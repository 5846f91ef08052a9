import Verif.Lemmas.HeapMdConv
/-! # Converting on the heap: the nodes -/

namespace Verif.HeapMd
open Verif Verif.Spec

variable {P : Nat → Prop} {h0 : Heap} {fuel : Nat} {call : Call}

theorem wrap_self (pre post : Str) (md r : Val) (h : wrapNonBlank pre post md = .ok r) : r = md ∨ ∃ s, r = .str s := by
  unfold wrapNonBlank at h
  split at h
  · split at h
    · exact .inl (Except.ok.inj h).symm
    · exact .inr ⟨_, (Except.ok.inj h).symm⟩
  · cases h

theorem mark_self (env : Env) (m : Mark) (md r : Val) (h : m.toMarkdown env md = .ok r) : r = md ∨ ∃ s, r = .str s := by
  unfold Mark.toMarkdown at h
  repeat' split at h
  all_goals first
    | exact wrap_self _ _ md r h
    | cases h; done
    | exact .inl (Except.ok.inj h).symm
    | exact .inr ⟨_, (Except.ok.inj h).symm⟩

theorem applyMarks_self (env : Env) (ms : List Mark) : ∀ md r, applyMarks env md ms = .ok r → r = md ∨ ∃ s, r = .str s := by
  induction ms with
  | nil => intro md r h; exact .inl (Except.ok.inj h).symm
  | cons m ms ih =>
    intro md r h
    unfold applyMarks at h
    split at h
    · rename_i md' hm
      rcases ih _ _ h with rfl | h1
      · exact mark_self env m md _ hm
      · exact .inr h1
    · exact .inl (Except.ok.inj h).symm
    · cases h

theorem addStyle_self (env : Env) (marks : Slot (List Mark)) (md r : Val) (h : addStyle env md marks = .ok r) : r = md ∨ ∃ s, r = .str s := by
  unfold addStyle at h
  split at h
  · exact applyMarks_self env _ md r h
  · exact .inl (Except.ok.inj h).symm

theorem sim_str {m : Prog Str} {r : Except PyErr Str} (h : Sim P h0 Eq m r) : Sim P h0 (IsJson P h0) (strValH m) (strVal r) := by
  refine sim_bind h ?_
  cases r with
  | error e => rfl
  | ok s => rintro _ rfl; exact sim_pure (json_str _)

variable {content : Slot (List Item)} {c : Option HV}

theorem sim_bullet (h : SlotRel P h0 fuel call content c) (level : Int) (ig : Bool) :
    Sim P h0 Eq (bulletListMdH fuel call c level ig) (bulletListMd content level ig) := by
  refine sim_cast (sim_list_iter (r := fun l => (bulletLines level ig l).map (List.map Val.str)) h.1 fun l xs hl lst => loop_bullet level ig hl lst) ?_
  unfold bulletListMd
  cases iterSlot alienItem content with
  | error e => rfl
  | ok l =>
    simp only [Except.bind]
    cases bulletLines level ig l with
    | error e => rfl
    | ok ls => exact strJoin_strs _ _

theorem sim_ordered (env : Env) (attrs : Slot AttrsObj) (h : SlotRel P h0 fuel call content c) (level : Int) (ig : Bool) :
    Sim P h0 Eq (orderedListMdH env fuel call attrs c level ig) (orderedListMd env attrs content level ig) := by
  have e : orderedListMdH env fuel call attrs c level ig = newList.bind fun lines =>
      ((Prog.ofExcept (orderedStart attrs level)).bind fun start => (iterH c).bind fun xs => Prog.pure (start, xs)).bind fun p =>
      (orderedLinesH env fuel call level ig lines p.1 p.2).bind fun _ => joinH [Str.nl] lines := by
    simp only [orderedListMdH, Prog.bind_assoc]
    rfl
  rw [e]
  have hit : Sim P h0 (fun (p : Val × List Item) (q : Val × List HV) => p.1 = q.1 ∧ List.Forall₂ (ItemRel P h0 fuel call) p.2 q.2)
      ((Prog.ofExcept (orderedStart attrs level)).bind fun start => (iterH c).bind fun xs => Prog.pure (start, xs))
      ((orderedStart attrs level).bind fun st => (iterSlot alienItem content).map fun l => (st, l)) := by
    refine sim_bind (sim_of _) ?_
    cases orderedStart attrs level with
    | error e => rfl
    | ok st =>
      rintro _ rfl
      refine sim_bind h.1 ?_
      simp only [Except.bind]
      cases iterSlot alienItem content with
      | error e => rfl
      | ok l => exact fun x hx => sim_pure ⟨rfl, hx⟩
  refine sim_cast (sim_list_iter (r := fun p => (orderedLines env level ig p.1 p.2).map (List.map Val.str)) hit
    fun p q hpq lst => by obtain ⟨st, xs⟩ := q; obtain ⟨rfl, h2⟩ := hpq; exact loop_ordered env level ig h2 lst _) ?_
  unfold orderedListMd
  cases orderedStart attrs level with
  | error e => rfl
  | ok st =>
    cases iterSlot alienItem content with
    | error e => rfl
    | ok l =>
      simp only [Except.bind, Except.map]
      cases orderedLines env level ig st l with
      | error e => rfl
      | ok ls => exact strJoin_strs _ _

theorem sim_task (h : SlotRel P h0 fuel call content c) (level : Int) (ig : Bool) :
    Sim P h0 Eq (taskListMdH fuel call c level ig) (taskListMd content level ig) := by
  refine sim_cast (sim_list_iter (r := fun l => taskLines level ig l) h.1 fun l xs hl lst => loop_task level ig hl lst) ?_
  unfold taskListMd
  cases iterSlot alienItem content with
  | error e => rfl
  | ok l =>
    simp only [Except.bind]
    cases taskLines level ig l <;> rfl

theorem sim_decisionList (h : SlotRel P h0 fuel call content c) (ig : Bool) :
    Sim P h0 Eq (decisionListMdH fuel call c ig) (decisionListMd content ig) := by
  refine sim_cast (sim_list_iter (r := fun l => decisionBlocks ig l) h.1 fun l xs hl lst => loop_decision ig hl lst) ?_
  unfold decisionListMd
  cases iterSlot alienItem content with
  | error e => rfl
  | ok l =>
    simp only [Except.bind]
    cases decisionBlocks ig l <;> rfl

theorem sim_table (h : SlotRel P h0 fuel call content c) (ig : Bool) :
    Sim P h0 Eq (tableMdH fuel call c ig) (tableMd content ig) := by
  refine sim_cast (sim_list_iter (r := fun l => tableLines ig l) h.1 fun l xs hl lst => loop_table ig hl lst) ?_
  unfold tableMd
  cases iterSlot alienItem content with
  | error e => rfl
  | ok l =>
    simp only [Except.bind]
    cases tableLines ig l <;> rfl

theorem sim_row (h : SlotRel P h0 fuel call content c) (ig : Bool) :
    Sim P h0 Eq (tableRowMdH call c ig) (tableRowMd content ig) := by
  have h1 := sim_map (sim_list_iter (sep := [' ', '|', ' ']) (r := fun l => rowCells ig l) h.1 fun l xs hl lst => loop_row ig hl lst) pipeRow
  have e : (newList.bind fun lst => (iterH c).bind fun x => (rowCellsH call ig lst x).bind fun _ => joinH [' ', '|', ' '] lst).bind
      (fun a => Prog.pure (pipeRow a)) = tableRowMdH call c ig := by
    simp only [tableRowMdH, Prog.bind_assoc]
  rw [← e]
  refine sim_cast h1 ?_
  unfold tableRowMd
  cases iterSlot alienItem content with
  | error e => rfl
  | ok l =>
    simp only [Except.bind]
    cases rowCells ig l with
    | error e => rfl
    | ok ls =>
      simp only
      cases strJoin [' ', '|', ' '] ls <;> rfl

theorem sim_decisionItem (h : SlotRel P h0 fuel call content c) (ig : Bool) :
    Sim P h0 Eq (decisionItemMdH call c ig) (decisionItemMd content ig) := by
  refine sim_cast (sim_map (sim_content h [] ig) _) ?_
  unfold decisionItemMd
  cases contentToMarkdown [] ig content <;> rfl

theorem sim_cell (h : SlotRel P h0 fuel call content c) (ig : Bool) :
    Sim P h0 Eq (cellMdH call c ig) (cellMd content ig) := by
  refine sim_cast (sim_map (sim_content h [] ig) _) ?_
  unfold cellMd
  cases contentToMarkdown [] ig content <;> rfl

theorem sim_blockquote (h : SlotRel P h0 fuel call content c) (ig : Bool) :
    Sim P h0 Eq (blockquoteMdH fuel call c ig) (blockquoteMd content ig) := by
  refine sim_cast (sim_map (sim_docContent h ig) _) ?_
  unfold blockquoteMd
  cases docContentToMarkdown ig content <;> rfl

theorem sim_paragraph (env : Env) {marks marks' : Slot (List Mark)} (hm : SameStyle marks marks') (h : SlotRel P h0 fuel call content c) (ig : Bool) :
    Sim P h0 Eq (paragraphMdH env call c marks' ig) (paragraphMd env content marks ig) := by
  refine sim_bind (sim_content h [] ig) ?_
  unfold paragraphMd
  cases contentToMarkdown [] ig content with
  | error e => rfl
  | ok md =>
    rintro _ rfl
    rw [hm env]
    refine sim_bind (sim_of _) ?_
    simp only
    cases addStyle env (.str md) marks with
    | error e => rfl
    | ok v =>
      rintro _ rfl
      cases v <;> first | exact sim_pure rfl | exact sim_throw _

theorem sim_heading (attrs : Slot AttrsObj) (h : SlotRel P h0 fuel call content c) (ig : Bool) :
    Sim P h0 Eq (headingMdH call attrs c ig) (headingMd attrs content ig) := by
  refine sim_bind (sim_of _) ?_
  unfold headingMd
  cases getAttr attrs "level" with
  | error e => rfl
  | ok v =>
    rintro _ rfl
    simp only
    cases v.asInt? with
    | none => exact sim_throw _
    | some n =>
      refine sim_bind (sim_content h [] ig) ?_
      cases contentToMarkdown [] ig content with
      | error e => rfl
      | ok s => rintro _ rfl; exact sim_pure rfl

theorem sim_codeBlock (attrs : Slot AttrsObj) (h : SlotRel P h0 fuel call content c) (ig : Bool) :
    Sim P h0 Eq (codeBlockMdH call attrs c ig) (codeBlockMd attrs content ig) := by
  refine sim_bind (sim_content h [] ig) ?_
  unfold codeBlockMd
  cases contentToMarkdown [] ig content with
  | error e => rfl
  | ok code =>
    rintro _ rfl
    refine sim_bind (sim_of _) ?_
    simp only
    cases codeLang attrs with
    | error e => rfl
    | ok l => rintro _ rfl; exact sim_pure rfl

theorem sim_panel (env : Env) (attrs : Slot AttrsObj) (h : SlotRel P h0 fuel call content c) (ig : Bool) :
    Sim P h0 Eq (panelMdH env fuel call attrs c ig) (panelMd env attrs content ig) := by
  refine sim_bind (sim_of _) ?_
  unfold panelMd
  cases getAttr attrs "panelType" with
  | error e => rfl
  | ok v =>
    rintro _ rfl
    simp only
    cases v.asStr? with
    | none => exact sim_throw _
    | some n =>
      refine sim_bind (sim_docContent h ig) ?_
      cases docContentToMarkdown ig content with
      | error e => rfl
      | ok s => rintro _ rfl; exact sim_pure rfl

theorem sim_expand (env : Env) {marks marks' : Slot (List Mark)} (hm : SameStyle marks marks') (h : SlotRel P h0 fuel call content c) (ig : Bool) :
    Sim P h0 (IsJson P h0) (expandMdH env fuel call c marks' ig) (expandMd env content marks ig) := by
  refine sim_bind (sim_docContent h ig) ?_
  unfold expandMd
  cases docContentToMarkdown ig content with
  | error e => rfl
  | ok md =>
    rintro _ rfl
    rw [hm env]
    refine sim_bind (sim_of _) ?_
    simp only
    cases hv : addStyle env (.str md) marks with
    | error e => rfl
    | ok v =>
      rintro _ rfl
      obtain ⟨s, rfl⟩ := addStyle_str env marks md v hv
      exact sim_pure (json_str _)

theorem sim_text (env : Env) {marks marks' : Slot (List Mark)} (hm : SameStyle marks marks') {x : Option HV} {o : Option Val}
    (h : IsPlain P h0 x o) (hf : (o.map depth).getD 0 ≤ fuel) :
    Sim P h0 (IsJson P h0) (textMdH env fuel x marks') (textMd env o marks) := by
  cases o with
  | none => cases (h : x = none); exact sim_throw _
  | some v =>
    obtain ⟨y, rfl, hy⟩ := h
    refine sim_eq (sim_val v fuel y hy hf) ?_
    unfold textMd
    rw [hm env]
    refine sim_bind (sim_of _) ?_
    simp only
    cases hr : addStyle env v marks with
    | error e => rfl
    | ok r =>
      rintro _ rfl
      refine sim_pure ?_
      rcases addStyle_self env marks v r hr with rfl | ⟨s, rfl⟩
      · cases r with
        | str s => exact json_str s
        | _ => exact hy
      · exact json_str s

theorem dispatch_cong (env : Env) (hd : Hd) {marks : Slot (List Mark)} (hm : SameStyle hd.marks marks) (content : Slot (List Item))
    (level : Option Int) (ig : Bool) : dispatch env { hd with marks := marks } content level ig = dispatch env hd content level ig := by
  obtain ⟨cls, type, version, text, attrs, ms⟩ := hd
  replace hm : ∀ md, addStyle env md marks = addStyle env md ms := hm env
  cases cls with
  | text => cases text <;> simp only [dispatch, textMd, hm]
  | _ => simp only [dispatch, paragraphMd, expandMd, mediaMd, hm]

theorem sim_leaf (env : Env) {hd hd' : Hd} (content : Slot (List Item)) (level : Option Int) (ig : Bool)
    (ht : hd.cls ≠ .text) (e : dispatch env hd' .absent level ig = dispatch env hd content level ig) :
    Sim P h0 (IsJson P h0) ((Prog.ofExcept (dispatch env hd' .absent level ig)).bind fun v => Prog.pure (strOr (.imm .none) v))
      (dispatch env hd content level ig) := by
  rw [e]
  refine sim_bind (sim_of _) ?_
  cases hv : dispatch env hd content level ig with
  | error e => rfl
  | ok v =>
    rintro _ rfl
    obtain ⟨s, rfl⟩ := dispatch_str env hd content level ig v hv fun h => absurd h ht
    exact sim_pure (json_str s)

/-- The body of `to_markdown` does what the value model says. -/
theorem sim_body (env : Env) {hd : Hd} {marks : Slot (List Mark)} (hm : SameStyle hd.marks marks) {items : List (String × HV)}
    (h : SlotRel P h0 fuel call content (itemGet items "content")) (ht : IsPlain P h0 (itemGet items "text") hd.text)
    (hf : (hd.text.map depth).getD 0 ≤ fuel) (level : Option Int) (ig : Bool) (hl : (level.isSome && !hd.cls.takesLevel) = false) :
    Sim P h0 (IsJson P h0) (bodyH env fuel call { hd with marks := marks } items level ig) (dispatch env hd content level ig) := by
  have hc := dispatch_cong env hd hm .absent level ig
  obtain ⟨cls, type, version, text, attrs, ms⟩ := hd
  cases cls with
  | text => exact sim_cast (sim_text env hm ht hf) (by unfold dispatch; rw [if_neg (by simp [hl])])
  | expand => exact sim_cast (sim_expand env hm h ig) (by unfold dispatch; rw [if_neg (by simp [hl])])
  | doc => exact sim_cast (sim_str (sim_docContent h ig)) (by unfold dispatch; rw [if_neg (by simp [hl])])
  | nestedExpand => exact sim_cast (sim_str (sim_docContent h ig)) (by unfold dispatch; rw [if_neg (by simp [hl])])
  | listItem => exact sim_cast (sim_str (sim_content h [] ig)) (by unfold dispatch; rw [if_neg (by simp [hl])])
  | taskItem => exact sim_cast (sim_str (sim_content h [] ig)) (by unfold dispatch; rw [if_neg (by simp [hl])])
  | mediaSingle => exact sim_cast (sim_str (sim_content h [] ig)) (by unfold dispatch; rw [if_neg (by simp [hl])])
  | bulletList => exact sim_cast (sim_str (sim_bullet h _ ig)) (by unfold dispatch; rw [if_neg (by simp [hl])])
  | orderedList => exact sim_cast (sim_str (sim_ordered env attrs h _ ig)) (by unfold dispatch; rw [if_neg (by simp [hl])])
  | taskList => exact sim_cast (sim_str (sim_task h _ ig)) (by unfold dispatch; rw [if_neg (by simp [hl])])
  | paragraph => exact sim_cast (sim_str (sim_paragraph env hm h ig)) (by unfold dispatch; rw [if_neg (by simp [hl])])
  | decisionItem => exact sim_cast (sim_str (sim_decisionItem h ig)) (by unfold dispatch; rw [if_neg (by simp [hl])])
  | decisionList => exact sim_cast (sim_str (sim_decisionList h ig)) (by unfold dispatch; rw [if_neg (by simp [hl])])
  | heading => exact sim_cast (sim_str (sim_heading attrs h ig)) (by unfold dispatch; rw [if_neg (by simp [hl])])
  | codeBlock => exact sim_cast (sim_str (sim_codeBlock attrs h ig)) (by unfold dispatch; rw [if_neg (by simp [hl])])
  | panel => exact sim_cast (sim_str (sim_panel env attrs h ig)) (by unfold dispatch; rw [if_neg (by simp [hl])])
  | blockquote => exact sim_cast (sim_str (sim_blockquote h ig)) (by unfold dispatch; rw [if_neg (by simp [hl])])
  | tableCell => exact sim_cast (sim_str (sim_cell h ig)) (by unfold dispatch; rw [if_neg (by simp [hl])])
  | tableHeader => exact sim_cast (sim_str (sim_cell h ig)) (by unfold dispatch; rw [if_neg (by simp [hl])])
  | tableRow => exact sim_cast (sim_str (sim_row h ig)) (by unfold dispatch; rw [if_neg (by simp [hl])])
  | table => exact sim_cast (sim_str (sim_table h ig)) (by unfold dispatch; rw [if_neg (by simp [hl])])
  | _ => exact sim_leaf env content level ig (by simp) hc

end Verif.HeapMd
