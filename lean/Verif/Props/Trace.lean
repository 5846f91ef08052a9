import Verif.Model.Trace
import Verif.Spec.Trace
import Verif.Props.Failure
/-!
# C103: each node is converted at most once
-/

namespace Verif.Trace
open Verif Verif.TraceSpec

/-! ## Without the record these are the functions of `Model/Markdown` -/

theorem out_of {α : Type} (x : Except PyErr α) : (Tr.of x).out = x := rfl

theorem log_of {α : Type} (x : Except PyErr α) : (Tr.of x).log = [] := rfl

theorem out_bind {α β : Type} (x : Tr α) (f : α → Tr β) :
    (x.bind f).out = match x.out with | .error e => .error e | .ok a => (f a).out := by
  unfold Tr.bind; cases x.out <;> rfl

theorem log_bind {α β : Type} (x : Tr α) (f : α → Tr β) :
    (x.bind f).log = x.log ++ match x.out with | .error _ => [] | .ok a => (f a).log := by
  unfold Tr.bind; cases x.out <;> simp

theorem out_map {α β : Type} (f : α → β) (x : Tr α) :
    (x.map f).out = match x.out with | .error e => .error e | .ok a => .ok (f a) := by
  unfold Tr.map; rw [out_bind]; rfl

theorem log_map {α β : Type} (f : α → β) (x : Tr α) : (x.map f).log = x.log := by
  unfold Tr.map; rw [log_bind]; cases x.out <;> simp [log_of]

theorem out_tryElse {α β : Type} (x : Tr α) (f : α → Tr β) (g : PyErr → Tr β) :
    (x.tryElse f g).out = match x.out with | .error e => (g e).out | .ok a => (f a).out := by
  unfold Tr.tryElse; cases x.out <;> rfl

theorem log_tryElse {α β : Type} (x : Tr α) (f : α → Tr β) (g : PyErr → Tr β) :
    (x.tryElse f g).log = x.log ++ match x.out with | .error e => (g e).log | .ok a => (f a).log := by
  unfold Tr.tryElse; cases x.out <;> rfl

local macro "same" : tactic => `(tactic| repeat' (first | rfl | (split <;> simp only [out_of, out_map, *])))

/-- A child without the record. -/
def forget (k : TKid) : Kid := ⟨k.isNode, k.type, fun l g => (k.render l g).out⟩

def forgetItem (k : TItem) : Item := { forget k.toTKid with attrs := k.attrs, content := plainKids k.content }

def forgetSlot : Slot (List TItem) → Slot (List Item)
  | .absent => .absent
  | .opt => .opt
  | .raw v => .raw v
  | .val l => .val (l.map forgetItem)

theorem forget_alien : forget alienTKid = alienKid := rfl

theorem forgetItem_alien : forgetItem alienTItem = alienItem := rfl

theorem iter_items (s : Slot (List TItem)) :
    iterSlot alienItem (forgetSlot s) = (iterSlot alienTItem s).map (List.map forgetItem) := by
  cases s with
  | raw v =>
    simp only [forgetSlot, iterSlot]
    cases v.iterLen with
    | error e => rfl
    | ok n => simp [Except.map, forgetItem_alien]
  | _ => rfl

theorem iter_kids (s : Slot (List TKid)) :
    iterSlot alienKid (plainKids s) = (iterSlot alienTKid s).map (List.map forget) := by
  cases s with
  | raw v =>
    simp only [plainKids, iterSlot]
    cases v.iterLen with
    | error e => rfl
    | ok n => simp [Except.map, forget_alien]
  | _ => rfl

theorem out_collectPre {α α' β γ : Type} (ig : Bool) (pre : α → Except PyErr γ) (f : γ → α → Tr β)
    (er : α → α') (pre' : α' → Except PyErr γ) (f' : γ → α' → Except PyErr β)
    (hp : ∀ a, pre' (er a) = pre a) (hf : ∀ c a, f' c (er a) = (f c a).out) (l : List α) :
    (collectPreT ig pre f l).out = collectPre ig pre' f' (l.map er) := by
  induction l with
  | nil => rfl
  | cons a as ih =>
    simp only [collectPreT, List.map_cons, collectPre, out_bind, out_of, hp]
    cases pre a with
    | error e => rfl
    | ok c =>
      simp only [out_tryElse, hf]
      cases (f c a).out with
      | error e => cases ig <;> simp [ih, out_of]
      | ok b => simp only [out_map, ih]; same

theorem out_collect {α α' β : Type} (ig : Bool) (f : α → Tr β) (er : α → α') (f' : α' → Except PyErr β)
    (hf : ∀ a, f' (er a) = (f a).out) (l : List α) : (collectT ig f l).out = collect ig f' (l.map er) :=
  out_collectPre ig (fun _ => .ok ()) (fun _ a => f a) er (fun _ => .ok ()) (fun _ a => f' a) (fun _ => rfl) (fun _ a => hf a) l

theorem out_content_body (concat : Str) (ig : Bool) (s : Slot (List TItem)) :
    (contentBodyT concat ig s).out = contentToMarkdown concat ig (forgetSlot s) := by
  have key : ∀ s : Slot (List TItem), ((Tr.of (iterSlot alienTItem s)).bind fun items =>
      (collectT ig (fun (k : TItem) => k.render none false) items).bind fun lst => .of (strJoin concat lst)).out =
      match iterSlot alienItem (forgetSlot s) with
      | .error e => .error e
      | .ok items =>
        match collect ig (fun (k : Item) => k.render none false) items with
        | .error e => .error e
        | .ok lst => strJoin concat lst := by
    intro s
    rw [out_bind, out_of, iter_items]
    cases iterSlot alienTItem s with
    | error e => rfl
    | ok items =>
      simp only [Except.map]
      rw [out_bind, out_collect ig _ forgetItem (fun (k : Item) => k.render none false) (fun _ => rfl)]
      same
  cases s with
  | opt => rfl
  | _ => exact key _

theorem out_content (concat : Str) (ig : Bool) (s : Slot (List TItem)) :
    (contentToMarkdownT concat ig s).out = contentToMarkdown concat ig (forgetSlot s) :=
  out_content_body concat ig s

theorem out_docBlock (k : TItem) : (docBlockT k).out = docBlock (forgetItem k) := by
  unfold docBlockT docBlock
  rw [out_bind, out_of]
  have h : (forgetItem k).toKid.isTypeOf [.bulletList, .orderedList, .codeBlock] = k.toTKid.isTypeOf [.bulletList, .orderedList, .codeBlock] := rfl
  have hr : (forgetItem k).render none false = (k.render none false).out := rfl
  rw [h, hr]
  cases k.toTKid.isTypeOf [.bulletList, .orderedList, .codeBlock] with
  | error e => rfl
  | ok b => cases b <;> simp [out_bind, out_of] <;> same

theorem out_docContent_body (ig : Bool) (s : Slot (List TItem)) :
    (docContentBodyT ig s).out = docContentToMarkdown ig (forgetSlot s) := by
  have key : ∀ s : Slot (List TItem), ((Tr.of (iterSlot alienTItem s)).bind fun items =>
      (collectT ig docBlockT items).bind fun lst => (Tr.of (strJoin [Str.nl] lst)).map (stripDoubleEmptyLine 3)).out =
      match iterSlot alienItem (forgetSlot s) with
      | .error e => .error e
      | .ok items =>
        match collect ig docBlock items with
        | .error e => .error e
        | .ok lst =>
          match strJoin [Str.nl] lst with
          | .error e => .error e
          | .ok s => .ok (stripDoubleEmptyLine 3 s) := by
    intro s
    rw [out_bind, out_of, iter_items]
    cases iterSlot alienTItem s with
    | error e => rfl
    | ok items =>
      simp only [Except.map]
      rw [out_bind, out_collect ig _ forgetItem docBlock (fun k => (out_docBlock k).symm)]
      cases collect ig docBlock (items.map forgetItem) with
      | error e => rfl
      | ok lst => simp only [out_map, out_of]; same
  cases s with
  | opt => rfl
  | _ => exact key _

theorem out_docContent (ig : Bool) (s : Slot (List TItem)) :
    (docContentToMarkdownT ig s).out = docContentToMarkdown ig (forgetSlot s) :=
  out_docContent_body ig s

theorem out_listItemChild (level : Int) (nested : Bool) (k : TKid) :
    (listItemChildT level nested k).out = listItemChild level nested (forget k) := by
  cases nested
  · simp only [listItemChildT, listItemChild, forget, Bool.false_eq_true, if_false, out_bind, out_map, out_of]
    same
  · rfl

theorem out_listItemContent (kind : TypeEnum) (level : Int) (ig : Bool) (item : TItem) :
    (listItemContentT kind level ig item).out = listItemContent kind level ig (forgetItem item) := by
  unfold listItemContentT listItemContent
  rw [out_bind, out_of]
  have h : (forgetItem item).content = plainKids item.content := rfl
  rw [h, iter_kids]
  cases iterSlot alienTKid item.content with
  | error e => rfl
  | ok kids =>
    simp only [Except.map]
    rw [out_bind, out_collectPre ig (fun (k : TKid) => k.isTypeOf [kind]) _ forget (fun (k : Kid) => k.isTypeOf [kind]) (listItemChild level) (fun _ => rfl)
      (fun c a => (out_listItemChild level c a).symm)]
    same

theorem out_bulletLines (level : Int) (ig : Bool) (l : List TItem) :
    (bulletLinesT level ig l).out = bulletLines level ig (l.map forgetItem) := by
  induction l with
  | nil => rfl
  | cons item items ih =>
    simp only [bulletLinesT, List.map_cons, bulletLines, out_bind, out_of]
    rw [show (forgetItem item).toKid.isTypeOf [.listItem] = item.toTKid.isTypeOf [.listItem] from rfl]
    cases item.toTKid.isTypeOf [.listItem] with
    | error e => rfl
    | ok b =>
      cases b
      · simpa using ih
      · simp only [if_true, out_bind, out_listItemContent, out_map, ih]; same

theorem out_bulletList (s : Slot (List TItem)) (level : Int) (ig : Bool) :
    (bulletListMdT s level ig).out = bulletListMd (forgetSlot s) level ig := by
  unfold bulletListMdT bulletListMd
  rw [out_bind, out_of, iter_items]
  cases iterSlot alienTItem s with
  | error e => rfl
  | ok items => simp only [Except.map, out_map, out_bulletLines]; same

theorem out_orderedLines (env : Env) (level : Int) (ig : Bool) (l : List TItem) : ∀ num : Val,
    (orderedLinesT env level ig num l).out = orderedLines env level ig num (l.map forgetItem) := by
  induction l with
  | nil => intro _; rfl
  | cons item items ih =>
    intro num
    simp only [orderedLinesT, List.map_cons, orderedLines, out_bind, out_of]
    rw [show (forgetItem item).toKid.isTypeOf [.listItem] = item.toTKid.isTypeOf [.listItem] from rfl]
    cases item.toTKid.isTypeOf [.listItem] with
    | error e => rfl
    | ok b =>
      cases b
      · simpa using ih num
      · simp only [if_true, out_bind, out_listItemContent, out_map, ih]; same

theorem out_orderedList (env : Env) (attrs : Slot AttrsObj) (s : Slot (List TItem)) (level : Int) (ig : Bool) :
    (orderedListMdT env attrs s level ig).out = orderedListMd env attrs (forgetSlot s) level ig := by
  unfold orderedListMdT orderedListMd
  rw [out_bind, out_of]
  cases orderedStart attrs level with
  | error e => rfl
  | ok start =>
    simp only [out_bind, out_of, iter_items]
    cases iterSlot alienTItem s with
    | error e => rfl
    | ok items => simp only [Except.map, out_map, out_orderedLines]; same

theorem out_taskItemLine (level : Int) (ig : Bool) (item : TItem) :
    (taskItemLineT level ig item).out = taskItemLine level ig (forgetItem item) := by
  unfold taskItemLineT taskItemLine
  rw [out_bind, out_of]
  have h : (forgetItem item).content = plainKids item.content := rfl
  rw [h, iter_kids]
  cases iterSlot alienTKid item.content with
  | error e => rfl
  | ok kids =>
    simp only [Except.map]
    rw [out_bind, out_collect ig _ forget (fun (k : Kid) => k.render none false) (fun _ => rfl)]
    cases collect ig (fun (k : Kid) => k.render none false) (kids.map forget) with
    | error e => rfl
    | ok parts =>
      simp only [out_bind, out_of, out_map]
      rw [show (forgetItem item).attrs = item.attrs from rfl]
      same

theorem out_taskLines (level : Int) (ig : Bool) (l : List TItem) :
    (taskLinesT level ig l).out = taskLines level ig (l.map forgetItem) := by
  induction l with
  | nil => rfl
  | cons item items ih =>
    simp only [taskLinesT, List.map_cons, taskLines, out_bind, out_of]
    rw [show (forgetItem item).toKid.isTypeOf [.taskItem] = item.toTKid.isTypeOf [.taskItem] from rfl]
    cases item.toTKid.isTypeOf [.taskItem] with
    | error e => rfl
    | ok b =>
      cases b
      · simp only [Bool.false_eq_true, if_false, out_bind, out_of]
        rw [show (forgetItem item).toKid.isTypeOf [.taskList] = item.toTKid.isTypeOf [.taskList] from rfl]
        cases item.toTKid.isTypeOf [.taskList] with
        | error e => rfl
        | ok b =>
          cases b
          · simpa using ih
          · simp only [if_true, out_tryElse]
            rw [show (forgetItem item).render (some (level + 1)) ig = (item.render (some (level + 1)) ig).out from rfl]
            cases (item.render (some (level + 1)) ig).out with
            | error e => cases ig <;> simp [out_of, ih]
            | ok md => simp only [out_map, ih]; same
      · simp only [if_true, out_bind, out_taskItemLine, out_map, ih]
        same

theorem out_taskList (s : Slot (List TItem)) (level : Int) (ig : Bool) :
    (taskListMdT s level ig).out = taskListMd (forgetSlot s) level ig := by
  unfold taskListMdT taskListMd
  rw [out_bind, out_of, iter_items]
  cases iterSlot alienTItem s with
  | error e => rfl
  | ok items => simp only [Except.map, out_bind, out_of, out_taskLines]; same

theorem out_decisionItem (s : Slot (List TItem)) (ig : Bool) :
    (decisionItemMdT s ig).out = decisionItemMd (forgetSlot s) ig := by
  unfold decisionItemMdT decisionItemMd
  rw [out_map, out_content]
  same

theorem out_decisionBlocks (ig : Bool) (l : List TItem) :
    (decisionBlocksT ig l).out = decisionBlocks ig (l.map forgetItem) := by
  induction l with
  | nil => rfl
  | cons item items ih =>
    simp only [decisionBlocksT, List.map_cons, decisionBlocks, out_bind, out_of]
    rw [show (forgetItem item).toKid.isTypeOf [.decisionItem] = item.toTKid.isTypeOf [.decisionItem] from rfl]
    cases item.toTKid.isTypeOf [.decisionItem] with
    | error e => rfl
    | ok b =>
      cases b
      · simpa using ih
      · simp only [if_true, out_tryElse]
        rw [show (forgetItem item).render none ig = (item.render none ig).out from rfl]
        cases (item.render none ig).out with
        | error e => cases ig <;> simp [out_of, ih]
        | ok md => simp only [out_map, ih]; same

theorem out_decisionList (s : Slot (List TItem)) (ig : Bool) :
    (decisionListMdT s ig).out = decisionListMd (forgetSlot s) ig := by
  unfold decisionListMdT decisionListMd
  rw [out_bind, out_of, iter_items]
  cases iterSlot alienTItem s with
  | error e => rfl
  | ok items => simp only [Except.map, out_bind, out_of, out_decisionBlocks]; same

theorem out_cell (s : Slot (List TItem)) (ig : Bool) : (cellMdT s ig).out = cellMd (forgetSlot s) ig := by
  unfold cellMdT cellMd
  rw [out_map, out_content]
  same

theorem out_rowCells (ig : Bool) (l : List TItem) : (rowCellsT ig l).out = rowCells ig (l.map forgetItem) := by
  induction l with
  | nil => rfl
  | cons k ks ih =>
    simp only [rowCellsT, List.map_cons, rowCells, out_bind, out_map, ih]
    rw [show (forgetItem k).render none ig = (k.render none ig).out from rfl]
    same

theorem out_tableRow (s : Slot (List TItem)) (ig : Bool) : (tableRowMdT s ig).out = tableRowMd (forgetSlot s) ig := by
  unfold tableRowMdT tableRowMd
  rw [out_bind, out_of, iter_items]
  cases iterSlot alienTItem s with
  | error e => rfl
  | ok items => simp only [Except.map, out_bind, out_of, out_map, out_rowCells]; same

theorem out_tableLines (ig : Bool) (l : List TItem) : (tableLinesT ig l).out = tableLines ig (l.map forgetItem) := by
  induction l with
  | nil => rfl
  | cons row rows ih =>
    simp only [tableLinesT, List.map_cons, tableLines, out_tryElse]
    rw [show (forgetItem row).render none false = (row.render none false).out from rfl,
      show (forgetItem row).content = plainKids row.content from rfl]
    cases (row.render none false).out with
    | error e => cases ig <;> simp [out_of, ih]
    | ok md =>
      simp only [out_of]
      cases headerWidth (plainKids row.content) with
      | error e => cases ig <;> simp [out_of, out_map, ih]; same
      | ok w =>
        simp only [out_map, ih]
        cases tableLines ig (rows.map forgetItem) with
        | error e => rfl
        | ok rest => cases w <;> rfl

theorem out_table (s : Slot (List TItem)) (ig : Bool) : (tableMdT s ig).out = tableMd (forgetSlot s) ig := by
  unfold tableMdT tableMd
  rw [out_bind, out_of, iter_items]
  cases iterSlot alienTItem s with
  | error e => rfl
  | ok items => simp only [Except.map, out_bind, out_of, out_tableLines]; same

theorem out_paragraph (env : Env) (s : Slot (List TItem)) (marks : Slot (List Mark)) (ig : Bool) :
    (paragraphMdT env s marks ig).out = paragraphMd env (forgetSlot s) marks ig := by
  unfold paragraphMdT paragraphMd
  rw [out_bind, out_content]
  cases contentToMarkdown [] ig (forgetSlot s) with
  | error e => rfl
  | ok md =>
    simp only [out_bind, out_of]
    cases addStyle env (.str md) marks with
    | error e => rfl
    | ok v => cases v <;> rfl

theorem out_heading (attrs : Slot AttrsObj) (s : Slot (List TItem)) (ig : Bool) :
    (headingMdT attrs s ig).out = headingMd attrs (forgetSlot s) ig := by
  unfold headingMdT headingMd
  rw [out_bind, out_of]
  cases getAttr attrs "level" with
  | error e => rfl
  | ok level =>
    simp only
    cases level.asInt? with
    | none => rfl
    | some n => simp only [out_map, out_content]; same

theorem out_codeBlock (attrs : Slot AttrsObj) (s : Slot (List TItem)) (ig : Bool) :
    (codeBlockMdT attrs s ig).out = codeBlockMd attrs (forgetSlot s) ig := by
  unfold codeBlockMdT codeBlockMd
  rw [out_bind, out_content]
  simp only [out_map, out_of]
  same

theorem out_blockquote (s : Slot (List TItem)) (ig : Bool) : (blockquoteMdT s ig).out = blockquoteMd (forgetSlot s) ig := by
  unfold blockquoteMdT blockquoteMd
  rw [out_map, out_docContent]
  same

theorem out_panel (env : Env) (attrs : Slot AttrsObj) (s : Slot (List TItem)) (ig : Bool) :
    (panelMdT env attrs s ig).out = panelMd env attrs (forgetSlot s) ig := by
  unfold panelMdT panelMd
  rw [out_bind, out_of]
  cases getAttr attrs "panelType" with
  | error e => rfl
  | ok pt =>
    simp only
    cases pt.asStr? with
    | none => rfl
    | some ptype => simp only [out_map, out_docContent]; same

theorem out_expand (env : Env) (s : Slot (List TItem)) (marks : Slot (List Mark)) (ig : Bool) :
    (expandMdT env s marks ig).out = expandMd env (forgetSlot s) marks ig := by
  unfold expandMdT expandMd
  rw [out_bind, out_docContent]
  same

theorem out_strVal (x : Tr Str) : (strValT x).out = strVal x.out := by
  unfold strValT strVal
  rw [out_map]
  same

theorem out_dispatch (env : Env) (place : List Nat) (hd : Hd) (s : Slot (List TItem)) (level : Option Int) (ig : Bool) :
    (dispatchT env place hd s level ig).out = dispatch env hd (forgetSlot s) level ig := by
  unfold dispatchT
  by_cases hl : (level.isSome && !hd.cls.takesLevel) = true
  · rw [if_pos hl, dispatch, if_pos hl]; rfl
  · rw [if_neg hl]
    show (bodyT env hd s level ig).out = _
    rw [dispatch, if_neg hl]
    unfold bodyT
    cases hc : hd.cls <;>
      simp only [out_strVal, out_docContent, out_content, out_bulletList, out_orderedList, out_paragraph, out_taskList, out_decisionItem,
        out_decisionList, out_heading, out_codeBlock, out_panel, out_blockquote, out_expand, out_cell, out_tableRow, out_table, out_of] <;>
      (rw [dispatch, if_neg hl, hc])

theorem forget_kidsOf (s : Slot (List TItem)) : plainKids (kidsOfT s) = kidsOf (forgetSlot s) := by
  cases s with
  | val l =>
    simp only [kidsOfT, plainKids, forgetSlot, kidsOf, List.map_map]
    rfl
  | _ => rfl

mutual
theorem forget_item (env : Env) (p : List Nat) : (n : Node) → forgetItem (itemT env p n) = n.item env
  | .mk hd content => by
    have hs := forget_slot env p content
    simp only [itemT, Node.item, forgetItem, forget, forget_kidsOf, hs, out_dispatch]

theorem forget_slot (env : Env) (p : List Nat) : (s : Slot (List Node)) → forgetSlot (slotT env p s) = slotItems env s
  | .absent => rfl
  | .opt => rfl
  | .raw _ => rfl
  | .val l => by
    simp only [slotT, forgetSlot, slotItems]
    rw [forget_list env p 0 l]

theorem forget_list (env : Env) (p : List Nat) : (i : Nat) → (l : List Node) → (listT env p i l).map forgetItem = listItems env l
  | _, [] => rfl
  | i, n :: ns => by
    simp only [listT, List.map_cons, listItems]
    rw [forget_item env (p ++ [i]) n, forget_list env p (i + 1) ns]
end

theorem C103_same (env : Env) (n : Node) (level : Option Int) (ig : Bool) :
    (markdownT env n level ig).out = n.toMarkdownAt env level ig := by
  have h := congrArg (fun k : Item => k.render level ig) (forget_item env [] n)
  exact h

/-! ## The calls are some of the places, in their order -/

/-- The calls of these children are among `b`, in this order, each child in its part of `b`. -/
inductive KidsIn : List TKid → List (List Nat) → Prop where
  | nil : KidsIn [] []
  | cons {k : TKid} {ks : List TKid} {a b : List (List Nat)} :
      (∀ l g, ((k.render l g).log).Sublist a) → KidsIn ks b → KidsIn (k :: ks) (a ++ b)

def KidsSlotIn : Slot (List TKid) → List (List Nat) → Prop
  | .val l, b => KidsIn l b
  | _, _ => True

/-- The same with the children's children. -/
inductive ItemsIn : List TItem → List (List Nat) → Prop where
  | nil : ItemsIn [] []
  | cons {k : TItem} {ks : List TItem} {a b : List (List Nat)} :
      (∀ l g, ((k.render l g).log).Sublist a) → (∃ c, c.Sublist a ∧ KidsSlotIn k.content c) → ItemsIn ks b → ItemsIn (k :: ks) (a ++ b)

def SlotIn : Slot (List TItem) → List (List Nat) → Prop
  | .val l, b => ItemsIn l b
  | _, _ => True

theorem kidsIn_alien (n : Nat) : KidsIn (List.replicate n alienTKid) [] := by
  induction n with
  | zero => exact .nil
  | succ n ih => exact .cons (a := []) (fun _ _ => List.Sublist.refl _) ih

theorem itemsIn_alien (n : Nat) : ItemsIn (List.replicate n alienTItem) [] := by
  induction n with
  | zero => exact .nil
  | succ n ih => exact .cons (a := []) (fun _ _ => List.Sublist.refl _) ⟨[], List.Sublist.refl _, trivial⟩ ih

theorem iter_kidsIn {s : Slot (List TKid)} {b : List (List Nat)} (h : KidsSlotIn s b) {l : List TKid}
    (hl : iterSlot alienTKid s = .ok l) : ∃ c, c.Sublist b ∧ KidsIn l c := by
  cases s with
  | val m => cases hl; exact ⟨b, List.Sublist.refl _, h⟩
  | raw v =>
    simp only [iterSlot] at hl
    cases hv : v.iterLen with
    | error e => rw [hv] at hl; cases hl
    | ok n => rw [hv] at hl; cases hl; exact ⟨[], List.nil_sublist _, kidsIn_alien n⟩
  | opt => cases hl
  | absent => cases hl

theorem iter_itemsIn {s : Slot (List TItem)} {b : List (List Nat)} (h : SlotIn s b) {l : List TItem}
    (hl : iterSlot alienTItem s = .ok l) : ∃ c, c.Sublist b ∧ ItemsIn l c := by
  cases s with
  | val m => cases hl; exact ⟨b, List.Sublist.refl _, h⟩
  | raw v =>
    simp only [iterSlot] at hl
    cases hv : v.iterLen with
    | error e => rw [hv] at hl; cases hl
    | ok n => rw [hv] at hl; cases hl; exact ⟨[], List.nil_sublist _, itemsIn_alien n⟩
  | opt => cases hl
  | absent => cases hl

theorem log_of_bind {α β : Type} {x : Except PyErr α} {f : α → Tr β} {b : List (List Nat)}
    (h : ∀ a, x = .ok a → ((f a).log).Sublist b) : (((Tr.of x).bind f).log).Sublist b := by
  rw [log_bind, log_of, out_of, List.nil_append]
  cases x with
  | error e => exact List.nil_sublist _
  | ok a => exact h a rfl

theorem log_bind_of {α β : Type} {x : Tr α} {f : α → Tr β} (h : ∀ a, (f a).log = []) : (x.bind f).log = x.log := by
  rw [log_bind]
  cases x.out with
  | error e => exact List.append_nil _
  | ok a => simp only [h, List.append_nil]

theorem log_bind_seq {α β : Type} {x : Tr α} {f : α → Tr β} {a b : List (List Nat)} (hx : x.log.Sublist a)
    (h : ∀ v, ((f v).log).Sublist b) : ((x.bind f).log).Sublist (a ++ b) := by
  rw [log_bind]
  refine hx.append ?_
  cases x.out with
  | error e => exact List.nil_sublist _
  | ok v => exact h v

theorem log_tryElse_seq {α β : Type} {x : Tr α} {f : α → Tr β} {g : PyErr → Tr β} {a b : List (List Nat)} (hx : x.log.Sublist a)
    (h : ∀ v, ((f v).log).Sublist b) (hg : ∀ e, ((g e).log).Sublist b) : ((x.tryElse f g).log).Sublist (a ++ b) := by
  rw [log_tryElse]
  refine hx.append ?_
  cases x.out with
  | error e => exact hg e
  | ok v => exact h v

theorem log_if {α : Type} {c : Bool} {x y : Tr α} {b : List (List Nat)} (hx : x.log.Sublist b) (hy : y.log.Sublist b) :
    ((if c then x else y).log).Sublist b := by
  cases c
  · exact hy
  · exact hx

theorem log_nil {α : Type} (x : Except PyErr α) (b : List (List Nat)) : ((Tr.of x).log).Sublist b := List.nil_sublist _

theorem in_collectKids {β γ : Type} (ig : Bool) (pre : TKid → Except PyErr γ) (f : γ → TKid → Tr β)
    (hf : ∀ c k b, (∀ l g, ((k.render l g).log).Sublist b) → ((f c k).log).Sublist b) {l : List TKid} {b : List (List Nat)}
    (h : KidsIn l b) : ((collectPreT ig pre f l).log).Sublist b := by
  induction h with
  | nil => exact log_nil _ _
  | cons hk _ ih =>
    refine log_of_bind fun c _ => log_tryElse_seq (hf _ _ _ hk) (fun v => ?_) fun e => log_if ih (log_nil _ _)
    rw [log_map]; exact ih

theorem in_collectItems {β : Type} (ig : Bool) (f : TItem → Tr β)
    (hf : ∀ (k : TItem) b, (∀ l g, ((k.render l g).log).Sublist b) → ((f k).log).Sublist b) {l : List TItem} {b : List (List Nat)}
    (h : ItemsIn l b) : ((collectT ig f l).log).Sublist b := by
  induction h with
  | nil => exact log_nil _ _
  | cons hk _ _ ih =>
    refine log_of_bind fun c _ => log_tryElse_seq (hf _ _ hk) (fun v => ?_) fun e => log_if ih (log_nil _ _)
    rw [log_map]; exact ih

theorem in_content_body (concat : Str) (ig : Bool) {s : Slot (List TItem)} {b : List (List Nat)} (h : SlotIn s b) :
    ((contentBodyT concat ig s).log).Sublist b := by
  have key : ∀ s : Slot (List TItem), SlotIn s b → (((Tr.of (iterSlot alienTItem s)).bind fun items =>
      (collectT ig (fun (k : TItem) => k.render none false) items).bind fun lst => .of (strJoin concat lst)).log).Sublist b := by
    intro s h
    refine log_of_bind fun l hl => ?_
    obtain ⟨c, hc, hi⟩ := iter_itemsIn h hl
    rw [log_bind_of (fun _ => rfl)]
    exact (in_collectItems ig _ (fun k b hk => hk _ _) hi).trans hc
  cases s with
  | opt => exact log_nil _ _
  | _ => exact key _ h

theorem in_content (concat : Str) (ig : Bool) {s : Slot (List TItem)} {b : List (List Nat)} (h : SlotIn s b) :
    ((contentToMarkdownT concat ig s).log).Sublist b :=
  in_content_body concat ig h

theorem in_docBlock (k : TItem) (b : List (List Nat)) (hk : ∀ l g, ((k.render l g).log).Sublist b) : ((docBlockT k).log).Sublist b := by
  refine log_of_bind fun c _ => log_if ?_ (hk _ _)
  rw [log_bind_of (fun _ => rfl)]
  exact hk _ _

theorem in_docContent_body (ig : Bool) {s : Slot (List TItem)} {b : List (List Nat)} (h : SlotIn s b) :
    ((docContentBodyT ig s).log).Sublist b := by
  have key : ∀ s : Slot (List TItem), SlotIn s b → (((Tr.of (iterSlot alienTItem s)).bind fun items =>
      (collectT ig docBlockT items).bind fun lst => (Tr.of (strJoin [Str.nl] lst)).map (stripDoubleEmptyLine 3)).log).Sublist b := by
    intro s h
    refine log_of_bind fun l hl => ?_
    obtain ⟨c, hc, hi⟩ := iter_itemsIn h hl
    rw [log_bind_of (fun _ => by rw [log_map]; rfl)]
    exact (in_collectItems ig _ in_docBlock hi).trans hc
  cases s with
  | opt => exact log_nil _ _
  | _ => exact key _ h

theorem in_docContent (ig : Bool) {s : Slot (List TItem)} {b : List (List Nat)} (h : SlotIn s b) :
    ((docContentToMarkdownT ig s).log).Sublist b :=
  in_docContent_body ig h

theorem in_listItemChild (level : Int) (nested : Bool) (k : TKid) (b : List (List Nat))
    (hk : ∀ l g, ((k.render l g).log).Sublist b) : ((listItemChildT level nested k).log).Sublist b := by
  refine log_if (hk _ _) ?_
  rw [log_bind_of (fun _ => by rw [log_map]; rfl)]
  exact hk _ _

theorem in_listItemContent (kind : TypeEnum) (level : Int) (ig : Bool) {item : TItem} {b : List (List Nat)}
    (h : KidsSlotIn item.content b) : ((listItemContentT kind level ig item).log).Sublist b := by
  refine log_of_bind fun l hl => ?_
  obtain ⟨c, hc, hi⟩ := iter_kidsIn h hl
  rw [log_bind_of (fun _ => rfl)]
  exact (in_collectKids ig _ _ (in_listItemChild level) hi).trans hc

theorem sub_skip {x b : List (List Nat)} (a : List (List Nat)) (h : x.Sublist b) : x.Sublist (a ++ b) :=
  h.trans (List.sublist_append_right a b)

theorem in_bulletLines (level : Int) (ig : Bool) {l : List TItem} {b : List (List Nat)} (h : ItemsIn l b) :
    ((bulletLinesT level ig l).log).Sublist b := by
  induction h with
  | nil => exact log_nil _ _
  | cons _ hc _ ih =>
    obtain ⟨c, hca, hc⟩ := hc
    refine log_of_bind fun _ _ => log_if (log_bind_seq ((in_listItemContent _ level ig hc).trans hca) fun v => ?_) (sub_skip _ ih)
    rw [log_map]; exact ih

theorem in_bulletList (level : Int) (ig : Bool) {s : Slot (List TItem)} {b : List (List Nat)} (h : SlotIn s b) :
    ((bulletListMdT s level ig).log).Sublist b := by
  refine log_of_bind fun l hl => ?_
  obtain ⟨c, hc, hi⟩ := iter_itemsIn h hl
  rw [log_map]
  exact (in_bulletLines level ig hi).trans hc

theorem in_orderedLines (env : Env) (level : Int) (ig : Bool) {l : List TItem} {b : List (List Nat)} (h : ItemsIn l b) : ∀ num : Val,
    ((orderedLinesT env level ig num l).log).Sublist b := by
  induction h with
  | nil => intro _; exact log_nil _ _
  | cons _ hc _ ih =>
    intro num
    obtain ⟨c, hca, hc⟩ := hc
    refine log_of_bind fun _ _ => log_if (log_bind_seq ((in_listItemContent _ level ig hc).trans hca) fun v => ?_) (sub_skip _ (ih _))
    rw [log_map]; exact ih _

theorem in_orderedList (env : Env) (attrs : Slot AttrsObj) (level : Int) (ig : Bool) {s : Slot (List TItem)} {b : List (List Nat)}
    (h : SlotIn s b) : ((orderedListMdT env attrs s level ig).log).Sublist b := by
  refine log_of_bind fun _ _ => log_of_bind fun l hl => ?_
  obtain ⟨c, hc, hi⟩ := iter_itemsIn h hl
  rw [log_map]
  exact (in_orderedLines env level ig hi _).trans hc

theorem in_taskItemLine (level : Int) (ig : Bool) {item : TItem} {b : List (List Nat)}
    (h : KidsSlotIn item.content b) : ((taskItemLineT level ig item).log).Sublist b := by
  refine log_of_bind fun l hl => ?_
  obtain ⟨c, hc, hi⟩ := iter_kidsIn h hl
  rw [log_bind_of (fun _ => by
    rw [log_bind_of (fun _ => by rw [log_map]; rfl)]; rfl)]
  exact (in_collectKids ig _ _ (fun _ k b hk => hk _ _) hi).trans hc

theorem in_taskLines (level : Int) (ig : Bool) {l : List TItem} {b : List (List Nat)} (h : ItemsIn l b) :
    ((taskLinesT level ig l).log).Sublist b := by
  induction h with
  | nil => exact log_nil _ _
  | cons hk hc _ ih =>
    obtain ⟨c, hca, hc⟩ := hc
    refine log_of_bind fun _ _ => log_if (log_bind_seq ((in_taskItemLine level ig hc).trans hca) fun v => ?_)
      (log_of_bind fun _ _ => log_if (log_tryElse_seq (hk _ _) (fun v => ?_) fun e => log_if ih (log_nil _ _)) (sub_skip _ ih))
    · rw [log_map]; exact ih
    · rw [log_map]; exact ih

theorem in_taskList (level : Int) (ig : Bool) {s : Slot (List TItem)} {b : List (List Nat)} (h : SlotIn s b) :
    ((taskListMdT s level ig).log).Sublist b := by
  refine log_of_bind fun l hl => ?_
  obtain ⟨c, hc, hi⟩ := iter_itemsIn h hl
  rw [log_bind_of (fun _ => rfl)]
  exact (in_taskLines level ig hi).trans hc

theorem in_decisionItem (ig : Bool) {s : Slot (List TItem)} {b : List (List Nat)} (h : SlotIn s b) :
    ((decisionItemMdT s ig).log).Sublist b := by
  rw [decisionItemMdT, log_map]; exact in_content _ ig h

theorem in_decisionBlocks (ig : Bool) {l : List TItem} {b : List (List Nat)} (h : ItemsIn l b) :
    ((decisionBlocksT ig l).log).Sublist b := by
  induction h with
  | nil => exact log_nil _ _
  | cons hk _ _ ih =>
    refine log_of_bind fun _ _ => log_if (log_tryElse_seq (hk _ _) (fun v => ?_) fun e => log_if ih (log_nil _ _)) (sub_skip _ ih)
    rw [log_map]; exact ih

theorem in_decisionList (ig : Bool) {s : Slot (List TItem)} {b : List (List Nat)} (h : SlotIn s b) :
    ((decisionListMdT s ig).log).Sublist b := by
  refine log_of_bind fun l hl => ?_
  obtain ⟨c, hc, hi⟩ := iter_itemsIn h hl
  rw [log_bind_of (fun _ => rfl)]
  exact (in_decisionBlocks ig hi).trans hc

theorem in_cell (ig : Bool) {s : Slot (List TItem)} {b : List (List Nat)} (h : SlotIn s b) : ((cellMdT s ig).log).Sublist b := by
  rw [cellMdT, log_map]; exact in_content _ ig h

theorem in_rowCells (ig : Bool) {l : List TItem} {b : List (List Nat)} (h : ItemsIn l b) : ((rowCellsT ig l).log).Sublist b := by
  induction h with
  | nil => exact log_nil _ _
  | cons hk _ _ ih =>
    refine log_bind_seq (hk _ _) fun v => ?_
    rw [log_map]; exact ih

theorem in_tableRow (ig : Bool) {s : Slot (List TItem)} {b : List (List Nat)} (h : SlotIn s b) : ((tableRowMdT s ig).log).Sublist b := by
  refine log_of_bind fun l hl => ?_
  obtain ⟨c, hc, hi⟩ := iter_itemsIn h hl
  rw [log_bind_of (fun _ => by rw [log_map]; rfl)]
  exact (in_rowCells ig hi).trans hc

theorem in_tableLines (ig : Bool) {l : List TItem} {b : List (List Nat)} (h : ItemsIn l b) : ((tableLinesT ig l).log).Sublist b := by
  induction h with
  | nil => exact log_nil _ _
  | cons hk _ _ ih =>
    refine log_tryElse_seq (hk _ _) (fun v => ?_) fun e => log_if ih (log_nil _ _)
    refine log_tryElse_seq (a := []) (log_nil _ _) (fun w => ?_) fun e => log_if ?_ (log_nil _ _)
    · rw [log_map]; exact ih
    · rw [log_map]; exact ih

theorem in_table (ig : Bool) {s : Slot (List TItem)} {b : List (List Nat)} (h : SlotIn s b) : ((tableMdT s ig).log).Sublist b := by
  refine log_of_bind fun l hl => ?_
  obtain ⟨c, hc, hi⟩ := iter_itemsIn h hl
  rw [log_bind_of (fun _ => rfl)]
  exact (in_tableLines ig hi).trans hc

theorem in_paragraph (env : Env) (marks : Slot (List Mark)) (ig : Bool) {s : Slot (List TItem)} {b : List (List Nat)} (h : SlotIn s b) :
    ((paragraphMdT env s marks ig).log).Sublist b := by
  rw [paragraphMdT, log_bind_of (fun md => ?_)]
  · exact in_content _ ig h
  · rw [log_bind_of (fun v => ?_)]
    · rfl
    · cases v <;> rfl

theorem in_heading (attrs : Slot AttrsObj) (ig : Bool) {s : Slot (List TItem)} {b : List (List Nat)} (h : SlotIn s b) :
    ((headingMdT attrs s ig).log).Sublist b := by
  refine log_of_bind fun level _ => ?_
  cases level.asInt? with
  | none => exact log_nil _ _
  | some n => simp only [log_map]; exact in_content _ ig h

theorem in_codeBlock (attrs : Slot AttrsObj) (ig : Bool) {s : Slot (List TItem)} {b : List (List Nat)} (h : SlotIn s b) :
    ((codeBlockMdT attrs s ig).log).Sublist b := by
  rw [codeBlockMdT, log_bind_of (fun _ => by rw [log_map]; rfl)]
  exact in_content _ ig h

theorem in_blockquote (ig : Bool) {s : Slot (List TItem)} {b : List (List Nat)} (h : SlotIn s b) :
    ((blockquoteMdT s ig).log).Sublist b := by
  rw [blockquoteMdT, log_map]; exact in_docContent ig h

theorem in_panel (env : Env) (attrs : Slot AttrsObj) (ig : Bool) {s : Slot (List TItem)} {b : List (List Nat)} (h : SlotIn s b) :
    ((panelMdT env attrs s ig).log).Sublist b := by
  refine log_of_bind fun pt _ => ?_
  cases pt.asStr? with
  | none => exact log_nil _ _
  | some n => simp only [log_map]; exact in_docContent ig h

theorem in_expand (env : Env) (marks : Slot (List Mark)) (ig : Bool) {s : Slot (List TItem)} {b : List (List Nat)} (h : SlotIn s b) :
    ((expandMdT env s marks ig).log).Sublist b := by
  rw [expandMdT, log_bind_of (fun _ => rfl)]; exact in_docContent ig h

theorem in_strVal {x : Tr Str} {b : List (List Nat)} (h : x.log.Sublist b) : ((strValT x).log).Sublist b := by
  rw [strValT, log_map]; exact h

theorem in_body (env : Env) (hd : Hd) (level : Option Int) (ig : Bool) {s : Slot (List TItem)} {b : List (List Nat)} (h : SlotIn s b) :
    ((bodyT env hd s level ig).log).Sublist b := by
  unfold bodyT
  cases hd.cls <;> first
    | exact log_nil _ _
    | exact in_strVal (in_docContent ig h)
    | exact in_strVal (in_content _ ig h)
    | exact in_strVal (in_bulletList _ ig h)
    | exact in_strVal (in_orderedList env _ _ ig h)
    | exact in_strVal (in_paragraph env _ ig h)
    | exact in_strVal (in_taskList _ ig h)
    | exact in_strVal (in_decisionItem ig h)
    | exact in_strVal (in_decisionList ig h)
    | exact in_strVal (in_heading _ ig h)
    | exact in_strVal (in_codeBlock _ ig h)
    | exact in_strVal (in_panel env _ ig h)
    | exact in_strVal (in_blockquote ig h)
    | exact in_expand env _ ig h
    | exact in_strVal (in_cell ig h)
    | exact in_strVal (in_tableRow ig h)
    | exact in_strVal (in_table ig h)

theorem in_dispatch (env : Env) (p : List Nat) (hd : Hd) (level : Option Int) (ig : Bool) {s : Slot (List TItem)} {b : List (List Nat)}
    (h : SlotIn s b) : ((dispatchT env p hd s level ig).log).Sublist (p :: b) := by
  refine log_if (log_nil _ _) ?_
  exact (in_body env hd level ig h).cons_cons p

theorem in_kidsOf {s : Slot (List TItem)} {b : List (List Nat)} (h : SlotIn s b) : KidsSlotIn (kidsOfT s) b := by
  cases s with
  | val l =>
    simp only [SlotIn] at h
    simp only [kidsOfT, KidsSlotIn]
    induction h with
    | nil => exact .nil
    | cons hk _ _ ih => exact .cons hk ih
  | _ => trivial

mutual
theorem in_item (env : Env) (p : List Nat) : (n : Node) →
    (∀ l g, (((itemT env p n).render l g).log).Sublist (places p n)) ∧ ∃ c, c.Sublist (places p n) ∧ KidsSlotIn (itemT env p n).content c
  | .mk hd content => by
    have hs := in_slot env p content
    exact ⟨fun l g => in_dispatch env p hd l g hs, placesSlot p content, List.sublist_cons_self _ _, in_kidsOf hs⟩

theorem in_slot (env : Env) (p : List Nat) : (s : Slot (List Node)) → SlotIn (slotT env p s) (placesSlot p s)
  | .absent => trivial
  | .opt => trivial
  | .raw _ => trivial
  | .val l => in_list env p 0 l

theorem in_list (env : Env) (p : List Nat) : (i : Nat) → (l : List Node) → ItemsIn (listT env p i l) (placesList p i l)
  | _, [] => .nil
  | i, n :: ns => .cons (in_item env (p ++ [i]) n).1 (in_item env (p ++ [i]) n).2 (in_list env p (i + 1) ns)
end

/-- Every call of `to_markdown` during a conversion is the call of a node of the tree, the calls start in the order of the document,
and no node is called a second time: the calls are a sublist of the places, of which no two are equal (`C103_places`). -/
theorem C103_order (env : Env) (n : Node) (level : Option Int) (ig : Bool) :
    ((markdownT env n level ig).log).Sublist (places [] n) :=
  (in_item env [] n).1 level ig

/-! ## The places -/

theorem lt_append (p : List Nat) {a b : List Nat} (h : a < b) : p ++ a < p ++ b := by
  induction p with
  | nil => exact h
  | cons x xs ih => exact List.cons_lt_cons_iff.2 (.inr ⟨rfl, ih⟩)

mutual
theorem places_mem (p : List Nat) : (n : Node) → ∀ q, q ∈ places p n ↔ ∃ r, q = p ++ r ∧ (nodeAt n r).isSome
  | .mk hd content => by
    intro q
    have hs := placesSlot_mem p hd content q
    simp only [places, List.mem_cons, hs]
    constructor
    · rintro (rfl | ⟨i, r, rfl, h⟩)
      · exact ⟨[], (List.append_nil _).symm, rfl⟩
      · exact ⟨i :: r, rfl, h⟩
    · rintro ⟨r, rfl, h⟩
      cases r with
      | nil => exact .inl (List.append_nil _)
      | cons i r => exact .inr ⟨i, r, rfl, h⟩

theorem placesSlot_mem (p : List Nat) (hd : Hd) : (s : Slot (List Node)) → ∀ q,
    q ∈ placesSlot p s ↔ ∃ i r, q = p ++ i :: r ∧ (nodeAt (.mk hd s) (i :: r)).isSome
  | .absent => by intro q; simp [placesSlot, nodeAt]
  | .opt => by intro q; simp [placesSlot, nodeAt]
  | .raw _ => by intro q; simp [placesSlot, nodeAt]
  | .val l => by
    intro q
    rw [placesSlot, placesList_mem p 0 l q]
    simp only [nodeAt, Nat.zero_add]
    constructor
    · rintro ⟨j, m, r, hm, rfl, h⟩; exact ⟨j, r, rfl, by rw [hm]; exact h⟩
    · rintro ⟨j, r, rfl, h⟩
      cases hm : l[j]? with
      | none => rw [hm] at h; cases h
      | some m => rw [hm] at h; exact ⟨j, m, r, hm, rfl, h⟩

theorem placesList_mem (p : List Nat) : (i : Nat) → (l : List Node) → ∀ q,
    q ∈ placesList p i l ↔ ∃ j m r, l[j]? = some m ∧ q = p ++ (i + j) :: r ∧ (nodeAt m r).isSome
  | _, [] => by intro q; simp [placesList]
  | i, n :: ns => by
    intro q
    rw [placesList, List.mem_append, places_mem (p ++ [i]) n q, placesList_mem p (i + 1) ns q]
    constructor
    · rintro (⟨r, rfl, h⟩ | ⟨j, m, r, hm, rfl, h⟩)
      · exact ⟨0, n, r, rfl, by simp, h⟩
      · exact ⟨j + 1, m, r, by simpa using hm, by rw [show i + 1 + j = i + (j + 1) by omega], h⟩
    · rintro ⟨j, m, r, hm, rfl, h⟩
      cases j with
      | zero => cases hm; exact .inl ⟨r, by simp, h⟩
      | succ j => exact .inr ⟨j, m, r, by simpa using hm, by rw [show i + 1 + j = i + (j + 1) by omega], h⟩
end

mutual
theorem places_sorted (p : List Nat) : (n : Node) → (places p n).Pairwise (· < ·)
  | .mk hd content => by
    refine List.pairwise_cons.2 ⟨fun q hq => ?_, placesSlot_sorted p content⟩
    obtain ⟨i, r, rfl, _⟩ := (placesSlot_mem p hd content q).1 hq
    simpa using lt_append p (List.nil_lt_cons i r)

theorem placesSlot_sorted (p : List Nat) : (s : Slot (List Node)) → (placesSlot p s).Pairwise (· < ·)
  | .absent => .nil
  | .opt => .nil
  | .raw _ => .nil
  | .val l => placesList_sorted p 0 l

theorem placesList_sorted (p : List Nat) : (i : Nat) → (l : List Node) → (placesList p i l).Pairwise (· < ·)
  | _, [] => .nil
  | i, n :: ns => by
    refine List.pairwise_append.2 ⟨places_sorted (p ++ [i]) n, placesList_sorted p (i + 1) ns, fun a ha b hb => ?_⟩
    obtain ⟨r, rfl, _⟩ := (places_mem (p ++ [i]) n a).1 ha
    obtain ⟨j, m, r', _, rfl, _⟩ := (placesList_mem p (i + 1) ns b).1 hb
    rw [List.append_assoc]
    exact lt_append p (List.cons_lt_cons_iff.2 (.inl (by omega)))
end

/-- The list of places has every place at which there is a node, and no other, in the lexicographic order, each once. -/
theorem C103_places (n : Node) :
    (∀ p, p ∈ places [] n ↔ (nodeAt n p).isSome) ∧ (places [] n).Pairwise (· < ·) ∧ (places [] n).Nodup := by
  refine ⟨fun p => ?_, places_sorted [] n, ?_⟩
  · rw [places_mem]; simp
  · refine (places_sorted [] n).imp fun {a b} h e => ?_
    subst e
    exact List.lt_irrefl _ h

/-- No node is converted twice, and every conversion is of a node of the tree. -/
theorem C103_once (env : Env) (n : Node) (level : Option Int) (ig : Bool) :
    (markdownT env n level ig).log.Nodup ∧ (markdownT env n level ig).log.Pairwise (· < ·) ∧
      (∀ p ∈ (markdownT env n level ig).log, (nodeAt n p).isSome) ∧ (markdownT env n level ig).log.length ≤ (places [] n).length := by
  have h := C103_order env n level ig
  obtain ⟨hm, hs, hn⟩ := C103_places n
  exact ⟨h.nodup hn, hs.sublist h, fun p hp => (hm p).1 (h.subset hp), h.length_le⟩

/-! ## Exactly which calls -/

/-- The calls of `x` are the first ones of `b`, and all of them if it succeeds. -/
def Runs {α : Type} (x : Tr α) (b : List (List Nat)) : Prop := x.log <+: b ∧ ∀ v, x.out = .ok v → x.log = b

theorem runs_of {α : Type} (x : Except PyErr α) : Runs (Tr.of x) [] := ⟨List.prefix_refl _, fun _ _ => rfl⟩

theorem runs_error {α : Type} (e : PyErr) (b : List (List Nat)) : Runs (Tr.of (.error e : Except PyErr α)) b :=
  ⟨List.nil_prefix, fun _ h => by cases h⟩

theorem runs_bind {α β : Type} {x : Tr α} {f : α → Tr β} {a b : List (List Nat)} (hx : Runs x a)
    (h : ∀ v, Runs (f v) b) : Runs (x.bind f) (a ++ b) := by
  unfold Runs
  rw [log_bind, out_bind]
  cases ho : x.out with
  | error e => exact ⟨by rw [List.append_nil]; exact hx.1.trans (List.prefix_append a b), fun _ h => by cases h⟩
  | ok v =>
    rw [hx.2 v ho]
    exact ⟨(List.prefix_append_right_inj a).2 (h v).1, fun w hw => congrArg (a ++ ·) ((h v).2 w hw)⟩

theorem runs_of_bind {α β : Type} {x : Except PyErr α} {f : α → Tr β} {b : List (List Nat)}
    (h : ∀ v, x = .ok v → Runs (f v) b) : Runs ((Tr.of x).bind f) b := by
  cases x with
  | error e => exact runs_error e b
  | ok v => exact h v rfl

theorem runs_bind_of {α β : Type} {x : Tr α} {f : α → Tr β} {b : List (List Nat)} (hx : Runs x b)
    (h : ∀ v, Runs (f v) []) : Runs (x.bind f) b := by
  have := runs_bind hx h
  rwa [List.append_nil] at this

theorem runs_map {α β : Type} {x : Tr α} {f : α → β} {b : List (List Nat)} (hx : Runs x b) : Runs (x.map f) b :=
  runs_bind_of hx fun _ => runs_of _

theorem runs_try {α β : Type} {x : Tr α} {f : α → Tr β} {g : PyErr → Tr β} {a b : List (List Nat)} (hx : Runs x a)
    (h : ∀ v, Runs (f v) b) (hg : ∀ e, g e = .of (.error e)) : Runs (x.tryElse f g) (a ++ b) := by
  unfold Runs
  rw [log_tryElse, out_tryElse]
  cases ho : x.out with
  | error e =>
    simp only [hg]
    exact ⟨by rw [log_of, List.append_nil]; exact hx.1.trans (List.prefix_append a b), fun _ h => by cases h⟩
  | ok v =>
    rw [hx.2 v ho]
    exact ⟨(List.prefix_append_right_inj a).2 (h v).1, fun w hw => congrArg (a ++ ·) ((h v).2 w hw)⟩

/-- What a strict parent can rely on. -/
inductive KidsEx : List TKid → List (List Nat) → Prop where
  | nil : KidsEx [] []
  | cons {k : TKid} {ks : List TKid} {a b : List (List Nat)} :
      (∀ l, Runs (k.render l false) a) → KidsEx ks b → KidsEx (k :: ks) (a ++ b)

def KidsSlotEx : Slot (List TKid) → List (List Nat) → Prop
  | .val l, b => KidsEx l b
  | _, b => b = []

/-- A child: its type, the calls of its own `to_markdown`, and the calls of its children's. -/
structure Ent where
  type : Val
  call : List (List Nat)
  thr : List (List Nat)

def Ent.under (rule : Val → Visit) (e : Ent) : List (List Nat) :=
  match rule e.type with
  | .skip => []
  | .call => e.call
  | .through => e.thr

inductive ItemsEx : List TItem → List Ent → Prop where
  | nil : ItemsEx [] []
  | cons {k : TItem} {ks : List TItem} {e : Ent} {es : List Ent} : k.type = e.type →
      (∀ l, Runs (k.render l false) e.call) → KidsSlotEx k.content e.thr → ItemsEx ks es → ItemsEx (k :: ks) (e :: es)

def SlotEx : Slot (List TItem) → List Ent → Prop
  | .val l, es => ItemsEx l es
  | _, es => es = []

theorem kidsEx_alien (n : Nat) : KidsEx (List.replicate n alienTKid) [] := by
  induction n with
  | zero => exact .nil
  | succ n ih => exact .cons (a := []) (fun _ => runs_of _) ih

theorem itemsEx_alien (n : Nat) : ItemsEx (List.replicate n alienTItem) (List.replicate n ⟨.none, [], []⟩) := by
  induction n with
  | zero => exact .nil
  | succ n ih => exact .cons rfl (fun _ => runs_of _) rfl ih

theorem under_alien (rule : Val → Visit) (n : Nat) : (List.replicate n (⟨.none, [], []⟩ : Ent)).flatMap (Ent.under rule) = [] := by
  rw [List.flatMap_eq_nil_iff]
  intro e he
  rw [List.eq_of_mem_replicate he]
  unfold Ent.under
  cases rule (Val.none) <;> rfl

theorem iter_kidsEx {s : Slot (List TKid)} {b : List (List Nat)} (h : KidsSlotEx s b) {l : List TKid}
    (hl : iterSlot alienTKid s = .ok l) : KidsEx l b := by
  cases s with
  | val m => cases hl; exact h
  | raw v =>
    simp only [iterSlot] at hl
    simp only [KidsSlotEx] at h
    subst h
    cases hv : v.iterLen with
    | error e => rw [hv] at hl; cases hl
    | ok n => rw [hv] at hl; cases hl; exact kidsEx_alien n
  | opt => cases hl
  | absent => cases hl

/-- The loop over the content of a slot. -/
theorem runs_iter {β : Type} {s : Slot (List TItem)} {es : List Ent} (h : SlotEx s es) {f : List TItem → Tr β} {rule : Val → Visit}
    (hf : ∀ l es', ItemsEx l es' → Runs (f l) (es'.flatMap (Ent.under rule))) :
    Runs ((Tr.of (iterSlot alienTItem s)).bind f) (es.flatMap (Ent.under rule)) := by
  refine runs_of_bind fun l hl => ?_
  cases s with
  | val m => cases hl; exact hf _ _ h
  | raw v =>
    simp only [iterSlot] at hl
    simp only [SlotEx] at h
    subst h
    cases hv : v.iterLen with
    | error e => rw [hv] at hl; cases hl
    | ok n =>
      rw [hv] at hl
      cases hl
      have := hf _ _ (itemsEx_alien n)
      rwa [under_alien] at this
  | opt => cases hl
  | absent => cases hl

theorem typeOf_ok {k : TKid} {t : Val} (ht : k.type = t) {ex : List TypeEnum} {b : Bool} (h : k.isTypeOf ex = .ok b) :
    b = isTypeOf t ex := by
  unfold TKid.isTypeOf at h
  by_cases hn : k.isNode = true
  · rw [if_pos hn, ht] at h; cases h; rfl
  · rw [if_neg hn] at h; cases h

/-- The rule of the parents that call every child. -/
def callAll : Val → Visit := fun _ => .call

theorem ex_collectKids {β γ : Type} (pre : TKid → Except PyErr γ) (f : γ → TKid → Tr β)
    (hf : ∀ c k a, (∀ l, Runs (k.render l false) a) → Runs (f c k) a)
    {l : List TKid} {b : List (List Nat)} (h : KidsEx l b) : Runs (collectPreT false pre f l) b := by
  induction h with
  | nil => exact runs_of _
  | cons hk _ ih => exact runs_of_bind fun c _ => runs_try (hf _ _ _ hk) (fun _ => runs_map ih) fun _ => rfl

theorem ex_collectItems {β : Type} (f : TItem → Tr β)
    (hf : ∀ (k : TItem) a, (∀ l, Runs (k.render l false) a) → Runs (f k) a)
    {l : List TItem} {es : List Ent} (h : ItemsEx l es) : Runs (collectT false f l) (es.flatMap (Ent.under callAll)) := by
  induction h with
  | nil => exact runs_of _
  | cons _ hk _ _ ih => exact runs_of_bind fun c _ => runs_try (hf _ _ hk) (fun _ => runs_map ih) fun _ => rfl

theorem ex_content_body (concat : Str) {s : Slot (List TItem)} {es : List Ent} (h : SlotEx s es) :
    Runs (contentBodyT concat false s) (es.flatMap (Ent.under callAll)) := by
  have key := runs_iter (rule := callAll) h fun l es' he =>
    runs_bind_of (ex_collectItems (fun (k : TItem) => k.render none false) (fun k a hk => hk _) he) fun lst => runs_of (strJoin concat lst)
  cases s with
  | opt => simp only [SlotEx] at h; subst h; exact runs_of _
  | _ => exact key

theorem ex_content (concat : Str) {s : Slot (List TItem)} {es : List Ent} (h : SlotEx s es) :
    Runs (contentToMarkdownT concat false s) (es.flatMap (Ent.under callAll)) :=
  ex_content_body concat h

theorem ex_docBlock (k : TItem) (a : List (List Nat)) (hk : ∀ l, Runs (k.render l false) a) : Runs (docBlockT k) a := by
  refine runs_of_bind fun b _ => ?_
  cases b
  · exact hk _
  · exact runs_bind_of (hk _) fun _ => runs_of _

theorem ex_docContent_body {s : Slot (List TItem)} {es : List Ent} (h : SlotEx s es) :
    Runs (docContentBodyT false s) (es.flatMap (Ent.under callAll)) := by
  have key := runs_iter (rule := callAll) h fun l es' he =>
    runs_bind_of (ex_collectItems docBlockT ex_docBlock he) fun lst =>
      runs_map (f := stripDoubleEmptyLine 3) (runs_of (strJoin [Str.nl] lst))
  cases s with
  | opt => simp only [SlotEx] at h; subst h; exact runs_of _
  | _ => exact key

theorem ex_docContent {s : Slot (List TItem)} {es : List Ent} (h : SlotEx s es) :
    Runs (docContentToMarkdownT false s) (es.flatMap (Ent.under callAll)) :=
  ex_docContent_body h

theorem ex_listItemChild (level : Int) (nested : Bool) (k : TKid) (a : List (List Nat)) (hk : ∀ l, Runs (k.render l false) a) :
    Runs (listItemChildT level nested k) a := by
  cases nested
  · exact runs_bind_of (hk _) fun _ => runs_map (runs_of _)
  · exact hk _

theorem ex_listItemContent (kind : TypeEnum) (level : Int) {item : TItem} {b : List (List Nat)} (h : KidsSlotEx item.content b) :
    Runs (listItemContentT kind level false item) b :=
  runs_of_bind fun _ hl => runs_bind_of (ex_collectKids _ _ (ex_listItemChild level) (iter_kidsEx h hl)) fun _ => runs_of _

theorem ex_bulletLines (level : Int) {l : List TItem} {es : List Ent} (h : ItemsEx l es) :
    Runs (bulletLinesT level false l) (es.flatMap (Ent.under (visit .bulletList))) := by
  induction h with
  | nil => exact runs_of _
  | cons ht _ hc _ ih =>
    refine runs_of_bind fun b h1 => ?_
    have hb := typeOf_ok ht h1
    rw [List.flatMap_cons, Ent.under]
    cases b
    · simp only [visit, ← hb, Bool.false_eq_true, if_false]
      exact ih
    · simp only [visit, ← hb, if_true]
      exact runs_bind (ex_listItemContent _ level hc) fun _ => runs_map ih

theorem ex_bulletList (level : Int) {s : Slot (List TItem)} {es : List Ent} (h : SlotEx s es) :
    Runs (bulletListMdT s level false) (es.flatMap (Ent.under (visit .bulletList))) :=
  runs_iter h fun _ _ he => runs_map (ex_bulletLines level he)

theorem ex_orderedLines (env : Env) (level : Int) {l : List TItem} {es : List Ent} (h : ItemsEx l es) : ∀ num,
    Runs (orderedLinesT env level false num l) (es.flatMap (Ent.under (visit .orderedList))) := by
  induction h with
  | nil => intro _; exact runs_of _
  | cons ht _ hc _ ih =>
    intro num
    refine runs_of_bind fun b h1 => ?_
    have hb := typeOf_ok ht h1
    rw [List.flatMap_cons, Ent.under]
    cases b
    · simp only [visit, ← hb, Bool.false_eq_true, if_false]
      exact ih _
    · simp only [visit, ← hb, if_true]
      exact runs_bind (ex_listItemContent _ level hc) fun _ => runs_map (ih _)

theorem ex_orderedList (env : Env) (attrs : Slot AttrsObj) (level : Int) {s : Slot (List TItem)} {es : List Ent} (h : SlotEx s es) :
    Runs (orderedListMdT env attrs s level false) (es.flatMap (Ent.under (visit .orderedList))) :=
  runs_of_bind fun _ _ => runs_iter h fun _ _ he => runs_map (ex_orderedLines env level he _)

theorem ex_taskItemLine (level : Int) {item : TItem} {b : List (List Nat)} (h : KidsSlotEx item.content b) :
    Runs (taskItemLineT level false item) b :=
  runs_of_bind fun _ hl => runs_bind_of
    (ex_collectKids (fun _ => .ok ()) (fun _ (k : TKid) => k.render none false) (fun _ _ _ hk => hk _) (iter_kidsEx h hl))
    fun _ => runs_of_bind fun _ _ => runs_map (runs_of _)

theorem ex_taskLines (level : Int) {l : List TItem} {es : List Ent} (h : ItemsEx l es) :
    Runs (taskLinesT level false l) (es.flatMap (Ent.under (visit .taskList))) := by
  induction h with
  | nil => exact runs_of _
  | cons ht hk hc _ ih =>
    refine runs_of_bind fun b h1 => ?_
    have hb := typeOf_ok ht h1
    rw [List.flatMap_cons, Ent.under]
    cases b
    · simp only [visit, ← hb, Bool.false_eq_true, if_false]
      refine runs_of_bind fun b h1 => ?_
      have hb := typeOf_ok ht h1
      cases b
      · simp only [← hb, Bool.false_eq_true, if_false]
        exact ih
      · simp only [← hb, if_true]
        exact runs_try (hk _) (fun _ => runs_map ih) fun _ => rfl
    · simp only [visit, ← hb, if_true]
      exact runs_bind (ex_taskItemLine level hc) fun _ => runs_map ih

theorem ex_taskList (level : Int) {s : Slot (List TItem)} {es : List Ent} (h : SlotEx s es) :
    Runs (taskListMdT s level false) (es.flatMap (Ent.under (visit .taskList))) :=
  runs_iter h fun _ _ he => runs_bind_of (ex_taskLines level he) fun _ => runs_of _

theorem ex_decisionBlocks {l : List TItem} {es : List Ent} (h : ItemsEx l es) :
    Runs (decisionBlocksT false l) (es.flatMap (Ent.under (visit .decisionList))) := by
  induction h with
  | nil => exact runs_of _
  | cons ht hk hc _ ih =>
    refine runs_of_bind fun b h1 => ?_
    have hb := typeOf_ok ht h1
    rw [List.flatMap_cons, Ent.under]
    cases b
    · simp only [visit, ← hb, Bool.false_eq_true, if_false]
      exact ih
    · simp only [visit, ← hb, if_true]
      exact runs_try (hk _) (fun _ => runs_map ih) fun _ => rfl

theorem ex_decisionList {s : Slot (List TItem)} {es : List Ent} (h : SlotEx s es) :
    Runs (decisionListMdT s false) (es.flatMap (Ent.under (visit .decisionList))) :=
  runs_iter h fun _ _ he => runs_bind_of (ex_decisionBlocks he) fun _ => runs_of _

theorem ex_rowCells {l : List TItem} {es : List Ent} (h : ItemsEx l es) :
    Runs (rowCellsT false l) (es.flatMap (Ent.under callAll)) := by
  induction h with
  | nil => exact runs_of _
  | cons _ hk _ _ ih => exact runs_bind (hk _) fun _ => runs_map ih

theorem ex_tableRow {s : Slot (List TItem)} {es : List Ent} (h : SlotEx s es) :
    Runs (tableRowMdT s false) (es.flatMap (Ent.under callAll)) :=
  runs_iter h fun _ _ he => runs_bind_of (ex_rowCells he) fun _ => runs_map (runs_of _)

theorem ex_tableLines {l : List TItem} {es : List Ent} (h : ItemsEx l es) :
    Runs (tableLinesT false l) (es.flatMap (Ent.under callAll)) := by
  induction h with
  | nil => exact runs_of _
  | cons _ hk _ _ ih =>
    exact runs_try (hk _) (fun _ => runs_try (a := []) (runs_of _) (fun _ => runs_map ih) fun _ => rfl) fun _ => rfl

theorem ex_table {s : Slot (List TItem)} {es : List Ent} (h : SlotEx s es) :
    Runs (tableMdT s false) (es.flatMap (Ent.under callAll)) :=
  runs_iter h fun _ _ he => runs_bind_of (ex_tableLines he) fun _ => runs_of _

theorem ex_paragraph (env : Env) (marks : Slot (List Mark)) {s : Slot (List TItem)} {es : List Ent} (h : SlotEx s es) :
    Runs (paragraphMdT env s marks false) (es.flatMap (Ent.under callAll)) :=
  runs_bind_of (ex_content _ h) fun _ => runs_of_bind fun v _ => by cases v <;> exact runs_of _

theorem ex_heading (attrs : Slot AttrsObj) {s : Slot (List TItem)} {es : List Ent} (h : SlotEx s es) :
    Runs (headingMdT attrs s false) (es.flatMap (Ent.under callAll)) := by
  refine runs_of_bind fun v _ => ?_
  cases v.asInt? with
  | none => exact runs_error _ _
  | some n => exact runs_map (ex_content _ h)

theorem ex_codeBlock (attrs : Slot AttrsObj) {s : Slot (List TItem)} {es : List Ent} (h : SlotEx s es) :
    Runs (codeBlockMdT attrs s false) (es.flatMap (Ent.under callAll)) :=
  runs_bind_of (ex_content _ h) fun _ => runs_map (runs_of _)

theorem ex_panel (env : Env) (attrs : Slot AttrsObj) {s : Slot (List TItem)} {es : List Ent} (h : SlotEx s es) :
    Runs (panelMdT env attrs s false) (es.flatMap (Ent.under callAll)) := by
  refine runs_of_bind fun v _ => ?_
  cases v.asStr? with
  | none => exact runs_error _ _
  | some n => exact runs_map (ex_docContent h)

theorem ex_expand (env : Env) (marks : Slot (List Mark)) {s : Slot (List TItem)} {es : List Ent} (h : SlotEx s es) :
    Runs (expandMdT env s marks false) (es.flatMap (Ent.under callAll)) :=
  runs_bind_of (ex_docContent h) fun _ => runs_of _

theorem under_skip {c : NodeCls} (hc : ∀ t, visit c t = .skip) (es : List Ent) : es.flatMap (Ent.under (visit c)) = [] := by
  rw [List.flatMap_eq_nil_iff]
  intro e _
  rw [Ent.under, hc]

theorem ex_leaf {α : Type} {c : NodeCls} (hc : ∀ t, visit c t = .skip) (es : List Ent) (x : Except PyErr α) :
    Runs (Tr.of x) (es.flatMap (Ent.under (visit c))) := by
  rw [under_skip hc]; exact runs_of x

theorem ex_body (env : Env) (hd : Hd) (level : Option Int) {s : Slot (List TItem)} {es : List Ent} (h : SlotEx s es) :
    Runs (bodyT env hd s level false) (es.flatMap (Ent.under (visit hd.cls))) := by
  unfold bodyT
  generalize hd.cls = c
  cases c <;> first
    | exact ex_leaf (fun _ => rfl) es _
    | exact runs_map (ex_docContent h)
    | exact runs_map (ex_content _ h)
    | exact runs_map (ex_bulletList _ h)
    | exact runs_map (ex_orderedList env _ _ h)
    | exact runs_map (ex_paragraph env _ h)
    | exact runs_map (ex_taskList _ h)
    | exact runs_map (runs_map (ex_content _ h))
    | exact runs_map (ex_decisionList h)
    | exact runs_map (ex_heading _ h)
    | exact runs_map (ex_codeBlock _ h)
    | exact runs_map (ex_panel env _ h)
    | exact runs_map (runs_map (ex_docContent h))
    | exact ex_expand env _ h
    | exact runs_map (ex_tableRow h)
    | exact runs_map (ex_table h)

theorem ex_dispatch (env : Env) (p : List Nat) (hd : Hd) (level : Option Int) {s : Slot (List TItem)} {es : List Ent} (h : SlotEx s es) :
    Runs (dispatchT env p hd s level false) (p :: es.flatMap (Ent.under (visit hd.cls))) := by
  unfold dispatchT
  by_cases hl : (level.isSome && !hd.cls.takesLevel) = true
  · rw [if_pos hl]; exact runs_error _ _
  · rw [if_neg hl]
    obtain ⟨h1, h2⟩ := ex_body env hd level h
    refine ⟨?_, fun v hv => ?_⟩
    · exact (List.prefix_cons_inj p).2 h1
    · show p :: _ = _
      rw [h2 v hv]

/-- The children of a node, with their calls. -/
def ents (p : List Nat) : Nat → List Node → List Ent
  | _, [] => []
  | i, .mk hd content :: ns =>
    ⟨hd.type, (p ++ [i]) :: callsSlot (p ++ [i]) (visit hd.cls) content, callsSlot (p ++ [i]) (fun _ => .call) content⟩ :: ents p (i + 1) ns

def entsSlot (p : List Nat) : Slot (List Node) → List Ent
  | .val l => ents p 0 l
  | _ => []

theorem ents_calls (p : List Nat) (rule : Val → Visit) (l : List Node) : ∀ i,
    (ents p i l).flatMap (Ent.under rule) = callsList p rule i l := by
  induction l with
  | nil => intro i; simp [ents, callsList]
  | cons n ns ih =>
    intro i
    cases n with
    | mk hd content =>
      rw [ents, List.flatMap_cons, ih, callsList, Ent.under]
      dsimp only
      cases rule hd.type <;> rfl

theorem entsSlot_calls (p : List Nat) (rule : Val → Visit) (s : Slot (List Node)) :
    (entsSlot p s).flatMap (Ent.under rule) = callsSlot p rule s := by
  cases s with
  | val l => simp only [entsSlot, ents_calls, callsSlot]
  | _ => simp [entsSlot, callsSlot]

theorem ex_kidsOf {s : Slot (List TItem)} {es : List Ent} (h : SlotEx s es) :
    KidsSlotEx (kidsOfT s) (es.flatMap (Ent.under fun _ => .call)) := by
  cases s with
  | val l =>
    simp only [SlotEx] at h
    simp only [kidsOfT, KidsSlotEx]
    induction h with
    | nil => exact .nil
    | cons _ hk _ _ ih => exact .cons hk ih
  | _ => simp only [SlotEx] at h; subst h; rfl

mutual
theorem ex_item (env : Env) (p : List Nat) : (n : Node) → ∀ l, Runs ((itemT env p n).render l false) (calls p n)
  | .mk hd content => by
    intro l
    rw [calls, ← entsSlot_calls]
    exact ex_dispatch env p hd l (ex_slot env p content)

theorem ex_slot (env : Env) (p : List Nat) : (s : Slot (List Node)) → SlotEx (slotT env p s) (entsSlot p s)
  | .absent => rfl
  | .opt => rfl
  | .raw _ => rfl
  | .val l => ex_list env p 0 l

theorem ex_list (env : Env) (p : List Nat) : (i : Nat) → (l : List Node) → ItemsEx (listT env p i l) (ents p i l)
  | _, [] => .nil
  | i, .mk hd content :: ns => by
    have hs := ex_slot env (p ++ [i]) content
    rw [listT, ents]
    refine .cons rfl ?_ ?_ (ex_list env p (i + 1) ns)
    · intro l
      have h := ex_dispatch env (p ++ [i]) hd l hs
      rw [entsSlot_calls] at h
      exact h
    · have h := ex_kidsOf hs
      rw [entsSlot_calls] at h
      exact h
end

/-- A strict conversion that succeeds calls exactly the nodes the rules of the classes name, in the order of the document. -/
theorem C103_exact (env : Env) (n : Node) (level : Option Int) (v : Val) (h : n.toMarkdownAt env level false = .ok v) :
    (markdownT env n level false).log = calls [] n := by
  rw [← C103_same] at h
  exact (ex_item env [] n level).2 v h

/-- A strict conversion that fails has made the first of these calls and no other: nothing after the first failure is converted. -/
theorem C103_stops (env : Env) (n : Node) (level : Option Int) : (markdownT env n level false).log <+: calls [] n :=
  (ex_item env [] n level).1

/-! ## With `ignore_error=True` every child is tried -/

theorem log_collect_lenient (f : TItem → Tr Val) (l : List TItem) : (collectT true f l).log = l.flatMap fun k => (f k).log := by
  induction l with
  | nil => rfl
  | cons k ks ih =>
    rw [List.flatMap_cons, ← ih]
    show (((f k).tryElse _ _)).log = _
    rw [log_tryElse]
    cases (f k).out with
    | error e => rfl
    | ok v => exact congrArg _ (log_map _ _)

theorem log_content_lenient_body (concat : Str) (l : List TItem) :
    (contentBodyT concat true (.val l)).log = l.flatMap fun k => (k.render none false).log := by
  show ((Tr.of (.ok l)).bind _).log = _
  rw [log_bind, log_of, out_of, List.nil_append]
  show ((collectT true _ l).bind _).log = _
  rw [log_bind_of (fun _ => rfl), log_collect_lenient]

theorem log_content_lenient (concat : Str) (l : List TItem) :
    (contentToMarkdownT concat true (.val l)).log = l.flatMap fun k => (k.render none false).log :=
  log_content_lenient_body concat l

theorem log_docBlock (k : TItem) (hk : k.isNode = true) : (docBlockT k).log = (k.render none false).log := by
  unfold docBlockT TKid.isTypeOf
  rw [if_pos hk]
  show (if _ then _ else _ : Tr Val).log = _
  split
  · rw [log_bind_of (fun _ => rfl)]
  · rfl

theorem log_docContent_lenient_body (l : List TItem) (hl : ∀ k ∈ l, k.isNode = true) :
    (docContentBodyT true (.val l)).log = l.flatMap fun k => (k.render none false).log := by
  show ((Tr.of (.ok l)).bind _).log = _
  rw [log_bind, log_of, out_of, List.nil_append]
  show ((collectT true docBlockT l).bind _).log = _
  rw [log_bind_of (fun _ => by rw [log_map]; rfl), log_collect_lenient]
  induction l with
  | nil => rfl
  | cons k ks ih =>
    rw [List.flatMap_cons, List.flatMap_cons, ih fun k hk => hl k (List.mem_cons_of_mem _ hk), log_docBlock k (hl k List.mem_cons_self)]

theorem log_docContent_lenient (l : List TItem) (hl : ∀ k ∈ l, k.isNode = true) :
    (docContentToMarkdownT true (.val l)).log = l.flatMap fun k => (k.render none false).log :=
  log_docContent_lenient_body l hl

theorem listT_isNode (env : Env) (p : List Nat) (l : List Node) : ∀ i, ∀ k ∈ listT env p i l, k.isNode = true := by
  induction l with
  | nil => intro i k hk; simp [listT] at hk
  | cons n ns ih =>
    intro i k hk
    rw [listT, List.mem_cons] at hk
    rcases hk with rfl | hk
    · cases n; rfl
    · exact ih _ k hk

theorem listT_first (env : Env) (p : List Nat) (l : List Node) : ∀ i j, j < l.length →
    p ++ [i + j] ∈ (listT env p i l).flatMap fun k => (k.render none false).log := by
  induction l with
  | nil => intro i j h; simp at h
  | cons n ns ih =>
    intro i j h
    rw [listT, List.flatMap_cons, List.mem_append]
    cases j with
    | zero =>
      left
      cases n with
      | mk hd content =>
        show _ ∈ (dispatchT env (p ++ [i]) hd (slotT env (p ++ [i]) content) none false).log
        rw [dispatchT, if_neg (by simp)]
        exact List.mem_cons_self
    | succ j =>
      right
      have := ih (i + 1) j (by simpa using h)
      rwa [show i + 1 + j = i + (j + 1) by omega] at this

/-- `ignore_error=True`: whatever children fail, `to_markdown` of every child is called. -/
theorem C103_lenient (env : Env) (hd : Hd) (hc : joinsAll hd.cls = true) (l : List Node) (i : Nat) (hi : i < l.length) :
    [i] ∈ (markdownT env (.mk hd (.val l)) none true).log := by
  have h1 : ∀ concat, (contentToMarkdownT concat true (.val (listT env [] 0 l))).log = _ := fun concat => log_content_lenient concat _
  have h2 : (docContentToMarkdownT true (.val (listT env [] 0 l))).log = _ := log_docContent_lenient _ (listT_isNode env [] l 0)
  have hm : [i] ∈ (listT env [] 0 l).flatMap fun k => (k.render none false).log := by
    have := listT_first env [] l 0 i hi
    simpa using this
  show [i] ∈ (dispatchT env [] hd (.val (listT env [] 0 l)) none true).log
  rw [dispatchT, if_neg (by simp)]
  refine List.mem_cons_of_mem _ ?_
  unfold bodyT
  revert hc
  cases hd.cls <;> intro hc <;> first
    | (exact absurd hc (by decide))
    | (simp only [strValT, decisionItemMdT, cellMdT, blockquoteMdT, log_map, h1, h2]; exact hm)
    | (simp only [strValT, expandMdT, log_map]; rw [log_bind_of (fun _ => rfl), h2]; exact hm)
    | (simp only [strValT, codeBlockMdT, log_map]; rw [log_bind_of (fun _ => by rw [log_map]; rfl), h1]; exact hm)
    | (simp only [strValT, paragraphMdT, log_map]
       rw [log_bind_of (fun md => by rw [log_bind_of (fun v => by cases v <;> rfl)]; rfl), h1]; exact hm)

/-! ## Examples -/

/-- A list with a nested list, and a quotation. -/
def sample : Node :=
  Samples.doc [Samples.bullets [Samples.item [Samples.para [Samples.text "a"], Samples.bullets [Samples.item [Samples.para []]]]],
    Samples.quote [Samples.para [Samples.text "b"]]]

example : ∃ v, sample.toMarkdownAt Samples.env none false = .ok v := ⟨_, rfl⟩

example : calls [] sample = [[], [0], [0, 0, 0], [0, 0, 0, 0], [0, 0, 1], [0, 0, 1, 0, 0], [1], [1, 0], [1, 0, 0]] := by decide +kernel

/-- The same places with the list items, whose own `to_markdown` a list does not call. -/
example : places [] sample =
    [[], [0], [0, 0], [0, 0, 0], [0, 0, 0, 0], [0, 0, 1], [0, 0, 1, 0], [0, 0, 1, 0, 0], [1], [1, 0], [1, 0, 0]] := by decide +kernel

/-- The second child fails: the third is called by a lenient conversion and not by a strict one. -/
def sampleBad : Node := Samples.doc [Samples.para [Samples.text "a"], Samples.ordered .opt [], Samples.para [Samples.text "b"]]

example : (markdownT Samples.env sampleBad none false).log = [[], [0], [0, 0], [1]] := by decide +kernel

example : (markdownT Samples.env sampleBad none true).log = [[], [0], [0, 0], [1], [2], [2, 0]] := by decide +kernel

example : ∃ e, sampleBad.toMarkdownAt Samples.env none false = .error e := ⟨_, rfl⟩

example := C103_lenient Samples.env sampleBad.hd rfl

end Verif.Trace
