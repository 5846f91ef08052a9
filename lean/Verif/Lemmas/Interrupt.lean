import Verif.Model.Interrupt
import Verif.Lemmas.Md
import Verif.Lemmas.Parse
/-!
# Lemmas: interrupted conversions
-/

namespace Verif.Lemmas
open Verif

/-- The same, or the exception. -/
def Same {α : Type} (e : PyErr) (x y : Except PyErr α) : Prop := y = x ∨ y = .error e

theorem Same.refl {α : Type} (e : PyErr) (x : Except PyErr α) : Same e x x := .inl rfl

/-- Composition: what follows only sees a result. -/
theorem Same.bind {α β : Type} {e : PyErr} {x y : Except PyErr α} {F G : Except PyErr α → Except PyErr β}
    (h : Same e x y) (hG : G (.error e) = .error e) (hF : ∀ z, Same e (F z) (G z)) : Same e (F x) (G y) := by
  rcases h with rfl | rfl
  · exact hF _
  · exact .inr hG

structure KidSame (e : PyErr) (k k' : Kid) : Prop where
  isNode : k'.isNode = k.isNode
  type : k'.type = k.type
  render : ∀ l, Same e (k.render l false) (k'.render l false)

inductive SlotSame {α : Type} (r : α → α → Prop) : Slot (List α) → Slot (List α) → Prop where
  | absent : SlotSame r .absent .absent
  | opt : SlotSame r .opt .opt
  | raw (v : Val) : SlotSame r (.raw v) (.raw v)
  | val {l l' : List α} (h : List.Forall₂ r l l') : SlotSame r (.val l) (.val l')

structure ItemSame (e : PyErr) (k k' : Item) : Prop where
  kid : KidSame e k.toKid k'.toKid
  attrs : k'.attrs = k.attrs
  content : SlotSame (KidSame e) k.content k'.content

theorem isTypeOf_same {e : PyErr} {k k' : Kid} (h : KidSame e k k') (ts : List TypeEnum) : k'.isTypeOf ts = k.isTypeOf ts := by
  unfold Kid.isTypeOf
  rw [h.isNode, h.type]

theorem alienKid_same (e : PyErr) : KidSame e alienKid alienKid := ⟨rfl, rfl, fun _ => .refl _ _⟩
theorem alienItem_same (e : PyErr) : ItemSame e alienItem alienItem := ⟨alienKid_same e, rfl, .absent⟩

theorem iter_same {α : Type} {r : α → α → Prop} {alien : α} (ha : r alien alien) {c c' : Slot (List α)} (h : SlotSame r c c') :
    (∃ x, iterSlot alien c = .error x ∧ iterSlot alien c' = .error x) ∨
    ∃ l l', iterSlot alien c = .ok l ∧ iterSlot alien c' = .ok l' ∧ List.Forall₂ r l l' := by
  cases h with
  | absent => exact .inl ⟨_, rfl, rfl⟩
  | opt => exact .inl ⟨_, rfl, rfl⟩
  | raw v =>
    simp only [iterSlot]
    cases v.iterLen with
    | error x => exact .inl ⟨x, rfl, rfl⟩
    | ok n =>
      refine .inr ⟨_, _, rfl, rfl, ?_⟩
      induction n with
      | zero => exact .nil
      | succ n ih => exact .cons ha ih
  | val h => exact .inr ⟨_, _, rfl, rfl, h⟩

theorem collectPre_same {α β γ : Type} {e : PyErr} {r : α → α → Prop} {pre : α → Except PyErr γ} {f : γ → α → Except PyErr β}
    (hp : ∀ a a', r a a' → pre a' = pre a) (hf : ∀ c a a', r a a' → Same e (f c a) (f c a')) {l l' : List α}
    (h : List.Forall₂ r l l') : Same e (collectPre false pre f l) (collectPre false pre f l') := by
  induction h with
  | nil => exact .refl _ _
  | @cons a a' l l' ha _ ih =>
    rw [collectPre, collectPre, hp a a' ha]
    cases pre a with
    | error x => exact .refl _ _
    | ok c =>
      dsimp only
      rcases hf c a a' ha with h | h <;> rw [h]
      · cases f c a with
        | error x => exact .refl _ _
        | ok b =>
          dsimp only
          rcases ih with h | h <;> rw [h]
          · exact .refl _ _
          · exact .inr rfl
      · exact .inr rfl

theorem collect_same {α β : Type} {e : PyErr} {r : α → α → Prop} {f : α → Except PyErr β}
    (hf : ∀ a a', r a a' → Same e (f a) (f a')) {l l' : List α} (h : List.Forall₂ r l l') :
    Same e (collect false f l) (collect false f l') := collectPre_same (fun _ _ _ => rfl) (fun _ => hf) h

/-- Close a step: the next result is the same, or the exception. -/
macro "step" h:term : tactic =>
  `(tactic| (have hstep := $h; rcases hstep with hstep | hstep <;> rw [hstep] <;> (try exact .inr rfl)))

theorem content_same {e : PyErr} {sep : Str} {c c' : Slot (List Item)} (h : SlotSame (ItemSame e) c c') :
    Same e (contentToMarkdown sep false c) (contentToMarkdown sep false c') := by
  have key : Same e (match iterSlot alienItem c with
      | .error x => .error x
      | .ok items => match collect false (fun (k : Item) => k.render none false) items with
        | .error x => .error x
        | .ok lst => strJoin sep lst) (match iterSlot alienItem c' with
      | .error x => .error x
      | .ok items => match collect false (fun (k : Item) => k.render none false) items with
        | .error x => .error x
        | .ok lst => strJoin sep lst) := by
    rcases iter_same (alienItem_same e) h with ⟨x, h1, h2⟩ | ⟨l, l', h1, h2, h3⟩ <;> rw [h1, h2]
    · exact .refl _ _
    · dsimp only
      step (collect_same (fun a a' (ha : ItemSame e a a') => ha.kid.render none) h3)
      exact .refl _ _
  cases h with
  | opt => exact .refl _ _
  | absent => exact key
  | raw v => exact key
  | val h => exact key

theorem docBlock_same {e : PyErr} {k k' : Item} (h : ItemSame e k k') : Same e (docBlock k) (docBlock k') := by
  unfold docBlock
  rw [isTypeOf_same h.kid]
  cases k.isTypeOf [.bulletList, .orderedList, .codeBlock] with
  | error x => exact .refl _ _
  | ok b =>
    cases b with
    | false => exact h.kid.render none
    | true =>
      dsimp only
      step (h.kid.render none)
      exact .refl _ _

theorem docContent_same {e : PyErr} {c c' : Slot (List Item)} (h : SlotSame (ItemSame e) c c') :
    Same e (docContentToMarkdown false c) (docContentToMarkdown false c') := by
  have key : Same e (match iterSlot alienItem c with
      | .error x => .error x
      | .ok items => match collect false docBlock items with
        | .error x => .error x
        | .ok lst => match strJoin [Str.nl] lst with
          | .error x => .error x
          | .ok s => .ok (stripDoubleEmptyLine 3 s)) (match iterSlot alienItem c' with
      | .error x => .error x
      | .ok items => match collect false docBlock items with
        | .error x => .error x
        | .ok lst => match strJoin [Str.nl] lst with
          | .error x => .error x
          | .ok s => .ok (stripDoubleEmptyLine 3 s)) := by
    rcases iter_same (alienItem_same e) h with ⟨x, h1, h2⟩ | ⟨l, l', h1, h2, h3⟩ <;> rw [h1, h2]
    · exact .refl _ _
    · dsimp only
      step (collect_same (fun a a' (ha : ItemSame e a a') => docBlock_same ha) h3)
      exact .refl _ _
  cases h with
  | opt => exact .refl _ _
  | absent => exact key
  | raw v => exact key
  | val h => exact key

theorem listItemChild_same {e : PyErr} (level : Int) (nested : Bool) {k k' : Kid} (h : KidSame e k k') :
    Same e (listItemChild level nested k) (listItemChild level nested k') := by
  unfold listItemChild
  cases nested with
  | true => exact h.render _
  | false =>
    simp only [Bool.false_eq_true, if_false]
    step (h.render none)
    exact .refl _ _

theorem listItemContent_same {e : PyErr} (kind : TypeEnum) (level : Int) {k k' : Item} (h : ItemSame e k k') :
    Same e (listItemContent kind level false k) (listItemContent kind level false k') := by
  unfold listItemContent
  rcases iter_same (alienKid_same e) h.content with ⟨x, h1, h2⟩ | ⟨l, l', h1, h2, h3⟩ <;> rw [h1, h2]
  · exact .refl _ _
  · dsimp only
    step (collectPre_same (e := e) (pre := fun (k : Kid) => k.isTypeOf [kind]) (f := listItemChild level)
      (fun a a' ha => isTypeOf_same ha _) (fun c a a' ha => listItemChild_same level c ha) h3)
    exact .refl _ _

theorem bulletLines_same {e : PyErr} (level : Int) {l l' : List Item} (h : List.Forall₂ (ItemSame e) l l') :
    Same e (bulletLines level false l) (bulletLines level false l') := by
  induction h with
  | nil => exact .refl _ _
  | @cons a a' l l' ha _ ih =>
    rw [bulletLines, bulletLines, isTypeOf_same ha.kid]
    cases a.isTypeOf [.listItem] with
    | error x => exact .refl _ _
    | ok b =>
      cases b with
      | false => exact ih
      | true =>
        dsimp only
        step (listItemContent_same .bulletList level ha)
        cases listItemContent .bulletList level false a with
        | error x => exact .refl _ _
        | ok s =>
          dsimp only
          step ih
          exact .refl _ _

theorem orderedLines_same {env : Env} {e : PyErr} (level : Int) {l l' : List Item} (h : List.Forall₂ (ItemSame e) l l') :
    ∀ num, Same e (orderedLines env level false num l) (orderedLines env level false num l') := by
  induction h with
  | nil => exact fun _ => .refl _ _
  | @cons a a' l l' ha _ ih =>
    intro num
    rw [orderedLines, orderedLines, isTypeOf_same ha.kid]
    cases a.isTypeOf [.listItem] with
    | error x => exact .refl _ _
    | ok b =>
      cases b with
      | false => exact ih num
      | true =>
        dsimp only
        step (listItemContent_same .orderedList level ha)
        cases listItemContent .orderedList level false a with
        | error x => exact .refl _ _
        | ok s =>
          dsimp only
          step (ih (nextNum num))
          exact .refl _ _

theorem taskItemLine_same {e : PyErr} (level : Int) {k k' : Item} (h : ItemSame e k k') :
    Same e (taskItemLine level false k) (taskItemLine level false k') := by
  unfold taskItemLine
  rw [h.attrs]
  rcases iter_same (alienKid_same e) h.content with ⟨x, h1, h2⟩ | ⟨l, l', h1, h2, h3⟩ <;> rw [h1, h2]
  · exact .refl _ _
  · dsimp only
    step (collect_same (fun a a' (ha : KidSame e a a') => ha.render none) h3)
    exact .refl _ _

theorem taskLines_same {e : PyErr} (level : Int) {l l' : List Item} (h : List.Forall₂ (ItemSame e) l l') :
    Same e (taskLines level false l) (taskLines level false l') := by
  induction h with
  | nil => exact .refl _ _
  | @cons a a' l l' ha _ ih =>
    rw [taskLines, taskLines, isTypeOf_same ha.kid, isTypeOf_same ha.kid]
    cases a.isTypeOf [.taskItem] with
    | error x => exact .refl _ _
    | ok b =>
      cases b with
      | true =>
        dsimp only
        step (taskItemLine_same level ha)
        cases taskItemLine level false a with
        | error x => exact .refl _ _
        | ok s =>
          dsimp only
          step ih
          exact .refl _ _
      | false =>
        dsimp only
        cases a.isTypeOf [.taskList] with
        | error x => exact .refl _ _
        | ok b =>
          cases b with
          | false => exact ih
          | true =>
            dsimp only
            step (ha.kid.render (some (level + 1)))
            cases a.render (some (level + 1)) false with
            | error x => exact .refl _ _
            | ok s =>
              dsimp only
              step ih
              exact .refl _ _

theorem decisionBlocks_same {e : PyErr} {l l' : List Item} (h : List.Forall₂ (ItemSame e) l l') :
    Same e (decisionBlocks false l) (decisionBlocks false l') := by
  induction h with
  | nil => exact .refl _ _
  | @cons a a' l l' ha _ ih =>
    rw [decisionBlocks, decisionBlocks, isTypeOf_same ha.kid]
    cases a.isTypeOf [.decisionItem] with
    | error x => exact .refl _ _
    | ok b =>
      cases b with
      | false => exact ih
      | true =>
        dsimp only
        step (ha.kid.render none)
        cases a.render none false with
        | error x => exact .refl _ _
        | ok s =>
          dsimp only
          step ih
          exact .refl _ _

theorem rowCells_same {e : PyErr} {l l' : List Item} (h : List.Forall₂ (ItemSame e) l l') :
    Same e (rowCells false l) (rowCells false l') := by
  induction h with
  | nil => exact .refl _ _
  | @cons a a' l l' ha _ ih =>
    rw [rowCells, rowCells]
    step (ha.kid.render none)
    cases a.render none false with
    | error x => exact .refl _ _
    | ok s =>
      dsimp only
      step ih
      exact .refl _ _

theorem headerWidth_same {e : PyErr} {c c' : Slot (List Kid)} (h : SlotSame (KidSame e) c c') : headerWidth c' = headerWidth c := by
  cases h with
  | absent => rfl
  | opt => rfl
  | raw v => rfl
  | val h =>
    cases h with
    | nil => rfl
    | cons ha hl =>
      unfold headerWidth
      dsimp only
      rw [isTypeOf_same ha, hl.length_eq]

theorem tableLines_same {e : PyErr} {l l' : List Item} (h : List.Forall₂ (ItemSame e) l l') :
    Same e (tableLines false l) (tableLines false l') := by
  induction h with
  | nil => exact .refl _ _
  | @cons a a' l l' ha _ ih =>
    rw [tableLines, tableLines, headerWidth_same ha.content]
    step (ha.kid.render none)
    cases a.render none false with
    | error x => exact .refl _ _
    | ok s =>
      dsimp only
      cases headerWidth a.content with
      | error x => exact .refl _ _
      | ok w =>
        dsimp only
        step ih
        exact .refl _ _

theorem dispatch_same {env : Env} {e : PyErr} {hd : Hd} {c c' : Slot (List Item)} (h : SlotSame (ItemSame e) c c') (level : Option Int) :
    Same e (dispatch env hd c level false) (dispatch env hd c' level false) := by
  have sv : ∀ {x y : Except PyErr Str}, Same e x y → Same e (strVal x) (strVal y) := by
    rintro x y (rfl | rfl)
    · exact .refl _ _
    · exact .inr rfl
  have it := iter_same (alienItem_same e) h
  unfold dispatch
  split
  · exact .refl _ _
  · cases hd.cls <;>
      first
      | exact .refl _ _
      | exact sv (content_same h)
      | exact sv (docContent_same h)
      | skip
    · refine sv ?_
      unfold bulletListMd
      rcases it with ⟨x, h1, h2⟩ | ⟨l, l', h1, h2, h3⟩ <;> rw [h1, h2]
      · exact .refl _ _
      · dsimp only
        step (bulletLines_same (level.getD 0) h3)
        exact .refl _ _
    · refine sv ?_
      unfold orderedListMd
      cases orderedStart hd.attrs (level.getD 0) with
      | error x => exact .refl _ _
      | ok start =>
        dsimp only
        rcases it with ⟨x, h1, h2⟩ | ⟨l, l', h1, h2, h3⟩ <;> rw [h1, h2]
        · exact .refl _ _
        · dsimp only
          step (orderedLines_same (env := env) (level.getD 0) h3 start)
          exact .refl _ _
    · refine sv ?_
      unfold paragraphMd
      step (content_same (sep := []) h)
      exact .refl _ _
    · refine sv ?_
      unfold taskListMd
      rcases it with ⟨x, h1, h2⟩ | ⟨l, l', h1, h2, h3⟩ <;> rw [h1, h2]
      · exact .refl _ _
      · dsimp only
        step (taskLines_same (level.getD 0) h3)
        exact .refl _ _
    · refine sv ?_
      unfold decisionItemMd
      step (content_same (sep := []) h)
      exact .refl _ _
    · refine sv ?_
      unfold decisionListMd
      rcases it with ⟨x, h1, h2⟩ | ⟨l, l', h1, h2, h3⟩ <;> rw [h1, h2]
      · exact .refl _ _
      · dsimp only
        step (decisionBlocks_same h3)
        exact .refl _ _
    · refine sv ?_
      unfold headingMd
      cases getAttr hd.attrs "level" with
      | error x => exact .refl _ _
      | ok lv =>
        dsimp only
        cases lv.asInt? with
        | none => exact .refl _ _
        | some n =>
          dsimp only
          step (content_same (sep := []) h)
          exact .refl _ _
    · refine sv ?_
      unfold codeBlockMd
      step (content_same (sep := []) h)
      exact .refl _ _
    · refine sv ?_
      unfold panelMd
      cases getAttr hd.attrs "panelType" with
      | error x => exact .refl _ _
      | ok pt =>
        dsimp only
        cases pt.asStr? with
        | none => exact .refl _ _
        | some n =>
          dsimp only
          step (docContent_same h)
          exact .refl _ _
    · refine sv ?_
      unfold blockquoteMd
      step (docContent_same h)
      exact .refl _ _
    · unfold expandMd
      step (docContent_same h)
      exact .refl _ _
    · refine sv ?_
      unfold cellMd
      step (content_same (sep := []) h)
      exact .refl _ _
    · refine sv ?_
      unfold cellMd
      step (content_same (sep := []) h)
      exact .refl _ _
    · refine sv ?_
      unfold tableRowMd
      rcases it with ⟨x, h1, h2⟩ | ⟨l, l', h1, h2, h3⟩ <;> rw [h1, h2]
      · exact .refl _ _
      · dsimp only
        step (rowCells_same h3)
        exact .refl _ _
    · refine sv ?_
      unfold tableMd
      rcases it with ⟨x, h1, h2⟩ | ⟨l, l', h1, h2, h3⟩ <;> rw [h1, h2]
      · exact .refl _ _
      · dsimp only
        step (tableLines_same h3)
        exact .refl _ _

theorem kidsOf_same {e : PyErr} {c c' : Slot (List Item)} (h : SlotSame (ItemSame e) c c') : SlotSame (KidSame e) (kidsOf c) (kidsOf c') := by
  cases h with
  | absent => exact .absent
  | opt => exact .opt
  | raw v => exact .raw v
  | val h =>
    refine .val ?_
    induction h with
    | nil => exact .nil
    | cons ha _ ih => exact .cons ha.kid ih

theorem cutList_eq (env : Env) (e : PyErr) (cut : List Nat → Bool) (place : List Nat) (l : List Node) (i : Nat) :
    cutList env e cut place i l = (l.zipIdx i).map fun p => p.1.cutItem env e cut (place ++ [p.2]) := by
  induction l generalizing i with
  | nil => rw [cutList]; rfl
  | cons n ns ih => rw [cutList, ih]; rfl

theorem cut_same (env : Env) (e : PyErr) (cut : List Nat → Bool) (n : Node) :
    ∀ place, ItemSame e (n.item env) (n.cutItem env e cut place) := by
  induction n using Node.induction with
  | h hd s ih =>
    intro place
    have hs : SlotSame (ItemSame e) (slotItems env s) (cutSlot env e cut place s) := by
      cases s with
      | absent => exact .absent
      | opt => exact .opt
      | raw v => exact .raw v
      | val l =>
        rw [slotItems_val, cutSlot, cutList_eq]
        refine .val ?_
        have : ∀ (l' : List Node) (i : Nat), (∀ x ∈ l', x ∈ l) → List.Forall₂ (ItemSame e) (l'.map (Node.item env))
            ((l'.zipIdx i).map fun p => p.1.cutItem env e cut (place ++ [p.2])) := by
          intro l'
          induction l' with
          | nil => exact fun _ _ => .nil
          | cons x l' ih' => exact fun i hl => .cons (ih l x rfl (hl x (by simp)) _) (ih' (i + 1) fun y hy => hl y (by simp [hy]))
        exact this l 0 fun _ h => h
    refine ⟨⟨rfl, rfl, fun level => ?_⟩, rfl, kidsOf_same hs⟩
    rw [Node.cutItem]
    dsimp only
    split
    · exact .inr rfl
    · exact dispatch_same hs level

end Verif.Lemmas
