import Verif.Model.HeapMd
import Verif.Lemmas.Prog
/-! # `to_markdown` writes only to lists it made itself -/

namespace Verif.HeapMd
open Verif

/-- The program changes only objects of `w` and those it makes itself, whatever it sees. -/
def Keep {α : Type} (loud : Prop) (w : Nat → Prop) (m : Prog α) : Prop := ∀ own : Nat → Prop, (∀ a, w a → own a) → m.Writes loud own

variable {α β γ : Type} {loud : Prop} {w : Nat → Prop}

/-- nothing -/
def Nil : Nat → Prop := fun _ => False

theorem keep_pure (a : α) : Keep loud w (Prog.pure a) := fun _ _ => trivial
theorem keep_throw (e : HErr) : Keep loud w (Prog.throw e : Prog α) := fun _ _ => trivial
theorem keep_of (x : Except PyErr α) : Keep loud w (Prog.ofExcept x) := fun _ _ => by cases x <;> trivial
theorem keep_read (a : Nat) : Keep loud w (Prog.read a) := fun _ _ o => by cases o <;> trivial

theorem keep_mono {m : Prog α} (h : Keep loud Nil m) : Keep loud w m := fun own _ => h own fun _ h => h.elim

theorem keep_try {m : Prog α} {f : α → Prog β} {g : HErr → Prog β} (h : Keep loud w m) (hf : ∀ a, Keep loud w (f a)) (hg : ∀ e, Keep loud w (g e)) :
    Keep loud w (m.tryElse f g) := fun own ho =>
  Prog.writes_try (h own ho) (fun own' h a => hf a own' fun b hb => h b (ho b hb)) fun own' h e => hg e own' fun b hb => h b (ho b hb)

theorem keep_bind {m : Prog α} {f : α → Prog β} (h : Keep loud w m) (hf : ∀ a, Keep loud w (f a)) : Keep loud w (m.bind f) :=
  keep_try h hf fun e => keep_throw e

theorem keep_if {c : Bool} {x y : Prog α} (hx : Keep loud w x) (hy : Keep loud w y) : Keep loud w (if c then x else y) := by
  cases c
  · exact hy
  · exact hx

/-- A list the function made itself may be written to. -/
theorem keep_new {f : Nat → Prog α} (h : ∀ lst, Keep loud (fun a => a = lst) (f lst)) : Keep loud w (newList.bind f) := fun own _ b =>
  h b (fun a => own a ∨ a = b) fun _ ha => .inr ha

theorem keep_push (lst : Nat) (x : HV) : Keep loud (fun a => a = lst) (push lst x) := fun _ ho => ⟨ho lst rfl, fun b => by cases b <;> trivial⟩

theorem keep_pushAll (lst : Nat) (l : List Str) : Keep loud (fun a => a = lst) (pushAll lst l) := by
  induction l with
  | nil => exact keep_pure _
  | cons s ss ih => exact keep_bind (keep_push _ _) fun _ => ih

theorem keep_join (sep : Str) (lst : Nat) : Keep loud w (joinH sep lst) := keep_bind (keep_read _) fun _ => keep_of _

/-! ## Reading -/

mutual
theorem keep_val : (fuel : Nat) → (x : HV) → Keep loud Nil (readVal fuel x)
  | _, .imm i => by rw [readVal]; exact keep_pure _
  | 0, .ref _ => by rw [readVal]; exact keep_throw _
  | fuel + 1, .ref a => by
    rw [readVal]
    refine keep_bind (keep_read _) fun o => ?_
    cases o.kind with
    | list => exact keep_bind (keep_items fuel o.items) fun _ => keep_pure _
    | dict => exact keep_bind (keep_items fuel o.items) fun _ => keep_pure _
    | inst t => exact keep_throw _
termination_by fuel _ => (fuel, 0)

theorem keep_items : (fuel : Nat) → (items : List (String × HV)) → Keep loud Nil (readItems fuel items)
  | _, [] => by rw [readItems]; exact keep_pure _
  | fuel, (k, x) :: rest => by
    rw [readItems]
    exact keep_bind (keep_val fuel x) fun _ => keep_bind (keep_items fuel rest) fun _ => keep_pure _
termination_by fuel items => (fuel, items.length + 1)
end

theorem keep_plain (fuel : Nat) (x : Option HV) : Keep loud Nil (readPlain fuel x) := by
  cases x with
  | none => exact keep_pure _
  | some x => exact keep_bind (keep_val _ _) fun _ => keep_pure _

theorem keep_attrs (fuel : Nat) (x : Option HV) : Keep loud Nil (readAttrs fuel x) := by
  match x with
  | none => exact keep_pure _
  | some (.imm i) => exact keep_pure _
  | some (.ref a) =>
    refine keep_bind (keep_read _) fun o => ?_
    split
    · exact keep_bind (keep_items _ _) fun _ => keep_pure _
    · exact keep_throw _
    · exact keep_bind (keep_val _ _) fun _ => keep_pure _

theorem keep_mark (fuel : Nat) (x : HV) : Keep loud Nil (readMark fuel x) := by
  cases x with
  | imm i => exact keep_pure _
  | ref a =>
    refine keep_bind (keep_read _) fun o => ?_
    split
    · exact keep_bind (keep_plain _ _) fun _ => keep_bind (keep_attrs _ _) fun _ => keep_pure _
    · exact keep_pure _

theorem keep_markList (fuel : Nat) (l : List (String × HV)) : Keep loud Nil (readMarkList fuel l) := by
  induction l with
  | nil => exact keep_pure _
  | cons e rest ih =>
    refine keep_bind (keep_mark _ _) fun o => ?_
    cases o with
    | none => exact keep_pure _
    | some m => exact keep_bind ih fun _ => keep_pure _

theorem keep_marks (fuel : Nat) (x : Option HV) : Keep loud Nil (readMarks fuel x) := by
  match x with
  | none => exact keep_pure _
  | some (.imm i) => exact keep_pure _
  | some (.ref a) =>
    refine keep_bind (keep_read _) fun o => ?_
    split
    · exact keep_bind (keep_markList _ _) fun _ => keep_pure _
    · exact keep_bind (keep_val _ _) fun _ => keep_pure _

theorem keep_hd (fuel : Nat) (c : NodeCls) (items : List (String × HV)) (marks : Slot (List Mark)) : Keep loud Nil (readHd fuel c items marks) :=
  keep_bind (keep_plain _ _) fun _ => keep_bind (keep_plain _ _) fun _ => keep_bind (keep_plain _ _) fun _ =>
    keep_bind (keep_attrs _ _) fun _ => keep_pure _

theorem keep_nodeOf (x : HV) : Keep loud Nil (nodeOf x) := by
  cases x with
  | imm i => exact keep_throw _
  | ref a =>
    refine keep_bind (keep_read _) fun o => ?_
    split
    · exact keep_pure _
    · exact keep_throw _

theorem keep_isTypeOf (fuel : Nat) (x : HV) (l : List TypeEnum) : Keep loud Nil (isTypeOfH fuel x l) :=
  keep_bind (keep_nodeOf _) fun _ => keep_bind (keep_plain _ _) fun _ => keep_pure _

theorem keep_iter (c : Option HV) : Keep loud Nil (iterH c) := by
  unfold iterH
  split
  · exact keep_throw _
  · exact keep_pure _
  · exact keep_throw _
  · refine keep_bind (keep_read _) fun o => ?_
    split
    · exact keep_pure _
    · exact keep_pure _
    · exact keep_throw _

theorem keep_iterContent (x : HV) : Keep loud Nil (iterContentH x) := keep_bind (keep_nodeOf _) fun _ => keep_iter _

theorem keep_state (fuel : Nat) (x : HV) : Keep loud Nil (stateH fuel x) :=
  keep_bind (keep_nodeOf _) fun _ => keep_bind (keep_attrs _ _) fun _ => keep_of _

theorem keep_headerWidth (fuel : Nat) (x : HV) : Keep loud Nil (headerWidthH fuel x) := by
  refine keep_bind (keep_nodeOf _) fun p => ?_
  split
  · exact keep_throw _
  · exact keep_throw _
  · exact keep_throw _
  · exact keep_throw _
  · refine keep_bind (keep_read _) fun o => ?_
    split
    · exact keep_throw _
    · exact keep_throw _
    · split
      · exact keep_throw _
      · exact keep_bind (keep_isTypeOf _ _ _) fun _ => keep_pure _

/-! ## Converting -/

theorem keep_collect (ig : Bool) (lst : Nat) {pre : HV → Prog γ} {f : γ → HV → Prog HV} (hp : ∀ x, Keep loud Nil (pre x))
    (hf : ∀ c x, Keep loud Nil (f c x)) (l : List HV) : Keep loud (fun a => a = lst) (collectH ig pre f lst l) := by
  induction l with
  | nil => exact keep_pure _
  | cons x xs ih =>
    exact keep_bind (keep_mono (hp x)) fun c => keep_try (keep_mono (hf c x)) (fun _ => keep_bind (keep_push _ _) fun _ => ih)
      fun _ => keep_if ih (keep_throw _)

variable {call : Call} (hc : ∀ x l g, Keep loud Nil (call x l g))
include hc

theorem keep_content (concat : Str) (ig : Bool) (c : Option HV) : Keep loud Nil (contentToMarkdownH call concat ig c) := by
  unfold contentToMarkdownH
  split
  · exact keep_pure _
  · exact keep_new fun _ => keep_bind (keep_mono (keep_iter _)) fun _ =>
      keep_bind (keep_collect ig _ (fun _ => keep_pure _) (fun _ _ => hc _ _ _) _) fun _ => keep_join _ _

theorem keep_docBlock (fuel : Nat) (x : HV) : Keep loud Nil (docBlockH fuel call x) := by
  refine keep_bind (keep_isTypeOf _ _ _) fun b => keep_if (keep_bind (hc _ _ _) fun r => ?_) (hc _ _ _)
  unfold padH
  split
  · exact keep_pure _
  · exact keep_throw _

theorem keep_docContent (fuel : Nat) (ig : Bool) (c : Option HV) : Keep loud Nil (docContentToMarkdownH fuel call ig c) := by
  unfold docContentToMarkdownH
  split
  · exact keep_pure _
  · exact keep_new fun _ => keep_bind (keep_mono (keep_iter _)) fun _ =>
      keep_bind (keep_collect ig _ (fun _ => keep_pure _) (fun _ _ => keep_docBlock hc fuel _) _) fun _ =>
        keep_bind (keep_join _ _) fun _ => keep_pure _

theorem keep_listItemChild (level : Int) (nested : Bool) (x : HV) : Keep loud Nil (listItemChildH call level nested x) := by
  refine keep_if (hc _ _ _) (keep_bind (hc _ _ _) fun r => ?_)
  unfold rstripH
  split
  · exact keep_pure _
  · exact keep_throw _

theorem keep_listItem (fuel : Nat) (kind : TypeEnum) (level : Int) (ig : Bool) (x : HV) :
    Keep loud Nil (listItemContentH fuel call kind level ig x) :=
  keep_new fun _ => keep_bind (keep_mono (keep_iterContent _)) fun _ =>
    keep_bind (keep_collect ig _ (fun _ => keep_isTypeOf _ _ _) (fun _ _ => keep_listItemChild hc _ _ _) _) fun _ => keep_join _ _

theorem keep_bulletLines (fuel : Nat) (level : Int) (ig : Bool) (lines : Nat) (l : List HV) :
    Keep loud (fun a => a = lines) (bulletLinesH fuel call level ig lines l) := by
  induction l with
  | nil => exact keep_pure _
  | cons x xs ih =>
    exact keep_bind (keep_mono (keep_isTypeOf _ _ _)) fun _ => keep_if
      (keep_bind (keep_mono (keep_listItem hc _ _ _ _ _)) fun _ => keep_bind (keep_pushAll _ _) fun _ => ih) ih

theorem keep_orderedLines (env : Env) (fuel : Nat) (level : Int) (ig : Bool) (lines : Nat) (l : List HV) : ∀ num,
    Keep loud (fun a => a = lines) (orderedLinesH env fuel call level ig lines num l) := by
  induction l with
  | nil => intro _; exact keep_pure _
  | cons x xs ih =>
    intro num
    exact keep_bind (keep_mono (keep_isTypeOf _ _ _)) fun _ => keep_if
      (keep_bind (keep_mono (keep_listItem hc _ _ _ _ _)) fun _ => keep_bind (keep_pushAll _ _) fun _ => ih _) (ih _)

theorem keep_taskItem (fuel : Nat) (level : Int) (ig : Bool) (x : HV) : Keep loud Nil (taskItemLineH fuel call level ig x) :=
  keep_new fun _ => keep_bind (keep_mono (keep_iterContent _)) fun _ =>
    keep_bind (keep_collect ig _ (fun _ => keep_pure _) (fun _ _ => hc _ _ _) _) fun _ =>
      keep_bind (keep_join _ _) fun _ => keep_bind (keep_mono (keep_state _ _)) fun _ => keep_pure _

theorem keep_taskLines (fuel : Nat) (level : Int) (ig : Bool) (lines : Nat) (l : List HV) :
    Keep loud (fun a => a = lines) (taskLinesH fuel call level ig lines l) := by
  induction l with
  | nil => exact keep_pure _
  | cons x xs ih =>
    exact keep_bind (keep_mono (keep_isTypeOf _ _ _)) fun _ => keep_if
      (keep_bind (keep_mono (keep_taskItem hc _ _ _ _)) fun _ => keep_bind (keep_push _ _) fun _ => ih)
      (keep_bind (keep_mono (keep_isTypeOf _ _ _)) fun _ => keep_if
        (keep_try (keep_mono (hc _ _ _)) (fun _ => keep_bind (keep_push _ _) fun _ => ih) fun _ => keep_if ih (keep_throw _)) ih)

theorem keep_decisionBlocks (fuel : Nat) (ig : Bool) (blocks : Nat) (l : List HV) :
    Keep loud (fun a => a = blocks) (decisionBlocksH fuel call ig blocks l) := by
  induction l with
  | nil => exact keep_pure _
  | cons x xs ih =>
    exact keep_bind (keep_mono (keep_isTypeOf _ _ _)) fun _ => keep_if
      (keep_try (keep_mono (hc _ _ _)) (fun _ => keep_bind (keep_push _ _) fun _ => ih) fun _ => keep_if ih (keep_throw _)) ih

theorem keep_rowCells (ig : Bool) (cells : Nat) (l : List HV) : Keep loud (fun a => a = cells) (rowCellsH call ig cells l) := by
  induction l with
  | nil => exact keep_pure _
  | cons x xs ih => exact keep_bind (keep_mono (hc _ _ _)) fun _ => keep_bind (keep_push _ _) fun _ => ih

theorem keep_tableLines (fuel : Nat) (ig : Bool) (lines : Nat) (l : List HV) :
    Keep loud (fun a => a = lines) (tableLinesH fuel call ig lines l) := by
  induction l with
  | nil => exact keep_pure _
  | cons x xs ih =>
    refine keep_try (keep_bind (keep_mono (hc _ _ _)) fun _ => keep_bind (keep_push _ _) fun _ =>
      keep_bind (keep_mono (keep_headerWidth _ _)) fun w => ?_) (fun _ => ih) fun _ => keep_if ih (keep_throw _)
    cases w with
    | none => exact keep_pure _
    | some n => exact keep_push _ _

omit hc in
theorem keep_str {x : Prog Str} (h : Keep loud Nil x) : Keep loud Nil (strValH x) := keep_bind h fun _ => keep_pure _

theorem keep_body (env : Env) (fuel : Nat) (hd : Hd) (items : List (String × HV)) (level : Option Int) (ig : Bool) :
    Keep loud Nil (bodyH env fuel call hd items level ig) := by
  have hcont := fun concat c => keep_content hc concat ig c
  have hdoc := fun c => keep_docContent hc fuel ig c
  have str : ∀ {x : Prog Str}, Keep loud Nil x → Keep loud Nil (strValH x) := fun h => keep_str h
  have leaf : Keep loud Nil ((Prog.ofExcept (dispatch env hd .absent level ig)).bind fun v => Prog.pure (strOr (.imm .none) v)) :=
    keep_bind (keep_of _) fun _ => keep_pure _
  unfold bodyH
  split
  case h_1 => exact str (hdoc _)
  case h_2 =>
    unfold textMdH
    split
    · exact keep_throw _
    · exact keep_bind (keep_val _ _) fun _ => keep_bind (keep_of _) fun _ => keep_pure _
  case h_3 => exact str (hcont _ _)
  case h_4 => exact str (keep_new fun _ => keep_bind (keep_mono (keep_iter _)) fun _ =>
      keep_bind (keep_bulletLines hc _ _ _ _ _) fun _ => keep_join _ _)
  case h_5 => exact str (keep_new fun _ => keep_bind (keep_of _) fun _ => keep_bind (keep_mono (keep_iter _)) fun _ =>
      keep_bind (keep_orderedLines hc _ _ _ _ _ _ _) fun _ => keep_join _ _)
  case h_6 =>
    refine str (keep_bind (hcont _ _) fun _ => keep_bind (keep_of _) fun v => ?_)
    split
    · exact keep_pure _
    · exact keep_throw _
  case h_7 => exact str (hcont _ _)
  case h_8 => exact str (keep_new fun _ => keep_bind (keep_mono (keep_iter _)) fun _ =>
      keep_bind (keep_taskLines hc _ _ _ _ _) fun _ => keep_join _ _)
  case h_9 => exact str (keep_bind (hcont _ _) fun _ => keep_pure _)
  case h_10 => exact str (keep_new fun _ => keep_bind (keep_mono (keep_iter _)) fun _ =>
      keep_bind (keep_decisionBlocks hc _ _ _ _) fun _ => keep_join _ _)
  case h_11 =>
    refine str (keep_bind (keep_of _) fun v => ?_)
    split
    · exact keep_throw _
    · exact keep_bind (hcont _ _) fun _ => keep_pure _
  case h_12 => exact str (keep_bind (hcont _ _) fun _ => keep_bind (keep_of _) fun _ => keep_pure _)
  case h_13 => exact str (hcont _ _)
  case h_14 =>
    refine str (keep_bind (keep_of _) fun v => ?_)
    split
    · exact keep_throw _
    · exact keep_bind (hdoc _) fun _ => keep_pure _
  case h_15 => exact str (keep_bind (hdoc _) fun _ => keep_pure _)
  case h_16 => exact keep_bind (hdoc _) fun _ => keep_bind (keep_of _) fun _ => keep_pure _
  case h_17 => exact str (hdoc _)
  case h_18 => exact str (keep_bind (hcont _ _) fun _ => keep_pure _)
  case h_19 => exact str (keep_bind (hcont _ _) fun _ => keep_pure _)
  case h_20 => exact str (keep_new fun _ => keep_bind (keep_mono (keep_iter _)) fun _ =>
      keep_bind (keep_rowCells hc _ _ _) fun _ => keep_bind (keep_join _ _) fun _ => keep_pure _)
  case h_21 => exact str (keep_new fun _ => keep_bind (keep_mono (keep_iter _)) fun _ =>
      keep_bind (keep_tableLines hc _ _ _ _) fun _ => keep_join _ _)
  case h_22 => exact leaf

omit hc in
theorem keep_markdown (env : Env) (fuel : Nat) : ∀ (x : HV) (level : Option Int) (ig : Bool), Keep loud Nil (markdownH env fuel x level ig) := by
  induction fuel with
  | zero => intro _ _ _; exact keep_throw _
  | succ fuel ih =>
    intro x level ig
    rw [markdownH]
    refine keep_bind (keep_nodeOf _) fun p => keep_if (keep_throw _) ?_
    exact keep_bind (keep_marks _ _) fun _ => keep_bind (keep_hd _ _ _ _) fun _ => keep_body ih env fuel _ _ _ _

end Verif.HeapMd
