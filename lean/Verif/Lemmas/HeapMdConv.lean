import Verif.Lemmas.HeapMdRead
import Verif.Lemmas.Md
/-! # Converting on the heap -/

namespace Verif.HeapMd
open Verif Verif.Spec

variable {P : Nat → Prop} {h0 : Heap}

/-- What a grandparent needs to know of a child. -/
def KidRel (P : Nat → Prop) (h0 : Heap) (fuel : Nat) (call : Call) (k : Kid) (x : HV) : Prop :=
  (∀ l g, Sim P h0 (IsJson P h0) (call x l g) (k.render l g)) ∧ ∀ ex, Sim P h0 Eq (isTypeOfH fuel x ex) (k.isTypeOf ex)

/-- What a parent needs to know of a child. -/
def ItemRel (P : Nat → Prop) (h0 : Heap) (fuel : Nat) (call : Call) (k : Item) (x : HV) : Prop :=
  KidRel P h0 fuel call k.toKid x ∧
  Sim P h0 (List.Forall₂ (KidRel P h0 fuel call)) (iterContentH x) (iterSlot alienKid k.content) ∧
  Sim P h0 Eq (stateH fuel x) (getAttr k.attrs "state") ∧
  Sim P h0 Eq (headerWidthH fuel x) (headerWidth k.content)

/-- The `content` attribute and the children. -/
def SlotRel (P : Nat → Prop) (h0 : Heap) (fuel : Nat) (call : Call) (content : Slot (List Item)) (c : Option HV) : Prop :=
  Sim P h0 (List.Forall₂ (ItemRel P h0 fuel call)) (iterH c) (iterSlot alienItem content) ∧ (c = some (.imm .opt) ↔ content = .opt)

section
variable {α γ : Type} {K : α → HV → Prop}

theorem loop_collect (ig : Bool) {pre : α → Except PyErr γ} {f : γ → α → Except PyErr Val} {preH : HV → Prog γ} {fH : γ → HV → Prog HV}
    (hp : ∀ a x, K a x → Sim P h0 Eq (preH x) (pre a)) (hf : ∀ c a x, K a x → Sim P h0 (IsJson P h0) (fH c x) (f c a))
    {as : List α} {xs : List HV} (h : List.Forall₂ K as xs) (lst : Nat) :
    LoopSim P h0 (IsJson P h0) lst (collectH ig preH fH lst xs) (collectPre ig pre f as) := by
  induction h with
  | nil => exact loop_done
  | @cons a x as xs hk _ ih =>
    refine loop_bind (hp a x hk) ?_
    cases hpa : pre a with
    | error e => simp only [collectPre, hpa]
    | ok c =>
      rintro _ rfl
      refine loop_try (hf c a x hk) ?_
      cases hfa : f c a with
      | error e =>
        simp only [collectPre, hpa, hfa]
        cases ig
        · exact loop_throw e
        · exact ih
      | ok b =>
        intro y hy
        refine loop_cast (loop_push hy ih) ?_
        simp only [collectPre, hpa, hfa]
        cases collectPre ig pre f as <;> rfl
end

variable {fuel : Nat} {call : Call}

theorem json_str (s : Str) : IsJson P h0 (.str s) (.imm (.str s)) := ⟨.str s, rfl, rfl⟩

theorem content_unopt {c : Option HV} (concat : Str) (ig : Bool) (h : c ≠ some (.imm .opt)) : contentToMarkdownH call concat ig c =
    newList.bind fun lst => (iterH c).bind fun xs =>
      (collectH ig (fun _ => Prog.pure ()) (fun _ x => call x none false) lst xs).bind fun _ => joinH concat lst := by
  unfold contentToMarkdownH
  split
  · exact absurd rfl h
  · rfl

theorem sim_content {content : Slot (List Item)} {c : Option HV} (h : SlotRel P h0 fuel call content c) (concat : Str) (ig : Bool) :
    Sim P h0 Eq (contentToMarkdownH call concat ig c) (contentToMarkdown concat ig content) := by
  by_cases ho : c = some (.imm .opt)
  · rw [h.2.1 ho, ho]
    exact sim_pure rfl
  · have hno : content ≠ .opt := fun e => ho (h.2.2 e)
    rw [content_unopt concat ig ho]
    refine sim_cast (sim_list_iter (r := fun l => collect ig (fun (k : Item) => k.render none false) l) h.1 fun l xs hl lst =>
      loop_collect ig (fun _ _ _ => sim_pure rfl) (fun _ k x hk => hk.1.1 none false) hl lst) ?_
    unfold contentToMarkdown
    cases content with
    | opt => exact absurd rfl hno
    | _ =>
      simp only
      cases iterSlot alienItem _ with
      | error e => rfl
      | ok l =>
        simp only [Except.bind]
        cases collect ig (fun (k : Item) => k.render none false) l <;> rfl

theorem sim_pad {v : Val} {x : HV} (h : IsJson P h0 v x) : Sim P h0 (IsJson P h0) (padH x) (padNewlines v) := by
  cases v with
  | list l => obtain ⟨a, _, rfl, _⟩ := h; exact sim_throw _
  | dict d => obtain ⟨a, _, rfl, _⟩ := h; exact sim_throw _
  | str s => obtain ⟨i, rfl, hi⟩ := h; cases i <;> cases hi; exact sim_pure (json_str _)
  | _ => obtain ⟨i, rfl, hi⟩ := h; cases i <;> cases hi <;> exact sim_throw _

theorem sim_docBlock {k : Item} {x : HV} (h : ItemRel P h0 fuel call k x) : Sim P h0 (IsJson P h0) (docBlockH fuel call x) (docBlock k) := by
  unfold docBlockH docBlock
  refine sim_bind (h.1.2 _) ?_
  cases k.isTypeOf [.bulletList, .orderedList, .codeBlock] with
  | error e => rfl
  | ok b =>
    rintro _ rfl
    cases b
    · exact h.1.1 none false
    · refine sim_bind (h.1.1 none false) ?_
      simp only
      cases k.render none false with
      | error e => rfl
      | ok v => exact fun y hy => sim_pad hy

theorem docContent_unopt {c : Option HV} (ig : Bool) (h : c ≠ some (.imm .opt)) : docContentToMarkdownH fuel call ig c =
    (newList.bind fun lst => (iterH c).bind fun xs =>
      (collectH ig (fun _ => Prog.pure ()) (fun _ x => docBlockH fuel call x) lst xs).bind fun _ => joinH [Str.nl] lst).bind
        fun s => Prog.pure (stripDoubleEmptyLine 3 s) := by
  unfold docContentToMarkdownH
  split
  · exact absurd rfl h
  · simp only [Prog.bind_assoc]

theorem sim_docContent {content : Slot (List Item)} {c : Option HV} (h : SlotRel P h0 fuel call content c) (ig : Bool) :
    Sim P h0 Eq (docContentToMarkdownH fuel call ig c) (docContentToMarkdown ig content) := by
  by_cases ho : c = some (.imm .opt)
  · rw [h.2.1 ho, ho]
    exact sim_pure rfl
  · have hno : content ≠ .opt := fun e => ho (h.2.2 e)
    rw [docContent_unopt ig ho]
    refine sim_bind (sim_list_iter (r := fun l => collect ig docBlock l) h.1 fun l xs hl lst =>
      loop_collect (K := ItemRel P h0 fuel call) (pre := fun _ => .ok ()) (preH := fun _ => Prog.pure ()) (f := fun _ k => docBlock k)
        (fH := fun _ x => docBlockH fuel call x) ig (fun _ _ _ => sim_pure rfl) (fun _ k x hk => sim_docBlock hk) hl lst) ?_
    have e : docContentToMarkdown ig content = match (((iterSlot alienItem content).bind fun l => collect ig docBlock l).bind (strJoin [Str.nl])) with
        | .error e => .error e
        | .ok s => .ok (stripDoubleEmptyLine 3 s) := by
      unfold docContentToMarkdown
      cases content with
      | opt => exact absurd rfl hno
      | _ =>
        simp only
        cases iterSlot alienItem _ with
        | error e => rfl
        | ok l =>
          simp only [Except.bind]
          cases collect ig docBlock l with
          | error e => rfl
          | ok lst => rfl
    rw [e]
    generalize (((iterSlot alienItem content).bind fun l => collect ig docBlock l).bind (strJoin [Str.nl])) = q
    cases q with
    | error e => rfl
    | ok s =>
      rintro _ rfl
      exact sim_pure rfl

theorem sim_rstrip {v : Val} {x : HV} (h : IsJson P h0 v x) :
    Sim P h0 (IsJson P h0) (rstripH x) (match rstripVal v with | .error e => .error e | .ok s => .ok (.str s)) := by
  cases v with
  | list l => obtain ⟨a, _, rfl, _⟩ := h; exact sim_throw _
  | dict d => obtain ⟨a, _, rfl, _⟩ := h; exact sim_throw _
  | str s => obtain ⟨i, rfl, hi⟩ := h; cases i <;> cases hi; exact sim_pure (json_str _)
  | _ => obtain ⟨i, rfl, hi⟩ := h; cases i <;> cases hi <;> exact sim_throw _

theorem sim_listItemChild (level : Int) (nested : Bool) {k : Kid} {x : HV} (h : KidRel P h0 fuel call k x) :
    Sim P h0 (IsJson P h0) (listItemChildH call level nested x) (listItemChild level nested k) := by
  cases nested
  · refine sim_bind (h.1 none false) ?_
    unfold listItemChild
    simp only [Bool.false_eq_true, if_false]
    cases k.render none false with
    | error e => rfl
    | ok v => exact fun y hy => sim_rstrip hy
  · exact h.1 _ _

theorem sim_listItem (kind : TypeEnum) (level : Int) (ig : Bool) {k : Item} {x : HV} (h : ItemRel P h0 fuel call k x) :
    Sim P h0 Eq (listItemContentH fuel call kind level ig x) (listItemContent kind level ig k) := by
  refine sim_cast (sim_list_iter (r := fun l => collectPre ig (fun (k : Kid) => k.isTypeOf [kind]) (listItemChild level) l) h.2.1
    fun l xs hl lst => loop_collect (K := KidRel P h0 fuel call) (pre := fun k => k.isTypeOf [kind])
      (preH := fun k => isTypeOfH fuel k [kind]) (f := listItemChild level) (fH := listItemChildH call level) ig
      (fun k x hk => hk.2 _) (fun b k x hk => sim_listItemChild level b hk) hl lst) ?_
  unfold listItemContent
  cases iterSlot alienKid k.content with
  | error e => rfl
  | ok l =>
    simp only [Except.bind]
    cases collectPre ig (fun (k : Kid) => k.isTypeOf [kind]) (listItemChild level) l <;> rfl

theorem strJoin_strs (sep : Str) (l : List Str) : strJoin sep (l.map Val.str) = .ok (Str.join sep l) := by
  have h1 : (l.map Val.str).all (fun v => v.asStr?.isSome) = true := by simp [Val.asStr?]
  have h2 : (l.map Val.str).filterMap Val.asStr? = l := by
    induction l with
    | nil => rfl
    | cons a as ih => simp only [List.map_cons, List.filterMap_cons, Val.asStr?, ih (by simp [Val.asStr?])]
  unfold strJoin
  rw [if_pos h1, h2]

theorem loop_bullet (level : Int) (ig : Bool) {l : List Item} {xs : List HV} (h : List.Forall₂ (ItemRel P h0 fuel call) l xs) (lst : Nat) :
    LoopSim P h0 (IsJson P h0) lst (bulletLinesH fuel call level ig lst xs) ((bulletLines level ig l).map (List.map Val.str)) := by
  induction h with
  | nil => exact loop_done
  | @cons k x l xs hk _ ih =>
    refine loop_bind (hk.1.2 _) ?_
    unfold bulletLines
    cases k.isTypeOf [.listItem] with
    | error e => rfl
    | ok b =>
      rintro _ rfl
      cases b
      · exact ih
      · refine loop_bind (sim_listItem .bulletList level ig hk) ?_
        simp only
        cases listItemContent .bulletList level ig k with
        | error e => rfl
        | ok s =>
          rintro _ rfl
          refine loop_cast (loop_pushAll (f := Val.str) (fun s => json_str s) _ ih) ?_
          cases bulletLines level ig l with
          | error e => rfl
          | ok rest => simp [Except.map]

theorem loop_ordered (env : Env) (level : Int) (ig : Bool) {l : List Item} {xs : List HV} (h : List.Forall₂ (ItemRel P h0 fuel call) l xs)
    (lst : Nat) : ∀ num, LoopSim P h0 (IsJson P h0) lst (orderedLinesH env fuel call level ig lst num xs)
      ((orderedLines env level ig num l).map (List.map Val.str)) := by
  induction h with
  | nil => intro _; exact loop_done
  | @cons k x l xs hk _ ih =>
    intro num
    refine loop_bind (hk.1.2 _) ?_
    unfold orderedLines
    cases k.isTypeOf [.listItem] with
    | error e => rfl
    | ok b =>
      rintro _ rfl
      cases b
      · exact ih num
      · refine loop_bind (sim_listItem .orderedList level ig hk) ?_
        simp only
        cases listItemContent .orderedList level ig k with
        | error e => rfl
        | ok s =>
          rintro _ rfl
          refine loop_cast (loop_pushAll (f := Val.str) (fun s => json_str s) _ (ih _)) ?_
          cases orderedLines env level ig (nextNum num) l with
          | error e => rfl
          | ok rest => simp [Except.map]

theorem sim_map {α β : Type} {m : Prog α} {r : Except PyErr α} (h : Sim P h0 Eq m r) (f : α → β) :
    Sim P h0 Eq (m.bind fun a => Prog.pure (f a)) (r.map f) := by
  refine sim_bind h ?_
  cases r with
  | error e => rfl
  | ok a => rintro _ rfl; exact sim_pure rfl

theorem sim_taskItem (level : Int) (ig : Bool) {k : Item} {x : HV} (h : ItemRel P h0 fuel call k x) :
    Sim P h0 Eq (taskItemLineH fuel call level ig x) (taskItemLine level ig k) := by
  have h1 := sim_list_iter (sep := []) (r := fun l => collect ig (fun (k : Kid) => k.render none false) l) h.2.1
    fun l xs hl lst => loop_collect ig (fun _ _ _ => sim_pure rfl) (fun _ k x hk => hk.1 none false) hl lst
  have h2 := sim_bind (S := (Eq : Str → Str → Prop)) (t := taskItemLine level ig k) (f := fun s => (stateH fuel x).bind fun state =>
    Prog.pure (indentOf level ++ ['-', ' '] ++
      (if state.asStr? = some "DONE".toList then ['[', 'x', ']'] else ['[', ' ', ']']) ++ [' '] ++ Str.rstrip s)) h1 (by
    unfold taskItemLine
    cases iterSlot alienKid k.content with
    | error e => rfl
    | ok l =>
      simp only [Except.bind]
      cases collect ig (fun (k : Kid) => k.render none false) l with
      | error e => rfl
      | ok parts =>
        simp only
        cases strJoin [] parts with
        | error e => rfl
        | ok s =>
          rintro _ rfl
          refine sim_bind h.2.2.1 ?_
          simp only
          cases getAttr k.attrs "state" with
          | error e => rfl
          | ok st => rintro _ rfl; exact sim_pure rfl)
  refine cast (congrArg (fun m => Sim P h0 Eq m _) ?_) h2
  simp only [taskItemLineH, Prog.bind_assoc]

theorem loop_task (level : Int) (ig : Bool) {l : List Item} {xs : List HV} (h : List.Forall₂ (ItemRel P h0 fuel call) l xs) (lst : Nat) :
    LoopSim P h0 (IsJson P h0) lst (taskLinesH fuel call level ig lst xs) (taskLines level ig l) := by
  induction h with
  | nil => exact loop_done
  | @cons k x l xs hk _ ih =>
    refine loop_bind (hk.1.2 _) ?_
    unfold taskLines
    cases k.isTypeOf [.taskItem] with
    | error e => rfl
    | ok b =>
      rintro _ rfl
      cases b
      · refine loop_bind (hk.1.2 _) ?_
        simp only
        cases k.isTypeOf [.taskList] with
        | error e => rfl
        | ok b =>
          rintro _ rfl
          cases b
          · exact ih
          · refine loop_try (hk.1.1 _ _) ?_
            simp only
            cases k.render (some (level + 1)) ig with
            | error e =>
              cases ig
              · exact loop_throw e
              · exact ih
            | ok md =>
              intro y hy
              refine loop_cast (loop_push hy ih) ?_
              cases taskLines level ig l <;> rfl
      · refine loop_bind (sim_taskItem level ig hk) ?_
        simp only
        cases taskItemLine level ig k with
        | error e => rfl
        | ok s =>
          rintro _ rfl
          refine loop_cast (loop_push (json_str _) ih) ?_
          cases taskLines level ig l <;> rfl

theorem loop_decision (ig : Bool) {l : List Item} {xs : List HV} (h : List.Forall₂ (ItemRel P h0 fuel call) l xs) (lst : Nat) :
    LoopSim P h0 (IsJson P h0) lst (decisionBlocksH fuel call ig lst xs) (decisionBlocks ig l) := by
  induction h with
  | nil => exact loop_done
  | @cons k x l xs hk _ ih =>
    refine loop_bind (hk.1.2 _) ?_
    unfold decisionBlocks
    cases k.isTypeOf [.decisionItem] with
    | error e => rfl
    | ok b =>
      rintro _ rfl
      cases b
      · exact ih
      · refine loop_try (hk.1.1 _ _) ?_
        simp only
        cases k.render none ig with
        | error e =>
          cases ig
          · exact loop_throw e
          · exact ih
        | ok md =>
          intro y hy
          refine loop_cast (loop_push hy ih) ?_
          cases decisionBlocks ig l <;> rfl

theorem loop_row (ig : Bool) {l : List Item} {xs : List HV} (h : List.Forall₂ (ItemRel P h0 fuel call) l xs) (lst : Nat) :
    LoopSim P h0 (IsJson P h0) lst (rowCellsH call ig lst xs) (rowCells ig l) := by
  induction h with
  | nil => exact loop_done
  | @cons k x l xs hk _ ih =>
    refine loop_bind (hk.1.1 _ _) ?_
    unfold rowCells
    cases k.render none ig with
    | error e => rfl
    | ok md =>
      intro y hy
      refine loop_cast (loop_push hy ih) ?_
      cases rowCells ig l <;> rfl

/-- The `try` around a row contains the loop's own appends: the program in another order. -/
theorem table_step (ig : Bool) (lst : Nat) (x : HV) (xs : List HV) : tableLinesH fuel call ig lst (x :: xs) =
    Prog.tryElse (call x none false)
      (fun md => Prog.tryElse (push lst md)
        (fun _ => Prog.tryElse (headerWidthH fuel x)
          (fun w => match w with
            | some n => Prog.tryElse (push lst (.imm (.str (separatorLine n)))) (fun _ => tableLinesH fuel call ig lst xs)
                (fun e => if ig then tableLinesH fuel call ig lst xs else Prog.throw e)
            | none => tableLinesH fuel call ig lst xs)
          (fun e => if ig then tableLinesH fuel call ig lst xs else Prog.throw e))
        (fun e => if ig then tableLinesH fuel call ig lst xs else Prog.throw e))
      (fun e => if ig then tableLinesH fuel call ig lst xs else Prog.throw e) := by
  rw [tableLinesH]
  simp only [Prog.bind_try]
  congr 1
  funext md
  congr 1
  funext _
  congr 1
  funext w
  cases w <;> rfl

theorem loop_table (ig : Bool) {l : List Item} {xs : List HV} (h : List.Forall₂ (ItemRel P h0 fuel call) l xs) (lst : Nat) :
    LoopSim P h0 (IsJson P h0) lst (tableLinesH fuel call ig lst xs) (tableLines ig l) := by
  induction h with
  | nil => exact loop_done
  | @cons k x l xs hk _ ih =>
    rw [table_step]
    refine loop_try (hk.1.1 _ _) ?_
    unfold tableLines
    cases k.render none false with
    | error e =>
      cases ig
      · exact loop_throw e
      · exact ih
    | ok md =>
      intro y hy
      simp only
      have key : LoopSim P h0 (IsJson P h0) lst
          (Prog.tryElse (headerWidthH fuel x)
            (fun w => match w with
              | some n => Prog.tryElse (push lst (.imm (.str (separatorLine n)))) (fun _ => tableLinesH fuel call ig lst xs)
                  (fun e => if ig then tableLinesH fuel call ig lst xs else Prog.throw e)
              | none => tableLinesH fuel call ig lst xs)
            (fun e => if ig then tableLinesH fuel call ig lst xs else Prog.throw e))
          (match headerWidth k.content with
            | .error e => if ig then tableLines ig l else .error e
            | .ok (some n) => (tableLines ig l).map (.str (separatorLine n) :: ·)
            | .ok none => tableLines ig l) := by
        refine loop_try hk.2.2.2 ?_
        cases headerWidth k.content with
        | error e =>
          cases ig
          · exact loop_throw e
          · exact ih
        | ok w =>
          rintro _ rfl
          cases w with
          | none => exact ih
          | some n => exact loop_pushTry (json_str _) ih
      refine loop_cast (loop_pushTry hy key) ?_
      cases headerWidth k.content with
      | error e =>
        cases ig
        · rfl
        · simp only [if_true]
          cases tableLines true l <;> rfl
      | ok w =>
        cases w with
        | none => simp only; cases tableLines ig l <;> rfl
        | some n => simp only; cases tableLines ig l <;> rfl

end Verif.HeapMd
