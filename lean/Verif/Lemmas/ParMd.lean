import Verif.Model.HeapMd
import Verif.Lemmas.HeapMdConv
import Verif.Lemmas.ParProg
/-! # `to_markdown` does not depend on where its objects are -/

namespace Verif.HeapMd
open Verif Verif.Par

variable {α β γ : Type} {P : Nat → Prop} {R R' : Pairs} {Q : Pairs → α → β → Prop}

/-- Equal values. -/
abbrev E {α : Type} : Pairs → α → α → Prop := fun _ a b => a = b

abbrev V (P : Nat → Prop) : Pairs → HV → HV → Prop := fun R x y => VRel P R x y
abbrev U : Pairs → Unit → Unit → Prop := fun _ _ _ => True
abbrev L (P : Nat → Prop) : Pairs → List HV → List HV → Prop := fun R xs ys => List.Forall₂ (VRel P R) xs ys

theorem par_pure {a : α} {b : β} (h : Q R a b) : Par P Q R (Prog.pure a) (Prog.pure b) := .ret h

theorem par_throw (e : HErr) : Par P Q R (Prog.throw e) (Prog.throw e) := .fail e

theorem L.mono {xs ys : List HV} (h : L P R xs ys) (hs : Sub R R') : L P R' xs ys := List.Forall₂.imp (fun _ _ h => h.mono hs) h

/-- After a computation of a value. -/
theorem par_eq {γ : Type} {x x' : Prog γ} {f : γ → Prog α} {f' : γ → Prog β} (w : Wf P R) (h : Par P E R x x')
    (hf : ∀ R' c, Sub R R' → Wf P R' → Par P Q R' (f c) (f' c)) : Par P Q R (x.bind f) (x'.bind f') :=
  par_bind w h fun R' a b s w' hab => by cases hab; exact hf R' a s w'

inductive OVRel (P : Nat → Prop) (R : Pairs) : Option HV → Option HV → Prop
  | none : OVRel P R none none
  | some {x y : HV} (h : VRel P R x y) : OVRel P R (some x) (some y)

theorem OVRel.mono {x y : Option HV} (h : OVRel P R x y) (hs : Sub R R') : OVRel P R' x y := by
  cases h with
  | none => exact .none
  | some h => exact .some (h.mono hs)

theorem get_rel {l m : List (String × HV)} (h : IRel P R l m) (k : String) : OVRel P R (itemGet l k) (itemGet m k) := by
  rcases itemGet_rel h k with ⟨h1, h2⟩ | ⟨v, w, h1, h2, hv⟩
  · rw [h1, h2]; exact .none
  · rw [h1, h2]; exact .some hv

theorem ref_rel {a : Nat} {y : HV} (h : VRel P R (.ref a) y) : ∃ b, y = .ref b := by cases h <;> exact ⟨_, rfl⟩

/-! ## Reading -/

mutual
theorem par_val : (fuel : Nat) → ∀ {R : Pairs} {x y : HV}, Wf P R → VRel P R x y → Par P E R (readVal fuel x) (readVal fuel y)
  | fuel, R, .imm i, y, w, h => by
    cases h
    rw [readVal]
    exact par_pure rfl
  | 0, R, .ref a, y, w, h => by
    obtain ⟨b, rfl⟩ := ref_rel h
    rw [readVal, readVal]
    exact par_throw _
  | fuel + 1, R, .ref a, y, w, h => by
    obtain ⟨b, rfl⟩ := ref_rel h
    rw [readVal, readVal]
    refine par_bind w (par_read h) fun R1 o o' s1 w1 ho => ?_
    rw [ho.kind]
    cases o'.kind with
    | list => exact par_eq w1 (par_items fuel o.items w1 ho.items) fun R2 d s2 w2 => par_pure rfl
    | dict => exact par_eq w1 (par_items fuel o.items w1 ho.items) fun R2 d s2 w2 => par_pure rfl
    | inst _ => exact par_throw _
termination_by fuel => (fuel, 0)

theorem par_items : (fuel : Nat) → (l : List (String × HV)) → ∀ {R : Pairs} {m : List (String × HV)}, Wf P R → IRel P R l m →
    Par P E R (readItems fuel l) (readItems fuel m)
  | fuel, [], R, m, w, h => by
    cases h
    rw [readItems]
    exact par_pure rfl
  | fuel, (k, v) :: rest, R, m, w, h => by
    cases h with
    | @cons _ e _ rest' he ht =>
      obtain ⟨k', v'⟩ := e
      cases (he.1 : k = k')
      rw [readItems, readItems]
      refine par_eq w (par_val fuel w he.2) fun R1 c s1 w1 => ?_
      exact par_eq w1 (par_items fuel rest w1 (IRel.mono ht s1)) fun R2 d s2 w2 => par_pure rfl
termination_by fuel l => (fuel, l.length + 1)
end

theorem par_plain (w : Wf P R) (fuel : Nat) {x y : Option HV} (h : OVRel P R x y) : Par P E R (readPlain fuel x) (readPlain fuel y) := by
  cases h with
  | none => exact par_pure rfl
  | some h => exact par_eq w (par_val fuel w h) fun R1 c s1 w1 => par_pure rfl

theorem par_attrs (w : Wf P R) (fuel : Nat) {x y : Option HV} (h : OVRel P R x y) : Par P E R (readAttrs fuel x) (readAttrs fuel y) := by
  cases h with
  | none => exact par_pure rfl
  | @some x y h =>
    cases x with
    | imm i => cases h; exact par_pure rfl
    | ref a =>
      obtain ⟨b, rfl⟩ := ref_rel h
      refine par_bind w (par_read h) fun R1 o o' s1 w1 ho => ?_
      rw [ho.kind]
      have other := par_eq (Q := E) (f := fun v => Prog.pure (Slot.raw v : Slot AttrsObj)) (f' := fun v => Prog.pure (Slot.raw v)) w1
        (par_val fuel w1 (h.mono s1)) fun R2 c s2 w2 => par_pure rfl
      cases o'.kind with
      | list => exact other
      | dict => exact other
      | inst t =>
        cases t with
        | attrs => exact par_eq w1 (par_items fuel _ w1 ho.items) fun R2 d s2 w2 => par_pure rfl
        | mark c => exact par_throw _
        | node c => exact par_throw _

theorem par_mark (w : Wf P R) (fuel : Nat) {x y : HV} (h : VRel P R x y) : Par P E R (readMark fuel x) (readMark fuel y) := by
  cases x with
  | imm i => cases h; exact par_pure rfl
  | ref a =>
    obtain ⟨b, rfl⟩ := ref_rel h
    refine par_bind w (par_read h) fun R1 o o' s1 w1 ho => ?_
    rw [ho.kind]
    cases o'.kind with
    | list => exact par_pure rfl
    | dict => exact par_pure rfl
    | inst t =>
      cases t with
      | mark c =>
        refine par_eq w1 (par_plain w1 fuel (get_rel ho.items "type")) fun R2 t s2 w2 => ?_
        exact par_eq w2 (par_attrs w2 fuel (get_rel (ho.items.mono s2) "attrs")) fun R3 t s3 w3 => par_pure rfl
      | attrs => exact par_pure rfl
      | node c => exact par_pure rfl

theorem par_markList (fuel : Nat) (l : List (String × HV)) : ∀ {R : Pairs} {m : List (String × HV)}, Wf P R → IRel P R l m →
    Par P E R (readMarkList fuel l) (readMarkList fuel m) := by
  induction l with
  | nil => intro R m w h; cases h; exact par_pure rfl
  | cons e rest ih =>
    intro R m w h
    cases h with
    | @cons _ e' _ rest' he ht =>
      refine par_eq w (par_mark w fuel he.2) fun R1 o s1 w1 => ?_
      cases o with
      | none => exact par_pure rfl
      | some x => exact par_eq w1 (ih w1 (IRel.mono ht s1)) fun R2 d s2 w2 => par_pure rfl

theorem par_marks (w : Wf P R) (fuel : Nat) {x y : Option HV} (h : OVRel P R x y) : Par P E R (readMarks fuel x) (readMarks fuel y) := by
  cases h with
  | none => exact par_pure rfl
  | @some x y h =>
    cases x with
    | imm i => cases h; exact par_pure rfl
    | ref a =>
      obtain ⟨b, rfl⟩ := ref_rel h
      refine par_bind w (par_read h) fun R1 o o' s1 w1 ho => ?_
      rw [ho.kind]
      have other := par_eq (Q := E) (f := fun v => Prog.pure (Slot.raw v : Slot (List Mark))) (f' := fun v => Prog.pure (Slot.raw v)) w1
        (par_val fuel w1 (h.mono s1)) fun R2 c s2 w2 => par_pure rfl
      cases o'.kind with
      | list => exact par_eq w1 (par_markList fuel _ w1 ho.items) fun R2 d s2 w2 => par_pure rfl
      | dict => exact other
      | inst t => exact other

theorem par_hd (w : Wf P R) (fuel : Nat) (c : NodeCls) {l m : List (String × HV)} (h : IRel P R l m) (marks : Slot (List Mark)) :
    Par P E R (readHd fuel c l marks) (readHd fuel c m marks) :=
  par_eq w (par_plain w fuel (get_rel h _)) fun _ _ s1 w1 =>
  par_eq w1 (par_plain w1 fuel (get_rel (h.mono s1) _)) fun _ _ s2 w2 =>
  par_eq w2 (par_plain w2 fuel (get_rel ((h.mono s1).mono s2) _)) fun _ _ s3 w3 =>
  par_eq w3 (par_attrs w3 fuel (get_rel (((h.mono s1).mono s2).mono s3) _)) fun _ _ _ _ => par_pure rfl

theorem par_nodeOf (w : Wf P R) {x y : HV} (h : VRel P R x y) : Par P (fun R p q => p.1 = q.1 ∧ IRel P R p.2 q.2) R (nodeOf x) (nodeOf y) := by
  cases x with
  | imm i => cases h; exact par_throw _
  | ref a =>
    obtain ⟨b, rfl⟩ := ref_rel h
    refine par_bind w (par_read h) fun R1 o o' s1 w1 ho => ?_
    rw [ho.kind]
    cases o'.kind with
    | list => exact par_throw _
    | dict => exact par_throw _
    | inst t =>
      cases t with
      | mark c => exact par_throw _
      | attrs => exact par_throw _
      | node c => exact par_pure ⟨rfl, ho.items⟩

theorem par_isTypeOf (w : Wf P R) (fuel : Nat) {x y : HV} (h : VRel P R x y) (l : List TypeEnum) :
    Par P E R (isTypeOfH fuel x l) (isTypeOfH fuel y l) :=
  par_bind w (par_nodeOf w h) fun _ _ _ _ w1 hp => par_eq w1 (par_plain w1 fuel (get_rel hp.2 _)) fun _ _ _ _ => par_pure rfl

theorem snd_rel {l m : List (String × HV)} (h : IRel P R l m) : L P R (l.map Prod.snd) (m.map Prod.snd) := by
  induction h with
  | nil => exact .nil
  | cons he _ ih => exact .cons he.2 ih

theorem keys_rel {l m : List (String × HV)} (h : IRel P R l m) :
    L P R (l.map fun e => .imm (.str e.1.toList)) (m.map fun e => .imm (.str e.1.toList)) := by
  induction h with
  | nil => exact .nil
  | cons he _ ih => exact .cons (by simp only [he.1]; exact .imm _) ih

theorem chars_rel (s : Str) : L P R (s.map fun ch => .imm (.str [ch])) (s.map fun ch => .imm (.str [ch])) := by
  induction s with
  | nil => exact .nil
  | cons c s ih => exact .cons (.imm _) ih

theorem par_iter (w : Wf P R) {c d : Option HV} (h : OVRel P R c d) : Par P (L P) R (iterH c) (iterH d) := by
  cases h with
  | none => exact par_throw _
  | @some x y h =>
    cases x with
    | imm i =>
      cases h
      cases i <;> first | exact par_pure (chars_rel _) | exact par_throw _
    | ref a =>
      obtain ⟨b, rfl⟩ := ref_rel h
      refine par_bind w (par_read h) fun R1 o o' s1 w1 ho => ?_
      rw [ho.kind]
      cases o'.kind with
      | list => exact par_pure (snd_rel ho.items)
      | dict => exact par_pure (keys_rel ho.items)
      | inst t => exact par_throw _

theorem par_iterContent (w : Wf P R) {x y : HV} (h : VRel P R x y) : Par P (L P) R (iterContentH x) (iterContentH y) :=
  par_bind w (par_nodeOf w h) fun _ _ _ _ w1 hp => par_iter w1 (get_rel hp.2 _)

theorem par_state (w : Wf P R) (fuel : Nat) {x y : HV} (h : VRel P R x y) : Par P E R (stateH fuel x) (stateH fuel y) :=
  par_bind w (par_nodeOf w h) fun _ _ _ _ w1 hp => par_eq w1 (par_attrs w1 fuel (get_rel hp.2 _)) fun _ _ _ _ => par_of _

theorem par_headerWidth (w : Wf P R) (fuel : Nat) {x y : HV} (h : VRel P R x y) : Par P E R (headerWidthH fuel x) (headerWidthH fuel y) := by
  refine par_bind w (par_nodeOf w h) fun R1 p q s1 w1 hp => ?_
  have hc := get_rel hp.2 "content"
  revert hc
  generalize itemGet p.2 "content" = c
  generalize itemGet q.2 "content" = d
  intro hc
  cases hc with
  | none => exact par_throw _
  | @some x y h =>
    cases x with
    | imm i =>
      cases h
      cases i with
      | str s => cases s <;> exact par_throw _
      | _ => exact par_throw _
    | ref a =>
      obtain ⟨b, rfl⟩ := ref_rel h
      refine par_bind w1 (par_read h) fun R2 o o' s2 w2 ho => ?_
      rw [ho.kind]
      cases o'.kind with
      | inst t => exact par_throw _
      | dict => exact par_throw _
      | list =>
        obtain ⟨k, l⟩ := o
        obtain ⟨k', l'⟩ := o'
        have hi : IRel P R2 l l' := ho.items
        cases hi with
        | nil => exact par_throw _
        | @cons e e' rest rest' he ht =>
          have hlen : rest.length = rest'.length := List.Forall₂.length_eq ht
          show Par P E R2 ((isTypeOfH fuel e.2 [.tableHeader]).bind fun b => Prog.pure (if b then some (rest.length + 1) else none))
            ((isTypeOfH fuel e'.2 [.tableHeader]).bind fun b => Prog.pure (if b then some (rest'.length + 1) else none))
          rw [hlen]
          exact par_eq w2 (par_isTypeOf w2 fuel he.2 _) fun R3 b s3 w3 => par_pure rfl

/-! ## Lists that are filled -/

theorem par_newList (w : Wf P R) {f : Nat → Prog α} {f' : Nat → Prog β}
    (h : ∀ R' a b, Sub R R' → Wf P R' → (a, b) ∈ R' → Par P Q R' (f a) (f' b)) : Par P Q R (newList.bind f) (newList.bind f') :=
  par_bind w (par_alloc ⟨rfl, .nil⟩) fun R' a b s w' hab => h R' a b s w' hab

theorem par_push {a b : Nat} (h : (a, b) ∈ R) {x y : HV} (hx : VRel P R x y) : Par P U R (push a x) (push b y) := par_append h hx

theorem par_pushAll {a b : Nat} (l : List Str) : ∀ {R : Pairs}, Wf P R → (a, b) ∈ R → Par P U R (pushAll a l) (pushAll b l) := by
  induction l with
  | nil => intro R w h; exact par_pure trivial
  | cons s ss ih => intro R w h; exact par_bind w (par_push h (.imm _)) fun R1 _ _ s1 w1 _ => ih w1 (s1 _ h)

theorem views_rel {l m : List (String × HV)} (h : IRel P R l m) : (l.map fun e => strView e.2) = m.map fun e => strView e.2 := by
  induction h with
  | nil => rfl
  | @cons e f l m he _ ih =>
    obtain ⟨k, v⟩ := e
    obtain ⟨k', v'⟩ := f
    have hv : VRel P R v v' := he.2
    simp only [List.map_cons, ih]
    cases hv <;> rfl

theorem par_join (w : Wf P R) (sep : Str) {a b : Nat} (h : (a, b) ∈ R) : Par P E R (joinH sep a) (joinH sep b) := by
  refine par_bind w (par_read (.own h)) fun R1 o o' s1 w1 ho => ?_
  rw [views_rel ho.items]
  exact par_of _

theorem par_collect (ig : Bool) {pre pre' : HV → Prog γ} {f f' : γ → HV → Prog HV} {a b : Nat} (l : List HV) :
    ∀ {R : Pairs} {m : List HV}, Wf P R → (a, b) ∈ R →
    (∀ R', Sub R R' → Wf P R' → ∀ x y, VRel P R' x y → Par P E R' (pre x) (pre' y)) →
    (∀ R', Sub R R' → Wf P R' → ∀ c x y, VRel P R' x y → Par P (V P) R' (f c x) (f' c y)) → L P R l m →
    Par P U R (collectH ig pre f a l) (collectH ig pre' f' b m) := by
  induction l with
  | nil => intro R m w _ _ _ hl; cases hl; exact par_pure trivial
  | cons x xs ih =>
    intro R m w hab hp hf hl
    cases hl with
    | @cons _ y _ ys hxy ht =>
      refine par_eq w (hp R (fun _ h => h) w x y hxy) fun R1 c s1 w1 => ?_
      have rest : ∀ R2, Sub R1 R2 → Wf P R2 → Par P U R2 (collectH ig pre f a xs) (collectH ig pre' f' b ys) := fun R2 s2 w2 =>
        ih w2 (s2 _ (s1 _ hab)) (fun R' s => hp R' fun p h => s p (s2 p (s1 p h))) (fun R' s => hf R' fun p h => s p (s2 p (s1 p h)))
          (L.mono (L.mono ht s1) s2)
      refine par_try w1 (hf R1 s1 w1 c x y (hxy.mono s1)) (fun R2 r r' s2 w2 hr => ?_) fun R2 e s2 w2 => ?_
      · exact par_bind w2 (par_push (s2 _ (s1 _ hab)) hr) fun R3 _ _ s3 w3 _ => rest R3 (fun p h => s3 p (s2 p h)) w3
      · cases ig
        · exact par_throw _
        · exact rest R2 s2 w2

/-! ## Converting -/

/-- The calls on the children. -/
def Calls (P : Nat → Prop) (R : Pairs) (call call' : Call) : Prop :=
  ∀ R', Sub R R' → Wf P R' → ∀ x y, VRel P R' x y → ∀ l g, Par P (V P) R' (call x l g) (call' y l g)

variable {call call' : Call}

theorem Calls.mono (h : Calls P R call call') (hs : Sub R R') : Calls P R' call call' := fun R2 s => h R2 fun p hp => s p (hs p hp)

theorem Calls.at (h : Calls P R call call') (w : Wf P R) {x y : HV} (hx : VRel P R x y) (l : Option Int) (g : Bool) :
    Par P (V P) R (call x l g) (call' y l g) := h R (fun _ h => h) w x y hx l g

theorem par_fill (w : Wf P R) {γ : Type} (ig : Bool) {pre pre' : HV → Prog γ} {f f' : γ → HV → Prog HV} {xs xs' : Prog (List HV)}
    (hx : ∀ R', Sub R R' → Wf P R' → Par P (L P) R' xs xs')
    (hp : ∀ R', Sub R R' → Wf P R' → ∀ x y, VRel P R' x y → Par P E R' (pre x) (pre' y))
    (hf : ∀ R', Sub R R' → Wf P R' → ∀ c x y, VRel P R' x y → Par P (V P) R' (f c x) (f' c y)) {k : Nat → Prog α} {k' : Nat → Prog β}
    (hk : ∀ R' a b, Sub R R' → Wf P R' → (a, b) ∈ R' → Par P Q R' (k a) (k' b)) :
    Par P Q R (newList.bind fun a => xs.bind fun l => (collectH ig pre f a l).bind fun _ => k a)
      (newList.bind fun a => xs'.bind fun l => (collectH ig pre' f' a l).bind fun _ => k' a) := by
  refine par_newList w fun R1 a b s1 w1 hab => ?_
  refine par_bind w1 (hx R1 s1 w1) fun R2 l m s2 w2 hl => ?_
  have s : Sub R R2 := fun p h => s2 p (s1 p h)
  refine par_bind w2 (par_collect ig l w2 (s2 _ hab) (fun R' t => hp R' fun p h => t p (s p h)) (fun R' t => hf R' fun p h => t p (s p h)) hl)
    fun R3 _ _ s3 w3 _ => ?_
  exact hk R3 a b (fun p h => s3 p (s p h)) w3 (s3 _ (s2 _ hab))

theorem opt_iff {c d : Option HV} (h : OVRel P R c d) : c = some (.imm .opt) ↔ d = some (.imm .opt) := by
  cases h with
  | none => exact Iff.rfl
  | some h => cases h <;> simp

theorem par_content (w : Wf P R) (hc : Calls P R call call') (concat : Str) (ig : Bool) {c d : Option HV} (h : OVRel P R c d) :
    Par P E R (contentToMarkdownH call concat ig c) (contentToMarkdownH call' concat ig d) := by
  by_cases e : c = some (.imm .opt)
  · rw [e, (opt_iff h).1 e]
    exact par_pure rfl
  · rw [content_unopt _ _ e, content_unopt _ _ fun e' => e ((opt_iff h).2 e')]
    exact par_fill w ig (fun R' s w' => par_iter w' (h.mono s)) (fun _ _ _ _ _ _ => par_pure rfl)
      (fun R' s w' _ x y hx => hc R' s w' x y hx _ _) fun R' a b s w' hab => par_join w' _ hab

theorem par_pad {x y : HV} (h : VRel P R x y) : Par P (V P) R (padH x) (padH y) := by
  cases h with
  | own _ => exact par_throw _
  | doc _ => exact par_throw _
  | imm i => cases i <;> first | exact par_pure (.imm _) | exact par_throw _

theorem par_docBlock (w : Wf P R) (hc : Calls P R call call') (fuel : Nat) {x y : HV} (h : VRel P R x y) :
    Par P (V P) R (docBlockH fuel call x) (docBlockH fuel call' y) := by
  refine par_eq w (par_isTypeOf w fuel h _) fun R1 b s1 w1 => ?_
  have h1 := hc R1 s1 w1 x y (h.mono s1) none false
  cases b
  · exact h1
  · exact par_bind w1 h1 fun _ _ _ _ _ hr => par_pad hr

theorem par_docContent (w : Wf P R) (hc : Calls P R call call') (fuel : Nat) (ig : Bool) {c d : Option HV} (h : OVRel P R c d) :
    Par P E R (docContentToMarkdownH fuel call ig c) (docContentToMarkdownH fuel call' ig d) := by
  by_cases e : c = some (.imm .opt)
  · rw [e, (opt_iff h).1 e]
    exact par_pure rfl
  · rw [docContent_unopt _ e, docContent_unopt _ fun e' => e ((opt_iff h).2 e')]
    refine par_eq w ?_ fun _ _ _ _ => par_pure rfl
    exact par_fill w ig (fun R' s w' => par_iter w' (h.mono s)) (fun _ _ _ _ _ _ => par_pure rfl)
      (fun R' s w' _ x y hx => par_docBlock w' (hc.mono s) fuel hx) fun R' a b s w' hab => par_join w' _ hab

theorem par_listItemChild (w : Wf P R) (hc : Calls P R call call') (level : Int) (nested : Bool) {x y : HV} (h : VRel P R x y) :
    Par P (V P) R (listItemChildH call level nested x) (listItemChildH call' level nested y) := by
  cases nested
  · refine par_bind w (hc.at w h none false) fun R1 r r' s1 w1 hr => ?_
    cases hr with
    | own _ => exact par_throw _
    | doc _ => exact par_throw _
    | imm i => cases i <;> first | exact par_pure (.imm _) | exact par_throw _
  · exact hc.at w h _ _

theorem par_listItem (w : Wf P R) (hc : Calls P R call call') (fuel : Nat) (kind : TypeEnum) (level : Int) (ig : Bool) {x y : HV} (h : VRel P R x y) :
    Par P E R (listItemContentH fuel call kind level ig x) (listItemContentH fuel call' kind level ig y) :=
  par_fill w ig (fun R' s w' => par_iterContent w' (h.mono s)) (fun R' s w' x y hx => par_isTypeOf w' fuel hx _)
    (fun R' s w' c x y hx => par_listItemChild w' (hc.mono s) level c hx) fun R' a b s w' hab => par_join w' _ hab

theorem par_bulletLines (fuel : Nat) (level : Int) (ig : Bool) {a b : Nat} (l : List HV) : ∀ {R : Pairs} {m : List HV}, Wf P R →
    Calls P R call call' → (a, b) ∈ R → L P R l m → Par P U R (bulletLinesH fuel call level ig a l) (bulletLinesH fuel call' level ig b m) := by
  induction l with
  | nil => intro R m w _ _ hl; cases hl; exact par_pure trivial
  | cons x xs ih =>
    intro R m w hc hab hl
    cases hl with
    | @cons _ y _ ys hxy ht =>
      refine par_eq w (par_isTypeOf w fuel hxy _) fun R1 t s1 w1 => ?_
      cases t
      · exact ih w1 (hc.mono s1) (s1 _ hab) (L.mono ht s1)
      · refine par_eq w1 (par_listItem w1 (hc.mono s1) fuel _ level ig (hxy.mono s1)) fun R2 c s2 w2 => ?_
        refine par_bind w2 (par_pushAll _ w2 (s2 _ (s1 _ hab))) fun R3 _ _ s3 w3 _ => ?_
        exact ih w3 (((hc.mono s1).mono s2).mono s3) (s3 _ (s2 _ (s1 _ hab))) (L.mono (L.mono (L.mono ht s1) s2) s3)

theorem par_orderedLines (env : Env) (fuel : Nat) (level : Int) (ig : Bool) {a b : Nat} (l : List HV) : ∀ {R : Pairs} {m : List HV} (num : Val), Wf P R →
    Calls P R call call' → (a, b) ∈ R → L P R l m →
    Par P U R (orderedLinesH env fuel call level ig a num l) (orderedLinesH env fuel call' level ig b num m) := by
  induction l with
  | nil => intro R m num w _ _ hl; cases hl; exact par_pure trivial
  | cons x xs ih =>
    intro R m num w hc hab hl
    cases hl with
    | @cons _ y _ ys hxy ht =>
      refine par_eq w (par_isTypeOf w fuel hxy _) fun R1 t s1 w1 => ?_
      cases t
      · exact ih _ w1 (hc.mono s1) (s1 _ hab) (L.mono ht s1)
      · refine par_eq w1 (par_listItem w1 (hc.mono s1) fuel _ level ig (hxy.mono s1)) fun R2 c s2 w2 => ?_
        refine par_bind w2 (par_pushAll _ w2 (s2 _ (s1 _ hab))) fun R3 _ _ s3 w3 _ => ?_
        exact ih _ w3 (((hc.mono s1).mono s2).mono s3) (s3 _ (s2 _ (s1 _ hab))) (L.mono (L.mono (L.mono ht s1) s2) s3)

theorem par_taskItem (w : Wf P R) (hc : Calls P R call call') (fuel : Nat) (level : Int) (ig : Bool) {x y : HV} (h : VRel P R x y) :
    Par P E R (taskItemLineH fuel call level ig x) (taskItemLineH fuel call' level ig y) :=
  par_fill w ig (fun R' s w' => par_iterContent w' (h.mono s)) (fun _ _ _ _ _ _ => par_pure rfl)
    (fun R' s w' _ x y hx => hc R' s w' x y hx _ _) fun _ _ _ s w' hab =>
      par_eq w' (par_join w' _ hab) fun _ _ s2 w2 => par_eq w2 (par_state w2 fuel ((h.mono s).mono s2)) fun _ _ _ _ => par_pure rfl

theorem par_taskLines (fuel : Nat) (level : Int) (ig : Bool) {a b : Nat} (l : List HV) : ∀ {R : Pairs} {m : List HV}, Wf P R →
    Calls P R call call' → (a, b) ∈ R → L P R l m → Par P U R (taskLinesH fuel call level ig a l) (taskLinesH fuel call' level ig b m) := by
  induction l with
  | nil => intro R m w _ _ hl; cases hl; exact par_pure trivial
  | cons x xs ih =>
    intro R m w hc hab hl
    cases hl with
    | @cons _ y _ ys hxy ht =>
      refine par_eq w (par_isTypeOf w fuel hxy _) fun R1 t s1 w1 => ?_
      cases t
      · refine par_eq w1 (par_isTypeOf w1 fuel (hxy.mono s1) _) fun R2 t s2 w2 => ?_
        have rest : ∀ R3, Sub R2 R3 → Wf P R3 → Par P U R3 (taskLinesH fuel call level ig a xs) (taskLinesH fuel call' level ig b ys) :=
          fun R3 s3 w3 => ih w3 (((hc.mono s1).mono s2).mono s3) (s3 _ (s2 _ (s1 _ hab))) (L.mono (L.mono (L.mono ht s1) s2) s3)
        cases t
        · exact rest R2 (fun _ h => h) w2
        · refine par_try w2 (((hc.mono s1).mono s2).at w2 ((hxy.mono s1).mono s2) _ _) (fun R3 r r' s3 w3 hr => ?_) fun R3 e s3 w3 => ?_
          · exact par_bind w3 (par_push (s3 _ (s2 _ (s1 _ hab))) hr) fun R4 _ _ s4 w4 _ => rest R4 (fun p h => s4 p (s3 p h)) w4
          · cases ig
            · exact par_throw _
            · exact rest R3 s3 w3
      · refine par_eq w1 (par_taskItem w1 (hc.mono s1) fuel level ig (hxy.mono s1)) fun R2 c s2 w2 => ?_
        refine par_bind w2 (par_push (s2 _ (s1 _ hab)) (.imm _)) fun R3 _ _ s3 w3 _ => ?_
        exact ih w3 (((hc.mono s1).mono s2).mono s3) (s3 _ (s2 _ (s1 _ hab))) (L.mono (L.mono (L.mono ht s1) s2) s3)

theorem par_decisionBlocks (fuel : Nat) (ig : Bool) {a b : Nat} (l : List HV) : ∀ {R : Pairs} {m : List HV}, Wf P R →
    Calls P R call call' → (a, b) ∈ R → L P R l m → Par P U R (decisionBlocksH fuel call ig a l) (decisionBlocksH fuel call' ig b m) := by
  induction l with
  | nil => intro R m w _ _ hl; cases hl; exact par_pure trivial
  | cons x xs ih =>
    intro R m w hc hab hl
    cases hl with
    | @cons _ y _ ys hxy ht =>
      refine par_eq w (par_isTypeOf w fuel hxy _) fun R1 t s1 w1 => ?_
      have rest : ∀ R3, Sub R1 R3 → Wf P R3 → Par P U R3 (decisionBlocksH fuel call ig a xs) (decisionBlocksH fuel call' ig b ys) :=
        fun R3 s3 w3 => ih w3 ((hc.mono s1).mono s3) (s3 _ (s1 _ hab)) (L.mono (L.mono ht s1) s3)
      cases t
      · exact rest R1 (fun _ h => h) w1
      · refine par_try w1 ((hc.mono s1).at w1 (hxy.mono s1) _ _) (fun R3 r r' s3 w3 hr => ?_) fun R3 e s3 w3 => ?_
        · exact par_bind w3 (par_push (s3 _ (s1 _ hab)) hr) fun R4 _ _ s4 w4 _ => rest R4 (fun p h => s4 p (s3 p h)) w4
        · cases ig
          · exact par_throw _
          · exact rest R3 s3 w3

theorem par_rowCells (ig : Bool) {a b : Nat} (l : List HV) : ∀ {R : Pairs} {m : List HV}, Wf P R →
    Calls P R call call' → (a, b) ∈ R → L P R l m → Par P U R (rowCellsH call ig a l) (rowCellsH call' ig b m) := by
  induction l with
  | nil => intro R m w _ _ hl; cases hl; exact par_pure trivial
  | cons x xs ih =>
    intro R m w hc hab hl
    cases hl with
    | @cons _ y _ ys hxy ht =>
      refine par_bind w (hc.at w hxy _ _) fun R1 r r' s1 w1 hr => ?_
      refine par_bind w1 (par_push (s1 _ hab) hr) fun R2 _ _ s2 w2 _ => ?_
      exact ih w2 ((hc.mono s1).mono s2) (s2 _ (s1 _ hab)) (L.mono (L.mono ht s1) s2)

theorem par_tableLines (fuel : Nat) (ig : Bool) {a b : Nat} (l : List HV) : ∀ {R : Pairs} {m : List HV}, Wf P R →
    Calls P R call call' → (a, b) ∈ R → L P R l m → Par P U R (tableLinesH fuel call ig a l) (tableLinesH fuel call' ig b m) := by
  induction l with
  | nil => intro R m w _ _ hl; cases hl; exact par_pure trivial
  | cons x xs ih =>
    intro R m w hc hab hl
    cases hl with
    | @cons _ y _ ys hxy ht =>
      refine par_try (Q := U) w ?_ (fun R1 _ _ s1 w1 _ => ih w1 (hc.mono s1) (s1 _ hab) (L.mono ht s1)) fun R1 e s1 w1 => ?_
      · refine par_bind w (hc.at w hxy _ _) fun R1 r r' s1 w1 hr => ?_
        refine par_bind w1 (par_push (s1 _ hab) hr) fun R2 _ _ s2 w2 _ => ?_
        refine par_eq w2 (par_headerWidth w2 fuel ((hxy.mono s1).mono s2)) fun R3 n s3 w3 => ?_
        cases n with
        | none => exact par_pure trivial
        | some n => exact par_push (s3 _ (s2 _ (s1 _ hab))) (.imm _)
      · cases ig
        · exact par_throw _
        · exact ih w1 (hc.mono s1) (s1 _ hab) (L.mono ht s1)

/-- A list is filled by a loop over the content, and joined. -/
theorem par_lines (w : Wf P R) {c d : Option HV} (h : OVRel P R c d) (sep : Str) {loop loop' : Nat → List HV → Prog Unit}
    (hl : ∀ R' a b l m, Sub R R' → Wf P R' → (a, b) ∈ R' → L P R' l m → Par P U R' (loop a l) (loop' b m)) :
    Par P E R (newList.bind fun lines => (iterH c).bind fun xs => (loop lines xs).bind fun _ => joinH sep lines)
      (newList.bind fun lines => (iterH d).bind fun xs => (loop' lines xs).bind fun _ => joinH sep lines) :=
  par_newList w fun R1 a b s1 w1 hab => par_bind w1 (par_iter w1 (h.mono s1)) fun R2 l m s2 w2 hlm =>
  par_bind w2 (hl R2 a b l m (fun p hp => s2 p (s1 p hp)) w2 (s2 _ hab) hlm) fun R3 _ _ s3 w3 _ => par_join w3 _ (s3 _ (s2 _ hab))

theorem par_str (w : Wf P R) {x y : Prog Str} (h : Par P E R x y) : Par P (V P) R (strValH x) (strValH y) :=
  par_eq w h fun _ _ _ _ => par_pure (.imm _)

theorem strOr_rel {x y : HV} (h : VRel P R x y) (v : Val) : VRel P R (strOr x v) (strOr y v) := by
  cases v <;> first | exact h | exact .imm _

/-- A value computed from the content by `f`. -/
theorem par_then {x y : Prog Str} (w : Wf P R) (h : Par P E R x y) {f : Str → Prog α} (hf : ∀ R' s, Par P E R' (f s) (f s)) :
    Par P E R (x.bind f) (y.bind f) := par_eq w h fun R' s _ _ => hf R' s

theorem par_body (w : Wf P R) (env : Env) (fuel : Nat) (hc : Calls P R call call') (hd : Hd) {items items' : List (String × HV)}
    (hi : IRel P R items items') (level : Option Int) (ig : Bool) :
    Par P (V P) R (bodyH env fuel call hd items level ig) (bodyH env fuel call' hd items' level ig) := by
  have hg := get_rel hi "content"
  have ht := get_rel hi "text"
  have leaf : Par P (V P) R ((Prog.ofExcept (dispatch env hd .absent level ig)).bind fun v => Prog.pure (strOr (.imm .none) v))
      ((Prog.ofExcept (dispatch env hd .absent level ig)).bind fun v => Prog.pure (strOr (.imm .none) v)) :=
    par_eq w (par_of _) fun _ _ _ _ => par_pure (strOr_rel (.imm _) _)
  have cont := fun sep => par_content w hc sep ig hg
  have doc := par_docContent w hc fuel ig hg
  unfold bodyH
  split
  case h_1 => exact par_str w doc
  case h_2 =>
    revert ht
    generalize itemGet items "text" = t
    generalize itemGet items' "text" = t'
    intro ht
    cases ht with
    | none => exact par_throw _
    | some h =>
      exact par_eq w (par_val fuel w h) fun R1 v s1 w1 => par_eq w1 (par_of _) fun R2 r s2 w2 => par_pure (strOr_rel ((h.mono s1).mono s2) r)
  case h_3 => exact par_str w (cont _)
  case h_4 =>
    exact par_str w (par_lines w hg _ fun R' a b l m s w' hab hl => par_bulletLines fuel _ ig l w' (hc.mono s) hab hl)
  case h_5 =>
    refine par_str w (par_newList w fun R1 a b s1 w1 hab => par_eq w1 (par_of _) fun R2 start s2 w2 => ?_)
    refine par_bind w2 (par_iter w2 ((hg.mono s1).mono s2)) fun R3 l m s3 w3 hlm => ?_
    exact par_bind w3 (par_orderedLines env fuel _ ig l start w3 (((hc.mono s1).mono s2).mono s3) (s3 _ (s2 _ hab)) hlm)
      fun R4 _ _ s4 w4 _ => par_join w4 _ (s4 _ (s3 _ (s2 _ hab)))
  case h_6 =>
    refine par_str w (par_eq w (cont _) fun R1 s s1 w1 => par_eq w1 (par_of _) fun R2 v s2 w2 => ?_)
    cases v <;> first | exact par_pure rfl | exact par_throw _
  case h_7 => exact par_str w (cont _)
  case h_8 =>
    exact par_str w (par_lines w hg _ fun R' a b l m s w' hab hl => par_taskLines fuel _ ig l w' (hc.mono s) hab hl)
  case h_9 => exact par_str w (par_then w (cont _) fun _ _ => par_pure rfl)
  case h_10 =>
    exact par_str w (par_lines w hg _ fun R' a b l m s w' hab hl => par_decisionBlocks fuel ig l w' (hc.mono s) hab hl)
  case h_11 =>
    refine par_str w (par_eq w (par_of _) fun R1 v s1 w1 => ?_)
    cases v.asInt? with
    | none => exact par_throw _
    | some n => exact par_then w1 (par_content w1 (hc.mono s1) _ ig (hg.mono s1)) fun _ _ => par_pure rfl
  case h_12 => exact par_str w (par_then w (cont _) fun _ s => by cases codeLang hd.attrs <;> first | exact par_pure rfl | exact par_throw _)
  case h_13 => exact par_str w (cont _)
  case h_14 =>
    refine par_str w (par_eq w (par_of _) fun R1 v s1 w1 => ?_)
    cases v.asStr? with
    | none => exact par_throw _
    | some p => exact par_then w1 (par_docContent w1 (hc.mono s1) fuel ig (hg.mono s1)) fun _ _ => par_pure rfl
  case h_15 => exact par_str w (par_then w doc fun _ _ => par_pure rfl)
  case h_16 => exact par_eq w doc fun R1 s s1 w1 => par_eq w1 (par_of _) fun R2 v s2 w2 => par_pure (strOr_rel (.imm _) v)
  case h_17 => exact par_str w doc
  case h_18 => exact par_str w (par_then w (cont _) fun _ _ => par_pure rfl)
  case h_19 => exact par_str w (par_then w (cont _) fun _ _ => par_pure rfl)
  case h_20 =>
    refine par_str w (par_newList w fun R1 a b s1 w1 hab => par_bind w1 (par_iter w1 (hg.mono s1)) fun R2 l m s2 w2 hlm => ?_)
    refine par_bind w2 (par_rowCells ig l w2 ((hc.mono s1).mono s2) (s2 _ hab) hlm) fun R3 _ _ s3 w3 _ => ?_
    exact par_eq w3 (par_join w3 _ (s3 _ (s2 _ hab))) fun _ _ _ _ => par_pure rfl
  case h_21 =>
    exact par_str w (par_lines w hg _ fun R' a b l m s w' hab hl => par_tableLines fuel ig l w' (hc.mono s) hab hl)
  case h_22 => exact leaf

theorem par_markdown (env : Env) (fuel : Nat) : ∀ {R : Pairs}, Wf P R → ∀ x y, VRel P R x y → ∀ level ig,
    Par P (V P) R (markdownH env fuel x level ig) (markdownH env fuel y level ig) := by
  induction fuel with
  | zero => intro R w x y h level ig; exact par_throw _
  | succ fuel ih =>
    intro R w x y h level ig
    rw [markdownH, markdownH]
    refine par_bind w (par_nodeOf w h) fun R1 p q s1 w1 hp => ?_
    obtain ⟨c, items⟩ := p
    obtain ⟨c', items'⟩ := q
    obtain ⟨hcc, hi⟩ := hp
    cases (hcc : c = c')
    by_cases e : (level.isSome && !c.takesLevel) = true
    · rw [if_pos e, if_pos e]
      exact par_throw _
    · rw [if_neg e, if_neg e]
      refine par_eq w1 (par_marks w1 fuel (get_rel hi _)) fun R2 marks s2 w2 => ?_
      refine par_eq w2 (par_hd w2 fuel c (IRel.mono hi s2) marks) fun R3 hd s3 w3 => ?_
      exact par_body w3 env fuel (fun R' _ w' x y hx l g => ih w' x y hx l g) hd (IRel.mono (IRel.mono hi s2) s3) level ig

end Verif.HeapMd
