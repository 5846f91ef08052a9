import Verif.Lemmas.Equality
/-!
# Helper lemmas: parsing equal values
-/

namespace Verif
open Spec

variable {iv : Str → Option Int}

/-- Equal outcomes and logs. -/
def ResR {α : Type} (iv : Str → Option Int) (R : α → α → Prop) (x y : Res α) : Prop :=
  SameLog iv x.log y.log ∧ SameOut iv R x.out y.out

theorem sameErr_refl {e : PyErr} (h : ∀ t c, e ≠ .unimplementedType t c) : SameErr iv e e := .inl ⟨rfl, h⟩

theorem resR_ok {α : Type} {R : α → α → Prop} {a b : α} (h : R a b) : ResR iv R (.ok a) (.ok b) :=
  ⟨.nil, .ok h⟩

theorem resR_err {α : Type} {R : α → α → Prop} {e : PyErr} (h : ∀ t c, e ≠ .unimplementedType t c) :
    ResR iv R (.err e : Res α) (.err e) := ⟨.nil, .error (sameErr_refl h)⟩

theorem resR_of {α : Type} {R : α → α → Prop} {x y : Except PyErr α} (h : SameOut iv R x y) :
    ResR iv R (.ofExcept x) (.ofExcept y) := ⟨.nil, h⟩

theorem resR_bind {α β : Type} {R : α → α → Prop} {S : β → β → Prop} {x y : Res α} {f g : α → Res β}
    (h : ResR iv R x y) (hf : ∀ a b, R a b → ResR iv S (f a) (g b)) : ResR iv S (x.bind f) (y.bind g) := by
  obtain ⟨h1, h2⟩ := h
  unfold Res.bind
  cases hx : x.out with
  | error e =>
    rw [hx] at h2
    cases hy : y.out with
    | error e' => rw [hy] at h2; cases h2 with | error h => exact ⟨h1, .error h⟩
    | ok b => rw [hy] at h2; cases h2
  | ok a =>
    rw [hx] at h2
    cases hy : y.out with
    | error e' => rw [hy] at h2; cases h2
    | ok b =>
      rw [hy] at h2
      cases h2 with
      | ok h =>
        obtain ⟨h3, h4⟩ := hf a b h
        exact ⟨List.rel_append h1 h3, h4⟩

theorem resR_map {α β : Type} {R : α → α → Prop} {S : β → β → Prop} {x y : Res α} {f g : α → β}
    (h : ResR iv R x y) (hf : ∀ a b, R a b → S (f a) (g b)) : ResR iv S (x.map f) (y.map g) :=
  resR_bind h fun a b hab => resR_ok (hf a b hab)

theorem resR_skip {α : Type} {R : α → α → Prop} {x y : Res α} (w : Bool) (h : ResR iv R x y) :
    ResR iv (Option.Rel R) (x.skipUnimplemented w) (y.skipUnimplemented w) := by
  obtain ⟨h1, h2⟩ := h
  unfold Res.skipUnimplemented
  cases hx : x.out with
  | ok a =>
    rw [hx] at h2
    cases hy : y.out with
    | ok b => rw [hy] at h2; cases h2 with | ok h => exact ⟨h1, .ok (.some h)⟩
    | error e => rw [hy] at h2; cases h2
  | error e =>
    rw [hx] at h2
    cases hy : y.out with
    | ok b => rw [hy] at h2; cases h2
    | error e' =>
      rw [hy] at h2
      cases h2 with
      | error h =>
        rcases h with ⟨rfl, hne⟩ | ⟨t, t', c, rfl, rfl, ht⟩
        · cases e <;> first | exact ⟨h1, .error (sameErr_refl hne)⟩ | skip
          next t c => exact absurd rfl (hne t c)
        · refine ⟨List.rel_append h1 ?_, .ok .none⟩
          cases w
          · exact .nil
          · exact .cons ⟨rfl, ht⟩ .nil

theorem fieldsEq_iff {a b : List (String × Val)} : fieldsEq iv a b = true ↔
    List.Forall₂ (fun x y => x.1 = y.1 ∧ x.2.eq iv y.2 = true) a b := by
  induction a generalizing b with
  | nil => cases b <;> simp [fieldsEq]
  | cons x a ih =>
    cases b with
    | nil => simp [fieldsEq]
    | cons y b => simp [fieldsEq, ih, and_assoc]

theorem marksEq_iff {a b : List Mark} : marksEq iv a b = true ↔
    List.Forall₂ (fun x y => Mark.eq iv x y = true) a b := by
  induction a generalizing b with
  | nil => cases b <;> simp [marksEq]
  | cons x a ih =>
    cases b with
    | nil => simp [marksEq]
    | cons y b => simp [marksEq, ih]

theorem nodesEq_iff {a b : List Node} : nodesEq iv a b = true ↔
    List.Forall₂ (fun x y => Node.eq iv x y = true) a b := by
  induction a generalizing b with
  | nil => cases b <;> simp [nodesEq]
  | cons x a ih =>
    cases b with
    | nil => simp [nodesEq]
    | cons y b => simp [nodesEq, ih]

theorem contentEq_slotEq {a b : Slot (List Node)} : contentEq iv a b = slotEq iv (nodesEq iv) a b := by
  cases a <;> cases b <;> simp [contentEq, slotEq]

/-- Ordinary defaults compare equal to themselves. -/
def PlainDefaults (fs : List Field) : Prop := ∀ f ∈ fs, ∀ v, f.dflt = .lit v → UniqueKeys v

theorem nodeFields_plain (c : NodeCls) : PlainDefaults c.fields := by
  intro f hf v hv
  cases c <;> simp [NodeCls.fields, NodeCls.ownFields] at hf <;>
    (rcases hf with hf | hf) <;> aesop (add norm simp UniqueKeys)

theorem noLits {l : List String} : ∀ f ∈ optFields l, ∀ v, f.dflt ≠ .lit v := by
  intro f hf v
  obtain ⟨n, _, rfl⟩ := List.mem_map.mp hf
  simp

theorem noLits' {l : List String} : ∀ f ∈ reqFields l, ∀ v, f.dflt ≠ .lit v := by
  intro f hf v
  obtain ⟨n, _, rfl⟩ := List.mem_map.mp hf
  simp

theorem attrsFields_plain (c : NodeCls) (fs : List Field) (h : c.attrsFields = some fs) :
    PlainDefaults fs := by
  intro f hf v hv
  exfalso
  cases c <;> simp only [NodeCls.attrsFields, Option.some.injEq, reduceCtorEq] at h <;> subst h <;>
    first
    | exact noLits f hf v hv
    | exact noLits' f hf v hv
    | exact (List.mem_append.mp hf).elim (fun hf => noLits' f hf v hv) (fun hf => noLits f hf v hv)

theorem markFields_plain (c : MarkCls) : PlainDefaults c.fields := by
  intro f hf v hv
  unfold MarkCls.fields at hf
  rcases List.mem_cons.mp hf with rfl | hf
  · simp only [Dflt.lit.injEq] at hv; subst hv; trivial
  · split at hf
    · simp only [List.mem_singleton] at hf; subst hf; simp at hv
    · simp at hf

theorem markAttrsFields_plain (c : MarkCls) (fs : List Field) (h : c.attrsFields = some fs) :
    PlainDefaults fs := by
  intro f hf v hv
  exfalso
  cases c <;> simp only [MarkCls.attrsFields, Option.some.injEq, reduceCtorEq] at h <;> subst h <;>
    first
    | exact noLits f hf v hv
    | exact noLits' f hf v hv
    | exact (List.mem_append.mp hf).elim (fun hf => noLits' f hf v hv) (fun hf => noLits f hf v hv)
    | (simp only [List.mem_cons, List.not_mem_nil, or_false] at hf; aesop)

section steps

variable {d e : List (String × Val)} (hn : (d.map Prod.fst).Nodup) (hde : (Val.dict d).eq iv (.dict e) = true)
include hn hde

theorem hasKey_eq : hasKey d = hasKey e := by
  funext k
  unfold hasKey
  rcases lookup_eq hn hde k with ⟨h1, h2⟩ | ⟨v, w, h1, h2, _⟩ <;> simp [h1, h2]

theorem fieldValue_eq {fs : List Field} (hp : PlainDefaults fs) {f : Field} (hf : f ∈ fs) :
    (fieldValue d f).eq iv (fieldValue e f) = true := by
  unfold fieldValue
  rcases lookup_eq hn hde f.name with ⟨h1, h2⟩ | ⟨v, w, h1, h2, h3⟩
  · rw [h1, h2]
    cases hd : f.dflt with
    | lit v => exact eq_refl _ (hp f hf v hd)
    | _ => rfl
  · rw [h1, h2]; exact h3

theorem valOf_eq {fs : List Field} (hp : PlainDefaults fs) (k : String) :
    optEq iv (valOf fs k d) (valOf fs k e) = true := by
  unfold valOf
  cases hf : fs.find? fun f => f.name == k with
  | none => rfl
  | some f => exact fieldValue_eq hn hde hp (List.mem_of_find?_eq_some hf)

theorem attrsObj_eq {fs : List Field} (hp : PlainDefaults fs) :
    AttrsObj.eq iv ⟨fs.map fun f => (f.name, fieldValue d f)⟩ ⟨fs.map fun f => (f.name, fieldValue e f)⟩ = true := by
  rw [AttrsObj.eq, fieldsEq_iff]
  simp only [List.forall₂_map_left_iff, List.forall₂_map_right_iff]
  rw [List.forall₂_same]
  exact fun f hf => ⟨rfl, fieldValue_eq hn hde hp hf⟩

end steps

theorem attrsFromDict_eq {fs : List Field} (hp : PlainDefaults fs) {v w : Val} (hk : UniqueKeys v)
    (h : v.eq iv w = true) :
    SameOut iv (fun a b => AttrsObj.eq iv a b = true) (attrsFromDict fs v) (attrsFromDict fs w) := by
  have herr : ∀ {e : PyErr}, (∀ t c, e ≠ .unimplementedType t c) →
      SameOut iv (fun a b => AttrsObj.eq iv a b = true) (.error e) (.error e) :=
    fun h => .error (sameErr_refl h)
  by_cases hd : ∃ d, v = .dict d
  · obtain ⟨d, rfl⟩ := hd
    obtain ⟨e, rfl⟩ := (eq_kind h).1.mp ⟨d, rfl⟩
    rw [UniqueKeys] at hk
    simp only [attrsFromDict, hasKey_eq hk.1 h]
    cases hc : checkRequired fs (hasKey e) with
    | error er =>
      refine herr ?_
      intro t c he
      subst he
      unfold checkRequired at hc
      split at hc
      · simp at hc
      · split at hc <;> simp at hc
    | ok u => exact .ok (attrsObj_eq hk.1 h hp)
  · have hw : ¬ ∃ d, w = .dict d := fun hw => hd ((eq_kind h).1.mpr hw)
    have e1 : attrsFromDict fs v = .error .typeError := by
      cases v <;> first | rfl | exact absurd ⟨_, rfl⟩ hd
    have e2 : attrsFromDict fs w = .error .typeError := by
      cases w <;> first | rfl | exact absurd ⟨_, rfl⟩ hw
    rw [e1, e2]
    exact herr (by simp)

theorem uniqueKeys_lookup {d : List (String × Val)} (h : UniqueKeys (.dict d)) {k : String} {v : Val}
    (hl : lookupKey d k = some v) : UniqueKeys v := by
  rw [UniqueKeys, uniqueKeysDict_iff] at h
  exact h.2 k v (lookupKey_mem hl)

theorem attrsStep_eq {afs : Option (List Field)} (hp : ∀ fs, afs = some fs → PlainDefaults fs)
    {d e : List (String × Val)} (hk : UniqueKeys (.dict d)) (h : (Val.dict d).eq iv (.dict e) = true) :
    SameOut iv (Option.Rel fun a b => AttrsObj.eq iv a b = true) (attrsStep afs d) (attrsStep afs e) := by
  unfold attrsStep
  have hn : (d.map Prod.fst).Nodup := by rw [UniqueKeys] at hk; exact hk.1
  cases afs with
  | none =>
    cases lookupKey d "attrs" <;> cases lookupKey e "attrs" <;> exact .ok .none
  | some fs =>
    rcases lookup_eq hn h "attrs" with ⟨h1, h2⟩ | ⟨v, w, h1, h2, h3⟩
    · rw [h1, h2]; exact .ok .none
    · rw [h1, h2]
      simp only
      have := attrsFromDict_eq (hp fs rfl) (uniqueKeys_lookup hk h1) h3
      generalize attrsFromDict fs v = x at this ⊢
      generalize attrsFromDict fs w = y at this ⊢
      cases this with
      | ok h => exact .ok (.some h)
      | error h => exact .error h

theorem slotOf_eq' {α : Type} {f : α → α → Bool} {fs : List Field} (hp : PlainDefaults fs)
    {k : String} {a b : Option (Slot α)} (h : Option.Rel (fun x y => slotEq iv f x y = true) a b) :
    slotEq iv f (slotOf fs k a) (slotOf fs k b) = true := by
  unfold slotOf
  cases hd : fieldDflt fs k with
  | none => rfl
  | some dflt =>
    cases h with
    | some h => exact h
    | none =>
      simp only
      cases dflt with
      | lit v =>
        unfold fieldDflt at hd
        rw [Option.map_eq_some_iff] at hd
        obtain ⟨f, h1, h2⟩ := hd
        exact eq_refl _ (hp f (List.mem_of_find?_eq_some h1) v h2)
      | _ => rfl

theorem checkRequired_plain {fs : List Field} {g : String → Bool} :
    SameOut iv (fun _ _ : Unit => True) (checkRequired fs g) (checkRequired fs g) := by
  unfold checkRequired
  split
  · exact .error (sameErr_refl (by simp))
  · split
    · exact .error (sameErr_refl (by simp))
    · exact .ok trivial

theorem val_map {α : Type} {f : α → α → Bool} {a b : Option α}
    (h : Option.Rel (fun x y => f x y = true) a b) :
    Option.Rel (fun x y => slotEq iv f x y = true) (a.map Slot.val) (b.map Slot.val) := by
  cases h with
  | none => exact .none
  | some h => exact .some h

theorem optEq_getD {a b : Option Val} (h : optEq iv a b = true) : (a.getD .opt).eq iv (b.getD .opt) = true := by
  cases a <;> cases b <;> first | exact h | rfl | cases h

theorem markFromDict_eq (c : MarkCls) {d e : List (String × Val)} (hk : UniqueKeys (.dict d))
    (h : (Val.dict d).eq iv (.dict e) = true) :
    SameOut iv (fun a b => Mark.eq iv a b = true) (markFromDict c d) (markFromDict c e) := by
  have hn : (d.map Prod.fst).Nodup := by rw [UniqueKeys] at hk; exact hk.1
  unfold markFromDict
  have h1 := attrsStep_eq (afs := c.attrsFields) (markAttrsFields_plain c) hk h
  generalize attrsStep c.attrsFields d = x at h1 ⊢
  generalize attrsStep c.attrsFields e = y at h1 ⊢
  cases h1 with
  | error h => exact .error h
  | ok ha =>
      simp only [hasKey_eq hn h]
      have h2 := checkRequired_plain (iv := iv) (fs := c.fields) (g := hasKey e)
      revert h2
      cases checkRequired c.fields (hasKey e) <;> intro h2
      · cases h2 with | error h => exact .error h
      · refine .ok ?_
        simp only [Mark.eq, decide_true, Bool.true_and, Bool.and_eq_true]
        exact ⟨optEq_getD (valOf_eq hn h (markFields_plain c) _), slotOf_eq' (markFields_plain c) (val_map ha)⟩

theorem registryLookup_eq {κ : Type} (reg : List (TypeEnum × κ)) {t u : Val} (h : t.eq iv u = true) :
    (∃ s, t = .str s ∧ u = .str s) ∨
    (registryLookup reg t = .ok none ∧ registryLookup reg u = .ok none) ∨
    (registryLookup reg t = .error .typeError ∧ registryLookup reg u = .error .typeError) := by
  by_cases hs : ∃ s, t = .str s
  · obtain ⟨s, rfl⟩ := hs
    exact .inl ⟨s, rfl, str_eq h⟩
  · right
    have hk := eq_kind h
    have hu : ¬ ∃ s, u = .str s := fun hu => hs (hk.2.2.1.mpr hu)
    have key : ∀ t : Val, (¬ ∃ s, t = .str s) →
        registryLookup reg t = if t.hashable then .ok none else .error .typeError := by
      intro t ht
      unfold registryLookup
      cases t <;> first | rfl | exact absurd ⟨_, rfl⟩ ht
    rw [key t hs, key u hu, hk.2.2.2.2]
    cases u.hashable
    · exact .inr ⟨rfl, rfl⟩
    · exact .inl ⟨rfl, rfl⟩

theorem parseMark_eq {v w : Val} (hk : UniqueKeys v) (h : v.eq iv w = true) :
    SameOut iv (fun a b => Mark.eq iv a b = true) (parseMark v) (parseMark w) := by
  by_cases hd : ∃ d, v = .dict d
  · obtain ⟨d, rfl⟩ := hd
    obtain ⟨e, rfl⟩ := (eq_kind h).1.mp ⟨d, rfl⟩
    have hn : (d.map Prod.fst).Nodup := by rw [UniqueKeys] at hk; exact hk.1
    simp only [parseMark]
    rcases lookup_eq hn h "type" with ⟨h1, h2⟩ | ⟨t, u, h1, h2, h3⟩
    · rw [h1, h2]; exact .error (sameErr_refl (by simp))
    · rw [h1, h2]
      simp only
      rcases registryLookup_eq markRegistry h3 with ⟨s, rfl, rfl⟩ | ⟨e1, e2⟩ | ⟨e1, e2⟩
      · split
        · next e he =>
          rw [(registryLookup_error he).1]
          exact .error (sameErr_refl (by simp))
        · exact .error (.inr ⟨_, _, _, rfl, rfl, h3⟩)
        · exact markFromDict_eq _ hk h
      · rw [e1, e2]
        exact .error (.inr ⟨_, _, _, rfl, rfl, h3⟩)
      · rw [e1, e2]
        exact .error (sameErr_refl (by simp))
  · have hw : ¬ ∃ d, w = .dict d := fun hw => hd ((eq_kind h).1.mpr hw)
    have e1 : parseMark v = .error .typeError := by
      cases v <;> first | rfl | exact absurd ⟨_, rfl⟩ hd
    have e2 : parseMark w = .error .typeError := by
      cases w <;> first | rfl | exact absurd ⟨_, rfl⟩ hw
    rw [e1, e2]
    exact .error (sameErr_refl (by simp))

theorem toList_append {α : Type} {R : α → α → Prop} {o o' : Option α} {l l' : List α} (h1 : Option.Rel R o o')
    (h2 : List.Forall₂ R l l') : List.Forall₂ R (o.toList ++ l) (o'.toList ++ l') := by
  cases h1 with
  | none => exact h2
  | some h => exact .cons h h2

theorem parseMarks_eq (w : Bool) {l m : List Val} (hk : ∀ x ∈ l, UniqueKeys x)
    (h : List.Forall₂ (fun v w => v.eq iv w = true) l m) :
    ResR iv (fun a b => marksEq iv a b = true) (parseMarks w l) (parseMarks w m) := by
  induction h with
  | nil => exact resR_ok rfl
  | cons h _ ih =>
    rw [parseMarks, parseMarks]
    refine resR_bind (resR_skip w (resR_of (parseMark_eq (hk _ List.mem_cons_self) h))) fun o o' ho => ?_
    refine resR_map (ih fun x hx => hk x (List.mem_cons_of_mem _ hx)) fun a b hab => ?_
    rw [marksEq_iff] at hab ⊢
    exact toList_append ho hab

theorem rawSlot_eq {α : Type} {f : α → α → Bool} {v w : Val} (h : v.eq iv w = true) :
    slotEq iv f (rawSlot v) (rawSlot w) = true := by
  have hk := (eq_kind h).2.2.2.1
  by_cases ho : v = .opt
  · subst ho
    rw [opt_eq h]; rfl
  · have hw : w ≠ .opt := fun hw => ho (hk.mpr hw)
    have e : ∀ v : Val, v ≠ .opt → (rawSlot v : Slot α) = .raw v := by
      intro v hv
      cases v <;> first | rfl | exact absurd rfl hv
    rw [e v ho, e w hw]
    exact h

theorem marksStep_eq (w : Bool) {d e : List (String × Val)} (hk : UniqueKeys (.dict d))
    (h : (Val.dict d).eq iv (.dict e) = true) :
    ResR iv (Option.Rel fun a b => slotEq iv (marksEq iv) a b = true) (marksStep w d) (marksStep w e) := by
  have hn : (d.map Prod.fst).Nodup := by rw [UniqueKeys] at hk; exact hk.1
  unfold marksStep
  rcases lookup_eq hn h "marks" with ⟨h1, h2⟩ | ⟨t, u, h1, h2, h3⟩
  · rw [h1, h2]; exact resR_ok .none
  · rw [h1, h2]
    by_cases hl : ∃ l, t = .list l
    · obtain ⟨l, rfl⟩ := hl
      obtain ⟨m, rfl, hlm⟩ := list_eq h3
      have := uniqueKeys_lookup hk h1
      rw [UniqueKeys, uniqueKeysList_iff] at this
      exact resR_map (parseMarks_eq w this hlm) fun a b hab => .some hab
    · have hu : ¬ ∃ l, u = .list l := fun hu => hl ((eq_kind h3).2.1.mpr hu)
      have key : ResR iv (Option.Rel fun a b => slotEq iv (marksEq iv) a b = true)
          (.ok (some (rawSlot t))) (.ok (some (rawSlot u))) := resR_ok (.some (rawSlot_eq h3))
      cases t <;> cases u <;> first | exact key | exact absurd ⟨_, rfl⟩ hl | exact absurd ⟨_, rfl⟩ hu

theorem nodeFromDict_eq (w : Bool) (c : NodeCls) {d e : List (String × Val)} (hk : UniqueKeys (.dict d))
    (h : (Val.dict d).eq iv (.dict e) = true) {x y : Res (Option (Slot (List Node)))}
    (hc : ResR iv (Option.Rel fun a b => slotEq iv (nodesEq iv) a b = true) x y) :
    ResR iv (fun a b => Node.eq iv a b = true) (nodeFromDict w c d x) (nodeFromDict w c e y) := by
  have hn : (d.map Prod.fst).Nodup := by rw [UniqueKeys] at hk; exact hk.1
  unfold nodeFromDict
  refine resR_bind (resR_of (attrsStep_eq (attrsFields_plain c) hk h)) fun a a' ha => ?_
  refine resR_bind hc fun k k' hk' => ?_
  refine resR_bind (marksStep_eq w hk h) fun m m' hm => ?_
  rw [hasKey_eq hn h]
  refine resR_bind (resR_of checkRequired_plain) fun _ _ _ => resR_ok ?_
  have hp := nodeFields_plain c
  simp only [Node.eq, Node.hd, Node.content, Hd.eq, decide_true, Bool.true_and, Bool.and_eq_true]
  refine ⟨⟨⟨⟨⟨optEq_getD (valOf_eq hn h hp _), valOf_eq hn h hp _⟩, valOf_eq hn h hp _⟩,
    slotOf_eq' hp (val_map ha)⟩, slotOf_eq' hp hm⟩, ?_⟩
  rw [contentEq_slotEq]
  exact slotOf_eq' hp hk'

theorem contentStep_eq' (w : Bool) {d e : List (String × Val)} (hk : UniqueKeys (.dict d))
    (h : (Val.dict d).eq iv (.dict e) = true)
    (ih : ∀ l x y, lookupKey d "content" = some (.list l) → x ∈ l → UniqueKeys x → x.eq iv y = true →
      ResR iv (fun a b => Node.eq iv a b = true) (parseNode w x) (parseNode w y)) :
    ResR iv (Option.Rel fun a b => slotEq iv (nodesEq iv) a b = true) (contentStep w d) (contentStep w e) := by
  have hn : (d.map Prod.fst).Nodup := by rw [UniqueKeys] at hk; exact hk.1
  rw [contentStep_eq, contentStep_eq]
  rcases lookup_eq hn h "content" with ⟨h1, h2⟩ | ⟨t, u, h1, h2, h3⟩
  · rw [h1, h2]; exact resR_ok .none
  · rw [h1, h2]
    by_cases hl : ∃ l, t = .list l
    · obtain ⟨l, rfl⟩ := hl
      obtain ⟨m, rfl, hlm⟩ := list_eq h3
      have hu := uniqueKeys_lookup hk h1
      rw [UniqueKeys, uniqueKeysList_iff] at hu
      have key : ResR iv (fun a b => nodesEq iv a b = true) (parseNodes w l) (parseNodes w m) := by
        have ih' : ∀ x ∈ l, ∀ y, x.eq iv y = true →
            ResR iv (fun a b => Node.eq iv a b = true) (parseNode w x) (parseNode w y) :=
          fun x hx y hxy => ih l x y h1 hx (hu x hx) hxy
        clear h1 h2 h3 hu ih
        induction hlm with
        | nil => rw [parseNodes]; exact resR_ok rfl
        | cons h _ ih2 =>
          rw [parseNodes, parseNodes]
          refine resR_bind (resR_skip w (ih' _ List.mem_cons_self _ h)) fun o o' ho => ?_
          refine resR_map (ih2 fun x hx => ih' x (List.mem_cons_of_mem _ hx)) fun a b hab => ?_
          rw [nodesEq_iff] at hab ⊢
          exact toList_append ho hab
      exact resR_map key fun a b hab => .some hab
    · have hu : ¬ ∃ l, u = .list l := fun hu => hl ((eq_kind h3).2.1.mpr hu)
      have key : ResR iv (Option.Rel fun a b => slotEq iv (nodesEq iv) a b = true)
          (.ok (some (rawSlot t))) (.ok (some (rawSlot u))) := resR_ok (.some (rawSlot_eq h3))
      cases t <;> cases u <;> first | exact key | exact absurd ⟨_, rfl⟩ hl | exact absurd ⟨_, rfl⟩ hu

theorem parseNode_eq (w : Bool) (v v' : Val) (hk : UniqueKeys v) (h : v.eq iv v' = true) :
    ResR iv (fun a b => Node.eq iv a b = true) (parseNode w v) (parseNode w v') := by
  induction v using Val.contentInduction generalizing v' with
  | h v ih =>
    by_cases hd : ∃ d, v = .dict d
    · obtain ⟨d, rfl⟩ := hd
      obtain ⟨e, rfl⟩ := (eq_kind h).1.mp ⟨d, rfl⟩
      have hn : (d.map Prod.fst).Nodup := by rw [UniqueKeys] at hk; exact hk.1
      rw [parseNode_dict, parseNode_dict]
      rcases lookup_eq hn h "type" with ⟨h1, h2⟩ | ⟨t, u, h1, h2, h3⟩
      · rw [h1, h2]; exact resR_err (by simp)
      · rw [h1, h2]
        simp only
        rcases registryLookup_eq nodeRegistry h3 with ⟨s, rfl, rfl⟩ | ⟨e1, e2⟩ | ⟨e1, e2⟩
        · split
          · next e he =>
            rw [(registryLookup_error he).1]
            exact resR_err (by simp)
          · exact ⟨.nil, .error (.inr ⟨_, _, _, rfl, rfl, h3⟩)⟩
          · exact nodeFromDict_eq w _ hk h (contentStep_eq' w hk h fun l x y h1 hx => ih d l x rfl h1 hx y)
        · rw [e1, e2]
          exact ⟨.nil, .error (.inr ⟨_, _, _, rfl, rfl, h3⟩)⟩
        · rw [e1, e2]
          exact resR_err (by simp)
    · have hw : ¬ ∃ d, v' = .dict d := fun hw => hd ((eq_kind h).1.mpr hw)
      have e1 : ∀ v : Val, (¬ ∃ d, v = .dict d) → parseNode w v = .err .typeError := by
        intro v hv
        cases v <;> first | rfl | exact absurd ⟨_, rfl⟩ hv
      rw [e1 v hd, e1 v' hw]
      exact resR_err (by simp)

end Verif
