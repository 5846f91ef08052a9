import Verif.Lemmas.EqualityParse
import Verif.Props.Relevant
import Verif.Props.RoundTrip
/-!
# C59, C60: `==`
-/

namespace Verif.Props
open Verif Spec

variable (iv : Str → Option Int)

/-! ## Parsing -/

/-- C59: equal JSON values parse to equal nodes, or raise the same exception, and log the same. -/
theorem C59_parse_node (w : Bool) (v v' : Val) (hk : UniqueKeys v) (h : v.eq iv v' = true) :
    SameOut iv (fun n n' => n.eq iv n' = true) (parseNode w v).out (parseNode w v').out ∧
    SameLog iv (parseNode w v).log (parseNode w v').log :=
  ⟨(parseNode_eq w v v' hk h).2, (parseNode_eq w v v' hk h).1⟩

/-- C59 for `from_dict` of any node class. -/
theorem C59_from_dict (w : Bool) (c : NodeCls) (d d' : List (String × Val)) (hk : UniqueKeys (.dict d))
    (h : (Val.dict d).eq iv (.dict d') = true) :
    SameOut iv (fun n n' => n.eq iv n' = true) (c.fromDict w (.dict d)).out (c.fromDict w (.dict d')).out :=
  (nodeFromDict_eq w c hk h (contentStep_eq' w hk h fun _ x y _ _ hx hxy => parseNode_eq w x y hx hxy)).2

/-- C59 for `parse_mark`. -/
theorem C59_parse_mark (v v' : Val) (hk : UniqueKeys v) (h : v.eq iv v' = true) :
    SameOut iv (fun m m' => m.eq iv m' = true) (parseMark v) (parseMark v') :=
  parseMark_eq hk h

/-! ## An equivalence -/

/-- No dict inside the attrs has the same key twice. -/
def attrsUnique : Slot AttrsObj → Prop
  | .raw v => UniqueKeys v
  | .val a => UniqueKeys (.dict a.fields)
  | _ => True

def marksUnique : Slot (List Mark) → Prop
  | .raw v => UniqueKeys v
  | .val ms => ∀ m ∈ ms, UniqueKeys m.type ∧ attrsUnique m.attrs
  | _ => True

structure HdUnique (hd : Hd) : Prop where
  type : UniqueKeys hd.type
  version : ∀ v, hd.version = some v → UniqueKeys v
  text : ∀ v, hd.text = some v → UniqueKeys v
  attrs : attrsUnique hd.attrs
  marks : marksUnique hd.marks

/-- No dict inside the object has the same key twice. -/
def ObjUnique (n : Node) : Prop :=
  ∀ m, Below m n → HdUnique m.hd ∧ ∀ v, m.content = .raw v → UniqueKeys v

theorem fieldValue_unique {fs : List Field} (hp : PlainDefaults fs) {d : List (String × Val)}
    (hk : UniqueKeys (.dict d)) {f : Field} (hf : f ∈ fs) : UniqueKeys (fieldValue d f) := by
  unfold fieldValue
  cases hl : lookupKey d f.name with
  | some v => exact uniqueKeys_lookup hk hl
  | none =>
    cases hd : f.dflt with
    | lit v => exact hp f hf v hd
    | _ => trivial

theorem valOf_unique {fs : List Field} (hp : PlainDefaults fs) {d : List (String × Val)}
    (hk : UniqueKeys (.dict d)) {k : String} {v : Val} (h : valOf fs k d = some v) : UniqueKeys v := by
  unfold valOf at h
  cases hf : fs.find? fun f => f.name == k with
  | none => rw [hf] at h; simp at h
  | some f =>
    rw [hf] at h
    simp only [Option.some.injEq] at h
    subst h
    exact fieldValue_unique hp hk (List.mem_of_find?_eq_some hf)

theorem typeOf_unique {fs : List Field} (hp : PlainDefaults fs) {d : List (String × Val)}
    (hk : UniqueKeys (.dict d)) : UniqueKeys ((valOf fs "type" d).getD .opt) := by
  cases h : valOf fs "type" d with
  | none => trivial
  | some v => exact valOf_unique hp hk h

theorem attrsStep_unique {afs : Option (List Field)} (hp : ∀ fs, afs = some fs → PlainDefaults fs)
    (hnd : ∀ fs, afs = some fs → (names fs).Nodup)
    {d : List (String × Val)} (hk : UniqueKeys (.dict d)) {o : Option AttrsObj} (h : attrsStep afs d = .ok o) :
    ∀ a, o = some a → UniqueKeys (.dict a.fields) := by
  rintro a rfl
  rcases attrsStep_ok_cases h with ⟨h, _⟩ | ⟨fs, ad, a', rfl, h2, h3, h4⟩
  · simp at h
  · cases h3
    simp only [attrsFromDict] at h4
    split at h4
    · simp at h4
    · simp only [Except.ok.injEq] at h4
      subst h4
      rw [UniqueKeys, uniqueKeysDict_iff]
      refine ⟨by rw [List.map_map]; exact hnd fs rfl, ?_⟩
      intro k x hx
      obtain ⟨f, hf, he⟩ := List.mem_map.mp hx
      cases he
      exact fieldValue_unique (hp fs rfl) (uniqueKeys_lookup hk h2) hf

theorem slot_unique {α : Type} {fs : List Field} (hp : PlainDefaults fs) {k : String} {g : Option (Slot α)}
    {P : Slot α → Prop} (h1 : P .absent) (h2 : P .opt) (h3 : ∀ v, UniqueKeys v → P (.raw v))
    (h4 : ∀ s, g = some s → P s) : P (slotOf fs k g) := by
  unfold slotOf
  split
  · exact h1
  · next dflt hd =>
    split
    · next s => exact h4 s rfl
    · split
      · next v =>
        unfold fieldDflt at hd
        rw [Option.map_eq_some_iff] at hd
        obtain ⟨f, h5, h6⟩ := hd
        exact h3 v (hp f (List.mem_of_find?_eq_some h5) v h6)
      · exact h2

theorem mark_unique {v : Val} (hk : UniqueKeys v) {m : Mark} (h : parseMark v = .ok m) :
    UniqueKeys m.type ∧ attrsUnique m.attrs := by
  obtain ⟨d, t, rfl, ht, hr, hm⟩ := parseMark_ok h
  unfold markFromDict at hm
  split at hm
  · simp at hm
  · next o ho =>
    split at hm
    · simp at hm
    · simp only [Except.ok.injEq] at hm
      have hmc : m.cls = m.cls := rfl
      rw [← hm]
      refine ⟨typeOf_unique (markFields_plain _) hk, ?_⟩
      refine slot_unique (markFields_plain _) trivial trivial (fun _ h => h) fun s hs => ?_
      cases o with
      | none => simp at hs
      | some a =>
        simp only [Option.map_some, Option.some.injEq] at hs
        subst hs
        exact attrsStep_unique (markAttrsFields_plain _) (markAttrsFields_nodup _) hk ho a rfl

theorem rawSlot_cases {α : Type} {v : Val} {s : Slot α} (h : rawSlot v = s) : s = .opt ∨ s = .raw v := by
  subst h
  cases v <;> simp [rawSlot]

theorem fields_unique (w : Bool) (c : NodeCls) (d : List (String × Val)) (hk : UniqueKeys (.dict d)) (n : Node)
    (ih : ∀ (l : List Val) (x : Val), lookupKey d "content" = some (.list l) → x ∈ l → UniqueKeys x →
      ∀ n, (parseNode w x).out = .ok n → ObjUnique n)
    (hf : (nodeFromDict w c d (contentStep w d)).out = .ok n) : ObjUnique n := by
    obtain ⟨a, k, m, ha, hc, hm, _, e⟩ := nodeFromDict_ok hf
    have hp := nodeFields_plain c
    have hcont : (∀ v, n.content = .raw v → UniqueKeys v) ∧
        ∀ l, n.content = .val l → ∀ x ∈ l, ObjUnique x := by
      have e' : n.content = slotOf c.fields "content" k := by rw [e]; rfl
      rw [e']
      rw [contentStep_eq] at hc
      have key : ∀ s, k = some s → (∀ v, s = .raw v → UniqueKeys v) ∧
          ∀ l, s = .val l → ∀ x ∈ l, ObjUnique x := by
        rintro s rfl
        cases hl : lookupKey d "content" with
        | none => rw [hl] at hc; simp [Res.ok] at hc
        | some c =>
          rw [hl] at hc
          have hu := uniqueKeys_lookup hk hl
          by_cases hlist : ∃ l, c = .list l
          · obtain ⟨l, rfl⟩ := hlist
            simp only [Res.map_out] at hc
            cases hns : (parseNodes w l).out with
            | error e => rw [hns] at hc; simp at hc
            | ok ns =>
              rw [hns] at hc
              simp only [Except.ok.injEq, Option.some.injEq] at hc
              subst hc
              refine ⟨by simp, ?_⟩
              intro l' hl' x hx
              simp only [Slot.val.injEq] at hl'
              subst hl'
              rw [((parseNodes_ok_iff w l ns).mp hns).2, List.mem_filterMap] at hx
              obtain ⟨y, hy, hxy⟩ := hx
              rw [UniqueKeys, uniqueKeysList_iff] at hu
              refine ih l y hl hy (hu y hy) x ?_
              split at hxy
              · next n' hn' => simp only [Option.some.injEq] at hxy; rw [hn', hxy]
              · simp at hxy
          · have hs : rawSlot c = s := by
              cases c <;> first
                | (simp [Res.ok] at hc; exact hc)
                | exact absurd ⟨_, rfl⟩ hlist
            rcases rawSlot_cases hs with rfl | rfl
            · exact ⟨by simp, by simp⟩
            · exact ⟨fun v hv => by cases hv; exact hu, by simp⟩
      refine slot_unique (P := fun s => (∀ v, s = .raw v → UniqueKeys v) ∧
        ∀ l, s = .val l → ∀ x ∈ l, ObjUnique x) hp ⟨by simp, by simp⟩ ⟨by simp, by simp⟩ ?_ key
      exact fun v hv => ⟨fun v' h => by cases h; exact hv, by simp⟩
    intro x hx
    cases hx with
    | here =>
      refine ⟨?_, hcont.1⟩
      rw [e]
      refine ⟨typeOf_unique hp hk, fun v hv => valOf_unique hp hk hv, fun v hv => valOf_unique hp hk hv, ?_, ?_⟩
      · refine slot_unique hp trivial trivial (fun _ h => h) fun s hs => ?_
        cases a with
        | none => simp at hs
        | some a =>
          simp only [Option.map_some, Option.some.injEq] at hs
          subst hs
          exact attrsStep_unique (attrsFields_plain _) (attrsFields_nodup _) hk ha a rfl
      · refine slot_unique hp trivial trivial (fun _ h => h) fun s hs => ?_
        subst hs
        unfold marksStep at hm
        cases hl : lookupKey d "marks" with
        | none => rw [hl] at hm; simp [Res.ok] at hm
        | some c =>
          rw [hl] at hm
          have hu := uniqueKeys_lookup hk hl
          by_cases hlist : ∃ l, c = .list l
          · obtain ⟨l, rfl⟩ := hlist
            simp only [Res.map_out] at hm
            cases hns : (parseMarks w l).out with
            | error e => rw [hns] at hm; simp at hm
            | ok ns =>
              rw [hns] at hm
              simp only [Except.ok.injEq, Option.some.injEq] at hm
              subst hm
              intro x hx
              rw [((parseMarks_ok_iff w l ns).mp hns).2, List.mem_filterMap] at hx
              obtain ⟨y, hy, hxy⟩ := hx
              rw [UniqueKeys, uniqueKeysList_iff] at hu
              refine mark_unique (hu y hy) ?_
              split at hxy
              · next n' hn' => simp only [Option.some.injEq] at hxy; rw [hn', hxy]
              · simp at hxy
          · have hs : rawSlot c = s := by
              cases c <;> first
                | (simp [Res.ok] at hm; exact hm)
                | exact absurd ⟨_, rfl⟩ hlist
            rcases rawSlot_cases hs with rfl | rfl
            · trivial
            · exact hu
    | step hc' hk' hb => exact hcont.2 _ hc' _ hk' x hb

theorem parsed_unique (w : Bool) (v : Val) (hk : UniqueKeys v) (n : Node) (h : (parseNode w v).out = .ok n) :
    ObjUnique n := by
  induction v using Val.contentInduction generalizing n with
  | h v ih =>
    obtain ⟨d, t, rfl, ht, hr, hf⟩ := parseNode_ok h
    exact fields_unique w n.cls d hk n (fun l x hl hx hu n hn => ih d l x rfl hl hx hu n hn) hf

theorem fromDict_unique (w : Bool) (c : NodeCls) (v : Val) (hk : UniqueKeys v) (n : Node)
    (h : (c.fromDict w v).out = .ok n) : ObjUnique n := by
  cases v with
  | dict d => exact fields_unique w c d hk n (fun _ x _ _ hu n hn => parsed_unique w x hu n hn) h
  | _ => cases h

variable {iv}

theorem slotEq_symm {α : Type} {f : α → α → Bool} {s t : Slot α} (hr : ∀ v, s = .raw v → UniqueKeys v)
    (hv : ∀ a b, s = .val a → f a b = true → f b a = true) (h : slotEq iv f s t = true) :
    slotEq iv f t s = true := by
  cases s <;> cases t <;> simp only [slotEq, Bool.false_eq_true] at h ⊢
  · exact eq_symm _ _ (hr _ rfl) h
  · exact hv _ _ rfl h

theorem optEq_symm {s t : Option Val} (hr : ∀ v, s = some v → UniqueKeys v) (h : optEq iv s t = true) :
    optEq iv t s = true := by
  cases s <;> cases t <;> simp only [optEq, Bool.false_eq_true] at h ⊢
  exact eq_symm _ _ (hr _ rfl) h

theorem attrsEq_symm {s t : Slot AttrsObj} (hu : attrsUnique s) (h : slotEq iv (AttrsObj.eq iv) s t = true) :
    slotEq iv (AttrsObj.eq iv) t s = true := by
  refine slotEq_symm ?_ ?_ h
  · rintro v rfl; exact hu
  · rintro a b rfl hab
    rw [AttrsObj.eq, fieldsEq_iff] at hab ⊢
    have hu' : ∀ e ∈ a.fields, UniqueKeys e.2 := by
      have : UniqueKeys (.dict a.fields) := hu
      rw [UniqueKeys, uniqueKeysDict_iff] at this
      exact fun e he => this.2 e.1 e.2 he
    clear hu
    generalize a.fields = x at hab hu'
    generalize b.fields = y at hab
    induction hab with
    | nil => exact .nil
    | cons h _ ih =>
      exact .cons ⟨h.1.symm, eq_symm _ _ (hu' _ List.mem_cons_self) h.2⟩
        (ih fun e he => hu' e (List.mem_cons_of_mem _ he))

theorem markEq_symm {m m' : Mark} (hu : UniqueKeys m.type ∧ attrsUnique m.attrs) (h : m.eq iv m' = true) :
    m'.eq iv m = true := by
  simp only [Mark.eq, Bool.and_eq_true, decide_eq_true_eq] at h ⊢
  exact ⟨⟨h.1.1.symm, eq_symm _ _ hu.1 h.1.2⟩, attrsEq_symm hu.2 h.2⟩

theorem hdEq_symm {a b : Hd} (hu : HdUnique a) (h : a.eq iv b = true) : b.eq iv a = true := by
  simp only [Hd.eq, Bool.and_eq_true, decide_eq_true_eq] at h ⊢
  obtain ⟨⟨⟨⟨⟨h1, h2⟩, h3⟩, h4⟩, h5⟩, h6⟩ := h
  refine ⟨⟨⟨⟨⟨h1.symm, eq_symm _ _ hu.type h2⟩, optEq_symm hu.version h3⟩, optEq_symm hu.text h4⟩,
    attrsEq_symm hu.attrs h5⟩, slotEq_symm ?_ ?_ h6⟩
  · intro v hv; have := hu.marks; rw [hv] at this; exact this
  · intro x y hx hxy
    have hm := hu.marks
    rw [hx] at hm
    rw [marksEq_iff] at hxy ⊢
    have hm' : ∀ m ∈ x, UniqueKeys m.type ∧ attrsUnique m.attrs := hm
    clear hm hx
    induction hxy with
    | nil => exact .nil
    | cons h _ ih =>
      exact .cons (markEq_symm (hm' _ List.mem_cons_self) h) (ih fun e he => hm' e (List.mem_cons_of_mem _ he))

theorem nodeEq_symm {n n' : Node} (hu : ObjUnique n) (h : n.eq iv n' = true) : n'.eq iv n = true := by
  induction n using Node.induction generalizing n' with
  | h hd c ih =>
    obtain ⟨hd', c'⟩ := n'
    simp only [Node.eq, Node.hd, Node.content, Bool.and_eq_true, contentEq_slotEq] at h ⊢
    have h0 := hu _ (.here _)
    refine ⟨hdEq_symm h0.1 h.1, slotEq_symm h0.2 ?_ h.2⟩
    rintro x y rfl hxy
    rw [nodesEq_iff] at hxy ⊢
    have hu' : ∀ k ∈ x, ObjUnique k := fun k hk m hm => hu m (.step rfl hk hm)
    have ih' : ∀ k ∈ x, ∀ n', ObjUnique k → k.eq iv n' = true → n'.eq iv k = true :=
      fun k hk n' h1 h2 => ih x k rfl hk h1 h2
    clear ih hu h h0
    induction hxy with
    | nil => exact .nil
    | cons h _ ih2 =>
      exact .cons (ih' _ List.mem_cons_self _ (hu' _ List.mem_cons_self) h)
        (ih2 (fun k hk => hu' k (List.mem_cons_of_mem _ hk)) fun k hk => ih' k (List.mem_cons_of_mem _ hk))

theorem slotEq_trans {α : Type} {f : α → α → Bool} {s t u : Slot α}
    (hv : ∀ a b c, s = .val a → f a b = true → f b c = true → f a c = true) (h : slotEq iv f s t = true)
    (h' : slotEq iv f t u = true) : slotEq iv f s u = true := by
  cases s <;> cases t <;> simp only [slotEq, Bool.false_eq_true] at h <;>
    cases u <;> simp only [slotEq, Bool.false_eq_true] at h' ⊢
  · exact eq_trans _ _ _ h h'
  · exact hv _ _ _ rfl h h'

theorem optEq_trans {s t u : Option Val} (h : optEq iv s t = true) (h' : optEq iv t u = true) :
    optEq iv s u = true := by
  cases s <;> cases t <;> simp only [optEq, Bool.false_eq_true] at h <;>
    cases u <;> simp only [optEq, Bool.false_eq_true] at h' ⊢
  exact eq_trans _ _ _ h h'

theorem forall₂_trans {α : Type} {R : α → α → Prop} {a b c : List α}
    (hR : ∀ x ∈ a, ∀ y z, R x y → R y z → R x z) (h : List.Forall₂ R a b) (h' : List.Forall₂ R b c) :
    List.Forall₂ R a c := by
  induction h generalizing c with
  | nil => cases h'; exact .nil
  | cons h _ ih =>
    cases h' with
    | cons h1 t1 =>
      exact .cons (hR _ List.mem_cons_self _ _ h h1) (ih (fun x hx => hR x (List.mem_cons_of_mem _ hx)) t1)

theorem attrsEq_trans {a b c : AttrsObj} (h : a.eq iv b = true) (h' : b.eq iv c = true) : a.eq iv c = true := by
  rw [AttrsObj.eq, fieldsEq_iff] at h h' ⊢
  exact forall₂_trans (fun x _ y z h1 h2 => ⟨h1.1.trans h2.1, eq_trans _ _ _ h1.2 h2.2⟩) h h'

theorem markEq_trans {a b c : Mark} (h : a.eq iv b = true) (h' : b.eq iv c = true) : a.eq iv c = true := by
  simp only [Mark.eq, Bool.and_eq_true, decide_eq_true_eq] at h h' ⊢
  exact ⟨⟨h.1.1.trans h'.1.1, eq_trans _ _ _ h.1.2 h'.1.2⟩,
    slotEq_trans (fun _ _ _ _ h1 h2 => attrsEq_trans h1 h2) h.2 h'.2⟩

theorem nodeEq_trans {a b c : Node} (h : a.eq iv b = true) (h' : b.eq iv c = true) : a.eq iv c = true := by
  induction a using Node.induction generalizing b c with
  | h hd ct ih =>
    obtain ⟨hd', ct'⟩ := b
    obtain ⟨hd'', ct''⟩ := c
    simp only [Node.eq, Node.hd, Node.content, Bool.and_eq_true, contentEq_slotEq, Hd.eq]
      at h h' ⊢
    obtain ⟨⟨⟨⟨⟨⟨h1, h2⟩, h3⟩, h4⟩, h5⟩, h6⟩, h7⟩ := h
    obtain ⟨⟨⟨⟨⟨⟨g1, g2⟩, g3⟩, g4⟩, g5⟩, g6⟩, g7⟩ := h'
    refine ⟨⟨⟨⟨⟨⟨decide_eq_true ((of_decide_eq_true h1).trans (of_decide_eq_true g1)), eq_trans _ _ _ h2 g2⟩, optEq_trans h3 g3⟩, optEq_trans h4 g4⟩,
      slotEq_trans (fun _ _ _ _ h1 h2 => attrsEq_trans h1 h2) h5 g5⟩,
      slotEq_trans (fun _ _ _ _ h1 h2 => ?_) h6 g6⟩, slotEq_trans ?_ h7 g7⟩
    · rw [marksEq_iff] at h1 h2 ⊢
      exact forall₂_trans (fun _ _ _ _ h1 h2 => markEq_trans h1 h2) h1 h2
    · rintro x y z rfl h1 h2
      rw [nodesEq_iff] at h1 h2 ⊢
      exact forall₂_trans (fun k hk _ _ h1 h2 => ih x k rfl hk h1 h2) h1 h2

/-- C59: `==` is an equivalence on parsed nodes. -/
theorem C59_equivalence (iv : Str → Option Int) (w : Bool) (v : Val) (hk : UniqueKeys v) (n n' n'' : Node)
    (hn : (parseNode w v).out = .ok n) :
    n.eq iv n = true ∧ (n.eq iv n' = true → n'.eq iv n = true) ∧
    (n.eq iv n' = true → n'.eq iv n'' = true → n.eq iv n'' = true) := by
  refine ⟨?_, nodeEq_symm (parsed_unique w v hk n hn), nodeEq_trans⟩
  have := (C59_parse_node iv w v v hk (eq_refl v hk)).1
  rw [hn] at this
  cases this with
  | ok h => exact h

/-! ## to_dict -/

/-- Entry by entry. -/
def EntriesEq (iv : Str → Option Int) : List (String × Val) → List (String × Val) → Prop :=
  List.Forall₂ (fun x y => x.1 = y.1 ∧ x.2.eq iv y.2 = true)

theorem entries_filter {a b : List (String × Val)} (h : EntriesEq iv a b) :
    EntriesEq iv (removeOptional a) (removeOptional b) := by
  unfold removeOptional
  induction h with
  | nil => exact .nil
  | @cons x y _ _ h _ ih =>
    have : x.2.isOpt = y.2.isOpt := by
      have := (eq_kind h.2).2.2.2.1
      cases hx : x.2 <;> cases hy : y.2 <;> simp_all [Val.isOpt]
    rw [List.filter_cons, List.filter_cons, this]
    split
    · exact .cons h ih
    · exact ih

theorem entries_keys {a b : List (String × Val)} (h : EntriesEq iv a b) : a.map Prod.fst = b.map Prod.fst := by
  induction h with
  | nil => rfl
  | cons h _ ih => rw [List.map_cons, List.map_cons, h.1, ih]

theorem entries_dict {a b : List (String × Val)} (h : EntriesEq iv a b) (hn : (a.map Prod.fst).Nodup) :
    (Val.dict a).eq iv (.dict b) = true := by
  simp only [Val.eq, Bool.and_eq_true, beq_iff_eq, dictSub_iff]
  refine ⟨h.length_eq, ?_⟩
  have hn' : (b.map Prod.fst).Nodup := by rw [← entries_keys h]; exact hn
  intro k v hm
  suffices ∃ w, (k, w) ∈ b ∧ v.eq iv w = true by
    obtain ⟨w, h1, h2⟩ := this
    exact ⟨w, lookup_of_mem hn' h1, h2⟩
  clear hn hn'
  induction h with
  | nil => simp at hm
  | @cons x y _ _ h _ ih =>
    rcases List.mem_cons.mp hm with e | hm
    · subst e
      refine ⟨y.2, ?_, h.2⟩
      rw [show (k, y.2) = y from Prod.ext h.1 rfl]
      exact List.mem_cons_self
    · obtain ⟨w, h1, h2⟩ := ih hm
      exact ⟨w, List.mem_cons_of_mem _ h1, h2⟩

theorem nodup_filter {a : List (String × Val)} (hn : (a.map Prod.fst).Nodup) :
    ((removeOptional a).map Prod.fst).Nodup :=
  hn.sublist ((List.filter_sublist).map _)

theorem attrs_toDict_eq {a b : AttrsObj} (hu : UniqueKeys (.dict a.fields)) (h : a.eq iv b = true) :
    a.toDict.eq iv b.toDict = true := by
  rw [AttrsObj.eq, fieldsEq_iff] at h
  rw [UniqueKeys] at hu
  exact entries_dict (entries_filter h) (nodup_filter hu.1)

theorem mark_toDict_eq {m m' : Mark} (hu : attrsUnique m.attrs) (h : m.eq iv m' = true) :
    m.toDict.eq iv m'.toDict = true := by
  simp only [Mark.eq, Bool.and_eq_true, decide_eq_true_eq] at h
  obtain ⟨⟨_, h2⟩, h3⟩ := h
  unfold Mark.toDict Mark.attrsEntry
  cases hm : m.attrs <;> cases hm' : m'.attrs <;> rw [hm, hm'] at h3 <;>
    simp only [slotEq, Bool.false_eq_true] at h3
  · exact entries_dict (entries_filter (.cons ⟨rfl, h2⟩ .nil)) (nodup_filter (by simp))
  · exact entries_dict (entries_filter (.cons ⟨rfl, h2⟩ (.cons ⟨rfl, rfl⟩ .nil))) (nodup_filter (by simp))
  · exact entries_dict (entries_filter (.cons ⟨rfl, h2⟩ (.cons ⟨rfl, h3⟩ .nil))) (nodup_filter (by simp))
  · refine entries_dict (entries_filter (.cons ⟨rfl, h2⟩ (.cons ⟨rfl, ?_⟩ .nil))) (nodup_filter (by simp))
    rw [AttrsObj.eq, fieldsEq_iff] at h3
    rw [hm] at hu
    have hu' : UniqueKeys (.dict _) := hu
    rw [UniqueKeys] at hu'
    exact entries_dict h3 hu'.1

theorem iterLen_eq {v w : Val} (h : v.eq iv w = true) : v.iterLen = w.iterLen := by
  by_cases h1 : ∃ s, v = .str s
  · obtain ⟨s, rfl⟩ := h1; rw [str_eq h]
  by_cases h2 : ∃ l, v = .list l
  · obtain ⟨l, rfl⟩ := h2
    obtain ⟨m, rfl, hm⟩ := list_eq h
    simp [Val.iterLen, hm.length_eq]
  by_cases h3 : ∃ d, v = .dict d
  · obtain ⟨d, rfl⟩ := h3
    obtain ⟨e, rfl⟩ := (eq_kind h).1.mp ⟨d, rfl⟩
    simp only [Val.eq, Bool.and_eq_true, beq_iff_eq] at h
    simp [Val.iterLen, h.1]
  · obtain ⟨k1, k2, k3, _⟩ := eq_kind h
    have g : ∀ v : Val, (¬ ∃ s, v = .str s) → (¬ ∃ l, v = .list l) → (¬ ∃ d, v = .dict d) →
        v.iterLen = .error .typeError := by
      intro v a b c
      cases v <;> first | rfl | exact absurd ⟨_, rfl⟩ a | exact absurd ⟨_, rfl⟩ b | exact absurd ⟨_, rfl⟩ c
    rw [g v h1 h2 h3, g w (fun h => h1 (k3.mpr h)) (fun h => h2 (k2.mpr h)) (fun h => h3 (k1.mpr h))]

theorem rawToDict_eq {v w : Val} (h : v.eq iv w = true) : rawToDict v = rawToDict w := by
  unfold rawToDict
  rw [iterLen_eq h]

theorem rawToDict_cases (v : Val) : rawToDict v = .ok (.list []) ∨ rawToDict v = .error .typeError ∨
    rawToDict v = .error .attributeError := by
  unfold rawToDict
  cases v with
  | str s => rcases s with _ | ⟨_, _⟩ <;> simp [Val.iterLen]
  | list s => rcases s with _ | ⟨_, _⟩ <;> simp [Val.iterLen]
  | dict s => rcases s with _ | ⟨_, _⟩ <;> simp [Val.iterLen]
  | _ => simp [Val.iterLen]

theorem marksEntry_eq {s t : Slot (List Mark)} (hu : marksUnique s) (h : slotEq iv (marksEq iv) s t = true) :
    SameOut iv (EntriesEq iv) (marksEntry s) (marksEntry t) := by
  cases s <;> cases t <;> simp only [slotEq, Bool.false_eq_true] at h
  · exact .ok .nil
  · exact .ok (.cons ⟨rfl, rfl⟩ .nil)
  · next v w =>
    simp only [marksEntry, ← rawToDict_eq h]
    rcases rawToDict_cases v with h | h | h <;> rw [h]
    · exact .ok (.cons ⟨rfl, rfl⟩ .nil)
    · exact .error (sameErr_refl (by simp))
    · exact .error (sameErr_refl (by simp))
  · next x y =>
    refine .ok (.cons ⟨rfl, ?_⟩ .nil)
    rw [marksEq_iff] at h
    simp only [Val.eq, listEq_iff, List.forall₂_map_left_iff, List.forall₂_map_right_iff]
    have hu' : ∀ m ∈ x, UniqueKeys m.type ∧ attrsUnique m.attrs := hu
    clear hu
    induction h with
    | nil => exact .nil
    | cons h _ ih =>
      exact .cons (mark_toDict_eq (hu' _ List.mem_cons_self).2 h) (ih fun m hm => hu' m (List.mem_cons_of_mem _ hm))

theorem attrsEntry_eq {s t : Slot AttrsObj} (hu : attrsUnique s) (h : slotEq iv (AttrsObj.eq iv) s t = true) :
    EntriesEq iv (nodeAttrsEntry s) (nodeAttrsEntry t) := by
  cases s <;> cases t <;> simp only [slotEq, Bool.false_eq_true] at h
  · exact .nil
  · exact .cons ⟨rfl, rfl⟩ .nil
  · exact .cons ⟨rfl, h⟩ .nil
  · exact .cons ⟨rfl, attrs_toDict_eq hu h⟩ .nil

theorem plainEntry_eq {k : String} {s t : Option Val} (h : optEq iv s t = true) :
    EntriesEq iv (plainEntry k s) (plainEntry k t) := by
  cases s <;> cases t <;> simp only [optEq, Bool.false_eq_true] at h
  · exact .nil
  · exact .cons ⟨rfl, h⟩ .nil

theorem entry_keys {hd : Hd} {c m : List (String × Val)} (hc : (c.map Prod.fst).Sublist ["content"])
    (hm : (m.map Prod.fst).Sublist ["marks"]) :
    ((("type", hd.type) :: (plainEntry "version" hd.version ++ plainEntry "text" hd.text ++
      nodeAttrsEntry hd.attrs ++ c ++ m)).map Prod.fst).Nodup := by
  have h1 : ∀ (k : String) (o : Option Val), ((plainEntry k o).map Prod.fst).Sublist [k] := by
    intro k o; cases o <;> simp [plainEntry]
  have h2 : ((nodeAttrsEntry hd.attrs).map Prod.fst).Sublist ["attrs"] := by
    cases hd.attrs <;> simp [nodeAttrsEntry]
  have : ((("type", hd.type) :: (plainEntry "version" hd.version ++ plainEntry "text" hd.text ++
      nodeAttrsEntry hd.attrs ++ c ++ m)).map Prod.fst).Sublist
      ("type" :: (["version"] ++ ["text"] ++ ["attrs"] ++ ["content"] ++ ["marks"])) := by
    simp only [List.map_cons, List.map_append]
    exact ((((h1 _ _).append (h1 _ _)).append h2).append hc |>.append hm).cons_cons _
  exact List.Nodup.sublist this (by decide)

theorem contentEntry_keys {s : Slot (List Node)} {c : List (String × Val)} (h : contentEntry s = .ok c) :
    (c.map Prod.fst).Sublist ["content"] := by
  cases s with
  | absent => simp [contentEntry] at h; subst h; simp
  | opt => simp [contentEntry] at h; subst h; simp
  | raw v =>
    simp only [contentEntry] at h
    split at h
    · simp at h
    · simp at h; subst h; simp
  | val l =>
    simp only [contentEntry] at h
    split at h
    · simp at h
    · simp at h; subst h; simp

theorem marksEntry_keys {s : Slot (List Mark)} {c : List (String × Val)} (h : marksEntry s = .ok c) :
    (c.map Prod.fst).Sublist ["marks"] := by
  cases s with
  | absent => simp [marksEntry] at h; subst h; simp
  | opt => simp [marksEntry] at h; subst h; simp
  | raw v =>
    simp only [marksEntry] at h
    split at h
    · simp at h
    · simp at h; subst h; simp
  | val l => simp [marksEntry] at h; subst h; simp

theorem toDict_eq {n n' : Node} (hu : ObjUnique n) (h : n.eq iv n' = true) :
    SameOut iv (fun v w => v.eq iv w = true) n.toDict n'.toDict := by
  induction n using Node.induction generalizing n' with
  | h hd c ih =>
    obtain ⟨hd', c'⟩ := n'
    simp only [Node.eq, Node.hd, Node.content, Bool.and_eq_true, contentEq_slotEq, Hd.eq] at h
    obtain ⟨⟨⟨⟨⟨⟨h1, h2⟩, h3⟩, h4⟩, h5⟩, h6⟩, h7⟩ := h
    have h0 := hu _ (.here _)
    have hc : SameOut iv (EntriesEq iv) (contentEntry c) (contentEntry c') := by
      cases c <;> cases c' <;> simp only [slotEq, Bool.false_eq_true] at h7
      · exact .ok .nil
      · exact .ok (.cons ⟨rfl, rfl⟩ .nil)
      · next v w =>
        simp only [contentEntry, ← rawToDict_eq h7]
        rcases rawToDict_cases v with h | h | h <;> rw [h]
        · exact .ok (.cons ⟨rfl, rfl⟩ .nil)
        · exact .error (sameErr_refl (by simp))
        · exact .error (sameErr_refl (by simp))
      · next x y =>
        have key : SameOut iv (List.Forall₂ fun v w => v.eq iv w = true) (listToDict x) (listToDict y) := by
          rw [nodesEq_iff] at h7
          have ih' : ∀ k ∈ x, ∀ k', k.eq iv k' = true → SameOut iv (fun v w => v.eq iv w = true) k.toDict k'.toDict :=
            fun k hk k' hkk => ih x k rfl hk (fun m hm => hu m (.step rfl hk hm)) hkk
          clear hu h0 ih h1
          induction h7 with
          | nil => exact .ok .nil
          | cons h _ ih2 =>
            rw [listToDict, listToDict]
            have a1 := ih' _ List.mem_cons_self _ h
            have a2 := ih2 fun k hk => ih' k (List.mem_cons_of_mem _ hk)
            revert a1 a2
            generalize Node.toDict _ = p
            generalize Node.toDict _ = q
            generalize listToDict _ = r
            generalize listToDict _ = t
            intro a1 a2
            cases a1 with
            | error h => exact .error h
            | ok h =>
              cases a2 with
              | error h => exact .error h
              | ok h' => exact .ok (.cons h h')
        simp only [contentEntry]
        generalize listToDict x = p at key
        generalize listToDict y = q at key
        cases key with
        | error h => exact .error h
        | ok h => exact .ok (.cons ⟨rfl, by simpa only [Val.eq, listEq_iff] using h⟩ .nil)
    have hm := marksEntry_eq h0.1.marks h6
    rw [Node.toDict, Node.toDict]
    have kc := @contentEntry_keys c
    have km := @marksEntry_keys hd.marks
    simp only [Node.hd] at hm
    generalize contentEntry c = p at hc kc ⊢
    generalize contentEntry c' = q at hc ⊢
    generalize marksEntry hd.marks = r at hm km ⊢
    generalize marksEntry hd'.marks = t at hm ⊢
    cases hc with
    | error h => exact .error h
    | ok hc =>
      cases hm with
      | error h => exact .error h
      | ok hm =>
        refine .ok (entries_dict (entries_filter (.cons ⟨rfl, h2⟩ ?_)) (nodup_filter (entry_keys (kc rfl) (km rfl))))
        exact List.rel_append (List.rel_append (List.rel_append (List.rel_append (plainEntry_eq h3)
          (plainEntry_eq h4)) (attrsEntry_eq h0.1.attrs h5)) hc) hm

/-- C59: equal nodes have equal dicts (or `to_dict` raises the same exception). -/
theorem C59_to_dict (iv : Str → Option Int) (w : Bool) (v : Val) (hk : UniqueKeys v) (n n' : Node)
    (hn : (parseNode w v).out = .ok n) (h : n.eq iv n' = true) :
    SameOut iv (fun x y => x.eq iv y = true) n.toDict n'.toDict :=
  toDict_eq (parsed_unique w v hk n hn) h

theorem removeOptional_unique {a : List (String × Val)} (hn : (a.map Prod.fst).Nodup)
    (h : ∀ e ∈ a, UniqueKeys e.2) : UniqueKeys (.dict (removeOptional a)) := by
  rw [UniqueKeys, uniqueKeysDict_iff]
  exact ⟨nodup_filter hn, fun k x hx => h (k, x) (List.mem_filter.mp hx).1⟩

theorem attrs_toDict_unique {a : AttrsObj} (hu : UniqueKeys (.dict a.fields)) : UniqueKeys a.toDict := by
  rw [UniqueKeys, uniqueKeysDict_iff] at hu
  exact removeOptional_unique hu.1 fun e he => hu.2 e.1 e.2 he

theorem mark_toDict_unique {m : Mark} (hu : UniqueKeys m.type ∧ attrsUnique m.attrs) : UniqueKeys m.toDict := by
  obtain ⟨h1, h2⟩ := hu
  unfold Mark.toDict Mark.attrsEntry
  cases hm : m.attrs <;> rw [hm] at h2 <;> refine removeOptional_unique (by simp) ?_ <;> intro e he <;>
    simp only [List.mem_cons, List.not_mem_nil, or_false] at he
  · subst he; exact h1
  · rcases he with rfl | rfl
    · exact h1
    · trivial
  · rcases he with rfl | rfl
    · exact h1
    · exact h2
  · rcases he with rfl | rfl
    · exact h1
    · exact h2

theorem toDict_unique {n : Node} (hu : ObjUnique n) {d : Val} (h : n.toDict = .ok d) : UniqueKeys d := by
  induction n using Node.induction generalizing d with
  | h hd c ih =>
    have h0 := hu _ (.here _)
    rw [Node.toDict] at h
    split at h
    · simp at h
    · next ce hce =>
      split at h
      · simp at h
      · next me hme =>
        simp only [Except.ok.injEq] at h
        subst h
        refine removeOptional_unique (entry_keys (contentEntry_keys hce) (marksEntry_keys hme)) ?_
        intro e he
        rcases List.mem_cons.mp he with rfl | he
        · exact h0.1.type
        simp only [List.mem_append] at he
        rcases he with (((he | he) | he) | he) | he
        · cases hv : hd.version <;> rw [hv] at he <;> simp [plainEntry] at he
          subst he; exact h0.1.version _ hv
        · cases hv : hd.text <;> rw [hv] at he <;> simp [plainEntry] at he
          subst he; exact h0.1.text _ hv
        · have ha := h0.1.attrs
          simp only [Node.hd] at ha
          cases hv : hd.attrs <;> rw [hv] at he ha <;> simp [nodeAttrsEntry] at he <;> subst he
          · trivial
          · exact ha
          · exact attrs_toDict_unique ha
        · cases c with
          | absent => simp [contentEntry] at hce; subst hce; simp at he
          | opt => simp [contentEntry] at hce; subst hce; simp at he; subst he; trivial
          | raw v =>
            simp only [contentEntry] at hce
            rcases rawToDict_cases v with h | h | h <;> rw [h] at hce <;> simp at hce
            subst hce; simp at he; subst he; trivial
          | val l =>
            simp only [contentEntry] at hce
            split at hce
            · simp at hce
            · next vs hvs =>
              simp at hce
              subst hce
              simp at he
              subst he
              rw [UniqueKeys, uniqueKeysList_iff]
              have hl : ∀ k ∈ l, ∀ d, k.toDict = .ok d → UniqueKeys d :=
                fun k hk d hd => ih l k rfl hk (fun m hm => hu m (.step rfl hk hm)) hd
              clear hu h0 ih he
              induction l generalizing vs with
              | nil => simp [listToDict] at hvs; subst hvs; simp
              | cons k l ih2 =>
                rw [listToDict] at hvs
                split at hvs
                · simp at hvs
                · next v hv =>
                  split at hvs
                  · simp at hvs
                  · next ws hws =>
                    simp at hvs
                    subst hvs
                    intro x hx
                    rcases List.mem_cons.mp hx with rfl | hx
                    · exact hl k List.mem_cons_self _ hv
                    · exact ih2 ws hws (fun k hk => hl k (List.mem_cons_of_mem _ hk)) x hx
        · have hm := h0.1.marks
          simp only [Node.hd] at hm
          cases hv : hd.marks <;> rw [hv] at hme hm
          · simp [marksEntry] at hme; subst hme; simp at he
          · simp [marksEntry] at hme; subst hme; simp at he; subst he; trivial
          · next v =>
            simp only [marksEntry] at hme
            rcases rawToDict_cases v with h | h | h <;> rw [h] at hme <;> simp at hme
            subst hme; simp at he; subst he; trivial
          · next ms =>
            simp only [marksEntry, Except.ok.injEq] at hme
            subst hme
            simp only [List.mem_cons, List.not_mem_nil, or_false] at he
            subst he
            rw [UniqueKeys, uniqueKeysList_iff]
            intro x hx
            obtain ⟨m, hmm, rfl⟩ := List.mem_map.mp hx
            exact mark_toDict_unique (hm m hmm)

/-- C59: two parsed nodes are equal if and only if their dicts are. -/
theorem C59_to_dict_iff (iv : Str → Option Int) (w w' : Bool) (v v' : Val)
    (hk : UniqueKeys v) (hp : plain v = true) (hp' : plain v' = true) (n n' : Node)
    (hn : (parseNode w v).out = .ok n) (hn' : (parseNode w' v').out = .ok n')
    (hc : Converted n) (hc' : Converted n') :
    ∃ d d', n.toDict = .ok d ∧ n'.toDict = .ok d' ∧ (n.eq iv n' = true ↔ d.eq iv d' = true) := by
  obtain ⟨d, h1, h2, _⟩ := C04_parse_node w true v n hp hn hc
  obtain ⟨d', h1', h2', _⟩ := C04_parse_node w' true v' n' hp' hn' hc'
  refine ⟨d, d', h1, h1', fun h => ?_, fun h => ?_⟩
  · have := C59_to_dict iv w v hk n n' hn h
    rw [h1, h1'] at this
    cases this with
    | ok h => exact h
  · have := (C59_parse_node iv true d d' (toDict_unique (parsed_unique w v hk n hn) h1) h).1
    rw [h2, h2'] at this
    cases this with
    | ok h => exact h

/-! ## Markdown -/

theorem simple_eq {v w : Val} (hv : Simple v) (hw : Simple w) (h : v.eq iv w = true) : v = w := by
  cases v <;> simp only [Simple] at hv <;> cases w <;> simp only [Simple] at hw <;>
    simp_all [Val.eq, numEq, Val.num?]

theorem simple_attrs {names : List String} {s t : Slot AttrsObj} (hs : SimpleAttrs names s)
    (ht : SimpleAttrs names t) (h : slotEq iv (AttrsObj.eq iv) s t = true) : AttrsAgree names s t := by
  cases s <;> cases t <;> simp only [slotEq, Bool.false_eq_true] at h
  · exact .inr (.inl rfl)
  · exact .inr (.inl rfl)
  · exact .inr (.inl (congrArg _ (simple_eq hs ht h)))
  · next a b =>
    refine .inr (.inr ⟨a, b, rfl, rfl, ?_⟩)
    rw [AttrsObj.eq, fieldsEq_iff] at h
    intro k hk
    have ha : ∀ v, lookupKey a.fields k = some v → Simple v := hs k hk
    have hb : ∀ v, lookupKey b.fields k = some v → Simple v := ht k hk
    clear hs ht
    generalize a.fields = x at h ha
    generalize b.fields = y at h hb
    induction h with
    | nil => rfl
    | @cons e f _ _ h _ ih =>
      obtain ⟨k1, v1⟩ := e
      obtain ⟨k2, v2⟩ := f
      obtain ⟨h1, h2⟩ := h
      simp only at h1 h2
      subst h1
      simp only [lookupKey] at ha hb ⊢
      split
      · next hkk =>
        rw [if_pos hkk] at ha hb
        rw [simple_eq (ha _ rfl) (hb _ rfl) h2]
      · next hkk =>
        rw [if_neg hkk] at ha hb
        exact ih ha hb

theorem simple_marks {x y : List Mark}
    (hx : ∀ m ∈ x, ∀ names, readMarkAttrs m.cls = some names → SimpleAttrs names m.attrs)
    (hy : ∀ m ∈ y, ∀ names, readMarkAttrs m.cls = some names → SimpleAttrs names m.attrs)
    (h : marksEq iv x y = true) : MarksAgree x y := by
  rw [marksEq_iff] at h
  induction h with
  | nil => exact .nil
  | cons h _ ih =>
    simp only [Mark.eq, Bool.and_eq_true, decide_eq_true_eq] at h
    refine .both h.1.1 (fun names hn => ?_) (ih (fun m hm => hx m (List.mem_cons_of_mem _ hm))
      fun m hm => hy m (List.mem_cons_of_mem _ hm))
    exact simple_attrs (hx _ List.mem_cons_self names hn)
      (hy _ List.mem_cons_self names (by rw [← h.1.1]; exact hn)) h.2

theorem sameForMd_of_eq {n n' : Node} (ht : ∀ m, Below m n → HasType m) (hs : SimpleTree n)
    (hs' : SimpleTree n') (h : n.eq iv n' = true) : SameForMd n n' := by
  induction n using Node.induction generalizing n' with
  | h hd c ih =>
    obtain ⟨hd', c'⟩ := n'
    simp only [Node.eq, Node.hd, Node.content, Bool.and_eq_true, contentEq_slotEq, Hd.eq] at h
    obtain ⟨⟨⟨⟨⟨⟨h1, h2⟩, h3⟩, h4⟩, h5⟩, h6⟩, h7⟩ := h
    replace h1 := of_decide_eq_true h1
    have s := hs _ (.here _)
    have s' := hs' _ (.here _)
    have here : AgreeHere (.mk hd c) (.mk hd' c') := by
      refine ⟨h1, ?_, fun _ => ?_, ?_, fun _ => ?_⟩
      · obtain ⟨name, _, hty⟩ := ht _ (.here _)
        simp only [Node.hd] at hty ⊢
        rw [hty] at h2 ⊢
        exact (str_eq h2).symm
      · have a := s.text
        have b := s'.text
        simp only [Node.hd] at a b ⊢
        cases hx : hd.text <;> cases hy : hd'.text <;> rw [hx, hy] at h4 <;>
          simp only [optEq, Bool.false_eq_true] at h4
        rw [simple_eq (a _ hx) (b _ hy) h4]
      · refine simple_attrs s.attrs ?_ h5
        have := s'.attrs
        simp only [Node.cls, Node.hd] at this ⊢
        rw [h1]
        exact this
      · have a := s.marks
        have b := s'.marks
        simp only [marksOf, Node.hd] at a b ⊢
        cases hx : hd.marks <;> cases hy : hd'.marks <;> rw [hx, hy] at h6 <;>
          simp only [slotEq, Bool.false_eq_true] at h6
        · exact .nil
        · exact .nil
        · exact .nil
        · exact simple_marks (a _ hx) (b _ hy) h6
    cases c <;> cases c' <;> simp only [slotEq, Bool.false_eq_true] at h7
    · exact .leaf here rfl
    · exact .leaf here rfl
    · exact absurd rfl (s.content _)
    · next x y =>
      refine .inner here rfl rfl ?_
      rw [nodesEq_iff] at h7
      have key : ∀ k ∈ x, ∀ k' ∈ y, k.eq iv k' = true → SameForMd k k' := fun k hk k' hk' hkk =>
        ih x k rfl hk (fun m hm => ht m (.step rfl hk hm)) (fun m hm => hs m (.step rfl hk hm))
          (fun m hm => hs' m (.step rfl hk' hm)) hkk
      clear ih ht hs hs' s s' here h1
      induction h7 with
      | nil => exact .nil
      | cons h _ ih2 =>
        exact .cons (key _ List.mem_cons_self _ List.mem_cons_self h)
          (ih2 fun k hk k' hk' => key k (List.mem_cons_of_mem _ hk) k' (List.mem_cons_of_mem _ hk'))

/-- C60 (part): equal parsed nodes have the same Markdown, or the same exception, if the text and the
attributes that the Markdown reads are not bools, floats, lists or dicts.  Missing: those values, for which
it is false (`C60_false`). -/
theorem C60_partial (iv : Str → Option Int) (env : Env) (n n' : Node) (hp : Parsed n) (hs : SimpleTree n)
    (hs' : SimpleTree n') (h : n.eq iv n' = true) (level : Option Int) (ig : Bool) :
    n.toMarkdownAt env level ig = n'.toMarkdownAt env level ig :=
  C53_parsed env n n' hp
    (sameForMd_of_eq (fun _ hm => parsed_hasType (below_parsed hm hp)) hs hs' h) level ig

/-- An ordered list with one item, starting at this number. -/
def listFrom (v : Val) : Val := .dict
  [("type", .str "orderedList".toList), ("attrs", .dict [("order", v)]), ("content", .list
    [.dict [("type", .str "listItem".toList), ("content", .list
      [.dict [("type", .str "paragraph".toList), ("content", .list
        [.dict [("type", .str "text".toList), ("text", .str "a".toList)]])]])]])]

/-- C60 is false in general: ordered lists that start at `1` and at `True` are equal. -/
theorem C60_false (iv : Str → Option Int) : ∃ n n' : Node, Parsed n ∧ Parsed n' ∧ n.eq iv n' = true ∧
    n.toMarkdown Samples.env false = .ok (.str "1. a".toList) ∧
    n'.toMarkdown Samples.env false = .ok (.str "True. a".toList) :=
  ⟨_, _, ⟨true, listFrom (.int 1), rfl⟩, ⟨true, listFrom (.bool true), rfl⟩, rfl, rfl, rfl⟩

/-! ## The hypotheses are met -/

/-- The example of the round trip, with keys in another order and a version `True` next to `1`. -/
def eqExample (v : Val) (swap : Bool) : Val := .dict
  (if swap then [("type", .str "doc".toList), ("version", v), ("content", .list
    [.dict [("type", .str "rule".toList)]])]
   else [("content", .list [.dict [("type", .str "rule".toList)]]), ("version", v), ("type", .str "doc".toList)])

/-- The parsed example. -/
def eqNode (v : Val) : Node :=
  .mk ⟨.doc, .str "doc".toList, some v, none, .absent, .absent⟩
    (.val [.mk ⟨.rule, .str "rule".toList, none, none, .opt, .absent⟩ .absent])

theorem simpleTree_eqNode (v : Val) : SimpleTree (eqNode v) := by
  intro m hm
  cases hm with
  | here => exact ⟨by simp [eqNode, Node.hd], trivial, by simp [eqNode, Node.hd], by simp [eqNode, Node.content]⟩
  | step hc hk hb =>
    simp only [eqNode, Node.content, Slot.val.injEq] at hc
    subst hc
    simp only [List.mem_cons, List.not_mem_nil, or_false] at hk
    subst hk
    cases hb with
    | here => exact ⟨by simp [Node.hd], trivial, by simp [Node.hd], by simp [Node.content]⟩
    | step hc => simp [Node.content] at hc

example (iv : Str → Option Int) : UniqueKeys (eqExample (.int 1) true) ∧
    (eqExample (.int 1) true).eq iv (eqExample (.bool true) false) = true ∧
    (parseNode true (eqExample (.int 1) true)).out = .ok (eqNode (.int 1)) ∧
    (parseNode true (eqExample (.bool true) false)).out = .ok (eqNode (.bool true)) ∧
    (eqNode (.int 1)).eq iv (eqNode (.bool true)) = true ∧ eqNode (.int 1) ≠ eqNode (.bool true) ∧
    plain (eqExample (.int 1) true) = true ∧ plain (eqExample (.bool true) false) = true ∧
    Converted (eqNode (.int 1)) ∧ Converted (eqNode (.bool true)) ∧
    SimpleTree (eqNode (.int 1)) ∧ SimpleTree (eqNode (.bool true)) := by
  refine ⟨?_, rfl, rfl, rfl, rfl, by simp [eqNode], rfl, rfl, converted_of_noRaw rfl, converted_of_noRaw rfl,
    simpleTree_eqNode _, simpleTree_eqNode _⟩
  simp [eqExample, UniqueKeys, UniqueKeysDict, UniqueKeysList]

/-! ### The theorems on this sample -/

theorem eqExample_unique : UniqueKeys (eqExample (.int 1) true) := by
  simp [eqExample, UniqueKeys, UniqueKeysDict, UniqueKeysList]

example := C59_parse_node (fun _ => none) true (eqExample (.int 1) true) (eqExample (.bool true) false) eqExample_unique rfl

example := C59_from_dict (fun _ => none) true .doc _ _ eqExample_unique
  (show (eqExample (.int 1) true).eq (fun _ => none) (eqExample (.bool true) false) = true from rfl)

example := C59_parse_mark (fun _ => none)
  (Samples.j "link" [("attrs", .dict [("href", Samples.str "u"), ("id", .int 1)])])
  (.dict [("attrs", .dict [("id", .bool true), ("href", Samples.str "u")]), ("type", Samples.str "link")])
  (by simp [Samples.j, Samples.str, UniqueKeys, UniqueKeysDict]) rfl

example := C59_equivalence (fun _ => none) true _ eqExample_unique (eqNode (.int 1)) (eqNode (.bool true)) (eqNode (.int 1)) rfl

example := C59_to_dict (fun _ => none) true _ eqExample_unique (eqNode (.int 1)) (eqNode (.bool true)) rfl rfl

example := C59_to_dict_iff (fun _ => none) true true _ (eqExample (.bool true) false) eqExample_unique rfl rfl
  (eqNode (.int 1)) (eqNode (.bool true)) rfl rfl (converted_of_noRaw rfl) (converted_of_noRaw rfl)

example := C60_partial (fun _ => none) Samples.env (eqNode (.int 1)) (eqNode (.bool true))
  ⟨true, eqExample (.int 1) true, rfl⟩ (simpleTree_eqNode _) (simpleTree_eqNode _) rfl none false

end Verif.Props
