import Verif.Model.Hash
import Verif.Props.Equality
import Verif.Props.Serial
/-!
# C61: `hash`
-/

namespace Verif.Props
open Verif Spec

variable {H : Hashes} {iv : Str → Option Int}

theorem valHash_eq {v w : Val} (h : v.eq iv w = true) : v.hash H iv = w.hash H iv := by
  have num : ∀ v : Val, ∀ a, v.num? iv = some a → v.hash H iv = .ok (H.num a) := by
    intro v a ha
    cases v <;> simp only [Val.num?, Option.some.injEq, reduceCtorEq] at ha
    · subst ha; rfl
    · subst ha; rfl
    · next r =>
      simp only [Val.hash]
      cases hr : iv r <;> rw [hr] at ha <;> simp at ha <;> subst ha <;> rfl
  cases v with
  | none => cases w <;> simp_all [Val.eq]
  | opt => cases w <;> simp_all [Val.eq]
  | str s => rw [str_eq h]
  | list l => obtain ⟨m, rfl, _⟩ := list_eq h; rfl
  | dict d => obtain ⟨e, rfl⟩ := (eq_kind h).1.mp ⟨d, rfl⟩; rfl
  | _ =>
    rw [Val.eq, numEq_iff] at h
    obtain ⟨a, h1, h2⟩ := h
    rw [num _ a h1, num _ a h2]

theorem attrsHash_eq {s t : Slot AttrsObj} (h : slotEq iv (AttrsObj.eq iv) s t = true) :
    attrsHash H iv s = attrsHash H iv t := by
  cases s <;> cases t <;> simp only [slotEq, Bool.false_eq_true] at h
  · rfl
  · rfl
  · exact valHash_eq h
  · next a b =>
    simp only [attrsHash, AttrsObj.hash]
    rw [AttrsObj.eq, fieldsEq_iff] at h
    congr 1
    generalize a.fields = x at h
    generalize b.fields = y at h
    induction h with
    | nil => rfl
    | cons h _ ih => rw [List.map_cons, List.map_cons, valHash_eq h.2, ih]

theorem listHash_eq {α : Type} {f : α → α → Bool} {s t : Slot α} (h : slotEq iv f s t = true) :
    listHash H iv s = listHash H iv t := by
  cases s <;> cases t <;> simp only [slotEq, Bool.false_eq_true] at h
  · rfl
  · rfl
  · exact valHash_eq h
  · rfl

theorem optHash_eq {s t : Option Val} (h : optEq iv s t = true) :
    (s.getD .opt).hash H iv = (t.getD .opt).hash H iv := by
  cases s <;> cases t <;> simp only [optEq, Bool.false_eq_true] at h
  · rfl
  · exact valHash_eq h

/-- C61: equal nodes have equal hashes (or neither has one). -/
theorem C61_hash (H : Hashes) (iv : Str → Option Int) (n n' : Node) (h : n.eq iv n' = true) :
    n.hash H iv = n'.hash H iv := by
  obtain ⟨hd, c⟩ := n
  obtain ⟨hd', c'⟩ := n'
  simp only [Node.eq, Node.hd, Node.content, Bool.and_eq_true, contentEq_slotEq, Hd.eq] at h
  obtain ⟨⟨⟨⟨⟨⟨h1, h2⟩, h3⟩, h4⟩, h5⟩, h6⟩, h7⟩ := h
  replace h1 := of_decide_eq_true h1
  unfold Node.hash Node.fieldHash
  simp only [Node.cls, Node.hd, Node.content]
  rw [h1, valHash_eq h2, optHash_eq h3, optHash_eq h4, attrsHash_eq h5, listHash_eq h6, listHash_eq h7]

/-- C61 for marks. -/
theorem C61_hash_mark (H : Hashes) (iv : Str → Option Int) (m m' : Mark) (h : m.eq iv m' = true) :
    m.hash H iv = m'.hash H iv := by
  simp only [Mark.eq, Bool.and_eq_true, decide_eq_true_eq] at h
  unfold Mark.hash
  rw [h.1.1, valHash_eq h.1.2, attrsHash_eq h.2]

theorem hashAll_ok {l : List (Except PyErr Int)} : (∃ hs, hashAll l = .ok hs) ↔ ∀ x ∈ l, ∃ h, x = .ok h := by
  induction l with
  | nil => simp [hashAll]
  | cons x l ih =>
    cases x with
    | error e => simp [hashAll]
    | ok h =>
      simp only [hashAll, List.mem_cons, forall_eq_or_imp, ← ih]
      cases hashAll l <;> simp

theorem hashAll_error {l : List (Except PyErr Int)} (hl : ∀ x ∈ l, ∀ e, x = .error e → e = .typeError) {e : PyErr}
    (h : hashAll l = .error e) : e = .typeError := by
  induction l with
  | nil => simp [hashAll] at h
  | cons x l ih =>
    cases x with
    | error e' =>
      simp only [hashAll, Except.error.injEq] at h
      subst h
      exact hl _ List.mem_cons_self _ rfl
    | ok n =>
      simp only [hashAll] at h
      split at h
      · next e' he' =>
        simp only [Except.error.injEq] at h
        subst h
        exact ih (fun x hx => hl x (List.mem_cons_of_mem _ hx)) he'
      · simp at h

theorem tupleHash_ok {l : List (Except PyErr Int)} : (∃ h, tupleHash H l = .ok h) ↔ ∀ x ∈ l, ∃ h, x = .ok h := by
  rw [← hashAll_ok, tupleHash]
  cases hashAll l <;> simp

theorem tupleHash_error {l : List (Except PyErr Int)} (hl : ∀ x ∈ l, ∀ e, x = .error e → e = .typeError) {e : PyErr}
    (h : tupleHash H l = .error e) : e = .typeError := by
  unfold tupleHash at h
  split at h
  · next e' he' =>
    simp only [Except.error.injEq] at h
    subst h
    exact hashAll_error hl he'
  · simp at h

theorem valHash_ok {v : Val} : (∃ h, v.hash H iv = .ok h) ↔ HashableVal v := by
  cases v <;> simp [Val.hash, HashableVal]
  next r => cases iv r <;> simp

theorem valHash_error {v : Val} {e : PyErr} (h : v.hash H iv = .error e) : e = .typeError := by
  cases v <;> simp [Val.hash] at h
  · next r => cases hr : iv r <;> rw [hr] at h <;> simp at h
  · exact h.symm
  · exact h.symm

theorem attrsHash_error {s : Slot AttrsObj} {e : PyErr} (h : attrsHash H iv s = .error e) : e = .typeError := by
  cases s with
  | absent => simp [attrsHash] at h
  | opt => simp [attrsHash] at h
  | raw v => exact valHash_error h
  | val a =>
    refine tupleHash_error (fun x hx e he => ?_) h
    obtain ⟨y, _, rfl⟩ := List.mem_map.mp hx
    exact valHash_error he

theorem listHash_error {α : Type} {s : Slot α} {e : PyErr} (h : listHash H iv s = .error e) : e = .typeError := by
  cases s with
  | absent => simp [listHash] at h
  | opt => simp [listHash] at h
  | raw v => exact valHash_error h
  | val a => simp [listHash] at h; exact h.symm

/-- C61: the only exception of `hash` is TypeError. -/
theorem C61_error (H : Hashes) (iv : Str → Option Int) (n : Node) (e : PyErr) (h : n.hash H iv = .error e) :
    e = .typeError := by
  refine tupleHash_error (fun x hx e he => ?_) h
  obtain ⟨f, _, rfl⟩ := List.mem_map.mp hx
  unfold Node.fieldHash at he
  repeat' split at he
  all_goals first | exact valHash_error he | exact attrsHash_error he | exact listHash_error he

/-- What a `content` or `marks` value of the JSON has to do with the field. -/
theorem listHash_ok {α : Type} {s : Slot α} {o : Option Val}
    (h0 : o = none → s = .opt) (h1 : ∀ l, o = some (.list l) → ∃ x, s = .val x)
    (h2 : ∀ v, o = some v → (∀ l, v ≠ .list l) → s = rawSlot v) :
    (∃ h, listHash H iv s = .ok h) ↔ ∀ v, o = some v → HashableVal v := by
  cases o with
  | none => rw [h0 rfl]; simp [listHash]
  | some v =>
    by_cases hl : ∃ l, v = .list l
    · obtain ⟨l, rfl⟩ := hl
      obtain ⟨x, rfl⟩ := h1 l rfl
      simp [listHash, HashableVal]
    · rw [h2 v rfl fun l hv => hl ⟨l, hv⟩]
      cases v <;> simp_all [rawSlot, listHash, Val.hash, HashableVal]
      next r => cases iv r <;> simp

theorem node_hash_ok {n : Node} : (∃ h, n.hash H iv = .ok h) ↔
    ∀ k ∈ nodeKeys n.cls, ∃ h, n.fieldHash H iv k = .ok h := by
  unfold Node.hash
  rw [tupleHash_ok]
  constructor
  · intro h k hk
    obtain ⟨f, hf, rfl⟩ := List.mem_map.mp ((nodeFields_names n.cls k).mpr hk)
    exact h _ (List.mem_map.mpr ⟨f, hf, rfl⟩)
  · intro h x hx
    obtain ⟨f, hf, rfl⟩ := List.mem_map.mp hx
    exact h _ ((nodeFields_names n.cls f.name).mp (List.mem_map.mpr ⟨f, hf, rfl⟩))


theorem content_field {w : Bool} {d : List (String × Val)} {n : Node} (hf : (n.cls.fromDict w (.dict d)).out = .ok n)
    (hk : "content" ∈ nodeKeys n.cls) :
    (∃ h, listHash H iv n.content = .ok h) ↔ ∀ v, lookupKey d "content" = some v → HashableVal v := by
  obtain ⟨a, k, m, ha, hc, hm, _, e⟩ := nodeFromDict_ok hf
  have e' : n.content = k.getD .opt := by
    have : n.content = slotOf n.cls.fields "content" k := by rw [e]; rfl
    rw [this, slotOf_eq n.cls "content" (by simp), if_pos hk]
  rw [contentStep_eq] at hc
  refine listHash_ok ?_ ?_ ?_
  · intro h
    rw [h] at hc
    simp [Res.ok] at hc
    rw [e', ← hc]; rfl
  · intro l h
    rw [h] at hc
    simp only [Res.map_out] at hc
    split at hc
    · simp at hc
    · simp only [Except.ok.injEq] at hc
      rw [e', ← hc]
      exact ⟨_, rfl⟩
  · intro v h hl
    rw [h] at hc
    have : k = some (rawSlot v) := by
      cases v <;> first
        | (simp [Res.ok] at hc; exact hc.symm)
        | exact absurd rfl (hl _)
    rw [e', this]; rfl

theorem marks_field {w : Bool} {d : List (String × Val)} {n : Node} (hf : (n.cls.fromDict w (.dict d)).out = .ok n)
    (hk : "marks" ∈ nodeKeys n.cls) :
    (∃ h, listHash H iv n.hd.marks = .ok h) ↔ ∀ v, lookupKey d "marks" = some v → HashableVal v := by
  obtain ⟨a, k, m, ha, hc, hm, _, e⟩ := nodeFromDict_ok hf
  have e' : n.hd.marks = m.getD .opt := by
    have : n.hd.marks = slotOf n.cls.fields "marks" m := by rw [e]; rfl
    rw [this, slotOf_eq n.cls "marks" (by simp), if_pos hk]
  unfold marksStep at hm
  refine listHash_ok ?_ ?_ ?_
  · intro h
    rw [h] at hm
    simp [Res.ok] at hm
    rw [e', ← hm]; rfl
  · intro l h
    rw [h] at hm
    simp only [Res.map_out] at hm
    split at hm
    · simp at hm
    · simp only [Except.ok.injEq] at hm
      rw [e', ← hm]
      exact ⟨_, rfl⟩
  · intro v h hl
    rw [h] at hm
    have : m = some (rawSlot v) := by
      cases v <;> first
        | (simp [Res.ok] at hm; exact hm.symm)
        | exact absurd rfl (hl _)
    rw [e', this]; rfl

theorem attrsDefaults_atomic (c : NodeCls) (fs : List Field) (h : c.attrsFields = some fs) (f : Field)
    (hf : f ∈ fs) (v : Val) (hv : f.dflt = .lit v) : HashableVal v := by
  exfalso
  revert f v
  cases c <;> simp only [NodeCls.attrsFields, Option.some.injEq, reduceCtorEq] at h <;> subst h <;>
    simp [optFields, reqFields]

theorem attrs_field {w : Bool} {d : List (String × Val)} {n : Node} (hf : (n.cls.fromDict w (.dict d)).out = .ok n)
    (hk : "attrs" ∈ nodeKeys n.cls) :
    (∃ h, attrsHash H iv n.hd.attrs = .ok h) ↔ ∀ ad, lookupKey d "attrs" = some (.dict ad) →
      ∀ k ∈ attrKeys n.cls, ∀ v, lookupKey ad k = some v → HashableVal v := by
  obtain ⟨a, k, m, ha, hc, hm, _, e⟩ := nodeFromDict_ok hf
  have e' : n.hd.attrs = (a.map Slot.val).getD .opt := by
    have : n.hd.attrs = slotOf n.cls.fields "attrs" (a.map Slot.val) := by rw [e]; rfl
    rw [this, slotOf_eq n.cls "attrs" (by simp), if_pos hk]
  have hs := (attrs_declared n.cls).mp hk
  rcases attrsStep_ok_cases ha with ⟨rfl, h | h⟩ | ⟨fs, ad, a', h1, h2, rfl, h4⟩
  · rw [e', h]; simp [attrsHash]
  · rw [h] at hs; simp at hs
  · rw [e', h2]
    simp only [Option.map_some, Option.getD_some, attrsHash, AttrsObj.hash, tupleHash_ok, Option.some.injEq,
      Val.dict.injEq, forall_eq']
    simp only [attrsFromDict] at h4
    split at h4
    · simp at h4
    · simp only [Except.ok.injEq] at h4
      subst h4
      simp only [List.map_map, List.forall_mem_map, Function.comp, valHash_ok]
      constructor
      · intro h k hk v hv
        obtain ⟨f, hf, rfl⟩ := List.mem_map.mp ((attrsFields_names n.cls fs h1 k).mpr hk)
        have := h f hf
        rw [fieldValue, hv] at this
        exact this
      · intro h f hf
        unfold fieldValue
        cases hl : lookupKey ad f.name with
        | some v => exact h _ ((attrsFields_names n.cls fs h1 f.name).mp (List.mem_map.mpr ⟨f, hf, rfl⟩)) v hl
        | none =>
          cases hd : f.dflt with
          | lit v => exact attrsDefaults_atomic n.cls fs h1 f hf v hd
          | _ => trivial

/-- C61: which nodes can be put in a set or used as a dict key, in terms of the JSON: none of the values the
class knows is a list or a dict, inside `attrs` or out. -/
theorem C61_hashable_iff (H : Hashes) (iv : Str → Option Int) (w : Bool) (d : List (String × Val)) (n : Node)
    (hn : (parseNode w (.dict d)).out = .ok n) :
    (∃ h, n.hash H iv = .ok h) ↔
      (∀ k ∈ nodeKeys n.cls, k ≠ "attrs" → ∀ v, lookupKey d k = some v → HashableVal v) ∧
      ("attrs" ∈ nodeKeys n.cls → ∀ ad, lookupKey d "attrs" = some (.dict ad) →
        ∀ k ∈ attrKeys n.cls, ∀ v, lookupKey ad k = some v → HashableVal v) := by
  obtain ⟨d', t, hd, ht, hr, hf⟩ := parseNode_ok hn
  cases hd
  have hf : (n.cls.fromDict w (.dict d)).out = .ok n := hf
  have key : ∀ k ∈ nodeKeys n.cls, k ≠ "attrs" →
      ((∃ h, n.fieldHash H iv k = .ok h) ↔ ∀ v, lookupKey d k = some v → HashableVal v) := by
    intro k hk ha
    have h6 := six_keys n.cls hk
    obtain ⟨a, c, m, _, _, _, _, e⟩ := nodeFromDict_ok hf
    simp only [List.mem_cons, List.not_mem_nil, or_false] at h6
    rcases h6 with rfl | rfl | rfl | rfl | rfl | rfl
    · have : n.hd.type = (valOf n.cls.fields "type" d).getD .opt := by rw [e]; rfl
      simp only [Node.fieldHash, String.reduceEq, if_false, valHash_ok]
      obtain ⟨name, _, ht'⟩ := parsed_hasType ⟨w, _, hn⟩
      rw [ht']
      simp only [HashableVal, true_iff]
      intro v hv
      have : v = n.hd.type := by
        rw [this]
        have hf := (nodeFields_names n.cls "type").mpr hk
        unfold valOf
        cases hfd : n.cls.fields.find? fun f => f.name == "type" with
        | none =>
          rw [List.find?_eq_none] at hfd
          obtain ⟨f, hf, he⟩ := List.mem_map.mp hf
          exact absurd (by simp [he]) (hfd f hf)
        | some f =>
          have : f.name = "type" := by simpa using List.find?_some hfd
          simp [fieldValue, this, hv]
      rw [this, ht']
      trivial
    · have : n.hd.version = valOf n.cls.fields "version" d := by rw [e]; rfl
      simp only [Node.fieldHash, String.reduceEq, if_false, valHash_ok, if_true]
      rw [this, valOf_version, if_pos ((version_doc _).mp hk)]
      cases lookupKey d "version" <;> simp [HashableVal]
    · have : n.hd.text = valOf n.cls.fields "text" d := by rw [e]; rfl
      simp only [Node.fieldHash, String.reduceEq, if_false, valHash_ok, if_true]
      rw [this, valOf_text, if_pos ((text_text _).mp hk)]
      cases lookupKey d "text" <;> simp [HashableVal]
    · exact absurd rfl ha
    · exact content_field hf hk
    · exact marks_field hf hk
  rw [node_hash_ok]
  constructor
  · intro h
    exact ⟨fun k hk ha => (key k hk ha).mp (h k hk), fun hk => (attrs_field hf hk).mp (h _ hk)⟩
  · rintro ⟨h1, h2⟩ k hk
    by_cases ha : k = "attrs"
    · subst ha
      exact (attrs_field hf hk).mpr (h2 hk)
    · exact (key k hk ha).mpr (h1 k hk ha)

/-- C61: a node with a `content` list has no hash. -/
theorem C61_content (H : Hashes) (iv : Str → Option Int) (w : Bool) (d : List (String × Val)) (n : Node)
    (hn : (parseNode w (.dict d)).out = .ok n) (hk : "content" ∈ nodeKeys n.cls) (l : List Val)
    (hl : lookupKey d "content" = some (.list l)) : n.hash H iv = .error .typeError := by
  have := (C61_hashable_iff H iv w d n hn).not.mpr fun h => h.1 _ hk (by decide) _ hl
  cases hh : n.hash H iv with
  | ok h => exact absurd ⟨h, hh⟩ this
  | error e => rw [C61_error H iv n e hh]

/-- A text node can be hashed; with marks, or as the content of a paragraph, it cannot. -/
example (H : Hashes) (iv : Str → Option Int) : ∃ n n' n'',
    (parseNode true (.dict [("type", .str "text".toList), ("text", .str "a".toList)])).out = .ok n ∧
    (parseNode true (.dict [("type", .str "text".toList), ("text", .str "a".toList), ("marks", .list [])])).out = .ok n' ∧
    (parseNode true (.dict [("type", .str "paragraph".toList), ("content", .list [])])).out = .ok n'' ∧
    (∃ h, n.hash H iv = .ok h) ∧ n'.hash H iv = .error .typeError ∧ n''.hash H iv = .error .typeError :=
  ⟨_, _, _, rfl, rfl, rfl, ⟨_, rfl⟩, rfl, rfl⟩

example := C61_hash ⟨1, 2, fun _ => 3, fun _ => 4, List.sum⟩ (fun _ => none)
  (Samples.parse (Samples.j "doc" [("version", .int 1)])) (Samples.parse (Samples.j "doc" [("version", .bool true)])) rfl

example := C61_hash_mark ⟨1, 2, fun _ => 3, fun _ => 4, List.sum⟩ (fun _ => none)
  (Samples.parseM (Samples.j "textColor" [("attrs", .dict [("color", .int 1)])]))
  (Samples.parseM (Samples.j "textColor" [("attrs", .dict [("color", .bool true)])])) rfl

example := C61_error ⟨1, 2, fun _ => 3, fun _ => 4, List.sum⟩ (fun _ => none)
  (Samples.parse (Samples.j "paragraph" [("content", .list [])])) .typeError rfl

example := C61_hashable_iff ⟨1, 2, fun _ => 3, fun _ => 4, List.sum⟩ (fun _ => none) true
  [("type", Samples.str "emoji"), ("attrs", .dict [("shortName", Samples.str ":a:"), ("text", .list [])])]
  (Samples.parse (Samples.j "emoji" [("attrs", .dict [("shortName", Samples.str ":a:"), ("text", .list [])])])) rfl

example := C61_content ⟨1, 2, fun _ => 3, fun _ => 4, List.sum⟩ (fun _ => none) true
  [("type", Samples.str "paragraph"), ("content", .list [])]
  (Samples.parse (Samples.j "paragraph" [("content", .list [])])) rfl (by decide) [] rfl

end Verif.Props
