import Verif.Lemmas.Parse
/-!
# Helper lemmas about the registries
-/

namespace Verif

/-- All members of the enum. -/
def TypeEnum.all : List TypeEnum :=
  [ .alignment, .annotation, .backgroundColor, .border, .breakout, .code, .em, .indentation,
    .link, .strike, .strong, .subsup, .textColor, .underline, .blockCard, .blockTaskItem,
    .blockquote, .bodiedExtension, .bodiedSyncBlock, .bulletList, .caption, .codeBlock,
    .dataConsumer, .date, .decisionItem, .decisionList, .doc, .embedCard, .emoji, .expand,
    .extension, .external, .file, .fragment, .hardBreak, .heading, .image, .inlineCard,
    .inlineExtension, .layoutColumn, .layoutSection, .listItem, .media, .mediaGroup,
    .mediaInline, .mediaSingle, .mention, .nestedExpand, .orderedList, .panel, .paragraph,
    .placeholder, .rule, .status, .sub, .sup, .syncBlock, .table, .tableCell, .tableHeader,
    .tableRow, .taskItem, .taskList, .text ]

theorem TypeEnum.find_value (t : TypeEnum) :
    TypeEnum.all.find? (fun u => u.value == t.value) = some t := by
  cases t <;> rfl

theorem TypeEnum.value_inj {a b : TypeEnum} (h : a.value = b.value) : a = b := by
  have ha := TypeEnum.find_value a
  rw [h, TypeEnum.find_value b] at ha
  exact (Option.some.inj ha).symm

theorem toList_beq_iff (a : String) (s : Str) : (a.toList == s) = true ↔ s = a.toList := by
  rw [beq_iff_eq]
  exact eq_comm

theorem registryLookup_some {κ : Type} {reg : List (TypeEnum × κ)} {t : Val} {c : κ}
    (h : registryLookup reg t = .ok (some c)) :
    ∃ te, (te, c) ∈ reg ∧ t = .str te.value.toList := by
  unfold registryLookup at h
  split at h
  · split at h
    · next s =>
      simp only [Except.ok.injEq, Option.map_eq_some_iff] at h
      obtain ⟨e, he, hc⟩ := h
      have hm := List.mem_of_find?_eq_some he
      have hp := List.find?_some he
      rw [toList_beq_iff] at hp
      obtain ⟨te, c'⟩ := e
      simp only at hc hp
      subst hc
      exact ⟨te, hm, by rw [hp]⟩
    · simp at h
  · simp at h

theorem registryLookup_none {κ : Type} {reg : List (TypeEnum × κ)} {t : Val} :
    registryLookup reg t = .ok none ↔
      t.hashable = true ∧ ∀ te c, (te, c) ∈ reg → t ≠ .str te.value.toList := by
  unfold registryLookup
  split
  · next hh =>
    split
    · next s =>
      simp only [Except.ok.injEq, Option.map_eq_none_iff, List.find?_eq_none, hh, true_and]
      constructor
      · intro h te c hm heq
        have := h (te, c) hm
        rw [toList_beq_iff] at this
        simp only [Val.str.injEq] at heq
        exact this heq
      · intro h e hm hp
        rw [toList_beq_iff] at hp
        exact h e.1 e.2 hm (by rw [hp])
    · next hns =>
      simp only [hh, true_and, true_iff]
      intro te c _ heq
      exact hns _ heq
  · next hh => simp [hh]

theorem registryLookup_error {κ : Type} {reg : List (TypeEnum × κ)} {t : Val} {e : PyErr}
    (h : registryLookup reg t = .error e) : e = .typeError ∧ t.hashable = false := by
  unfold registryLookup at h
  split at h
  · split at h <;> simp at h
  · next hh => simp at h; exact ⟨h.symm, by simpa using hh⟩

theorem nodeRegistry_spec (te : TypeEnum) (c : NodeCls) :
    (te, c) ∈ nodeRegistry ↔ (te.value, c) ∈ Spec.nodeTypes := by
  constructor
  · intro h
    have : Spec.nodeTypes = nodeRegistry.map (fun e => (e.1.value, e.2)) := by rfl
    rw [this]
    exact List.mem_map.mpr ⟨(te, c), h, rfl⟩
  · intro h
    have : Spec.nodeTypes = nodeRegistry.map (fun e => (e.1.value, e.2)) := by rfl
    rw [this] at h
    obtain ⟨⟨te', c'⟩, hm, heq⟩ := List.mem_map.mp h
    simp only [Prod.mk.injEq] at heq
    have := TypeEnum.value_inj heq.1
    rw [this, heq.2] at hm
    exact hm

theorem nodeTypes_enum {name : String} {c : NodeCls} (h : (name, c) ∈ Spec.nodeTypes) :
    ∃ te : TypeEnum, te.value = name ∧ (te, c) ∈ nodeRegistry := by
  have : Spec.nodeTypes = nodeRegistry.map (fun e => (e.1.value, e.2)) := by rfl
  rw [this] at h
  obtain ⟨⟨te', c'⟩, hm, heq⟩ := List.mem_map.mp h
  simp only [Prod.mk.injEq] at heq
  exact ⟨te', heq.1, heq.2 ▸ hm⟩

/-- The mark registry in the order of the specification table. -/
def markRegistrySorted : List (TypeEnum × MarkCls) :=
  [ (.alignment, .alignment), (.annotation, .annotation), (.backgroundColor, .backgroundColor),
    (.border, .border), (.breakout, .breakout), (.code, .code), (.dataConsumer, .dataConsumer),
    (.em, .em), (.fragment, .fragment), (.indentation, .indentation), (.link, .link),
    (.strike, .strike), (.strong, .strong), (.subsup, .subsup), (.textColor, .textColor),
    (.underline, .underline) ]

theorem markRegistry_sorted (e : TypeEnum × MarkCls) : e ∈ markRegistry ↔ e ∈ markRegistrySorted := by
  have h1 : ∀ x ∈ markRegistry, x ∈ markRegistrySorted := by decide
  have h2 : ∀ x ∈ markRegistrySorted, x ∈ markRegistry := by decide
  exact ⟨h1 e, h2 e⟩

theorem markTypes_enum {name : String} {c : MarkCls} (h : (name, c) ∈ Spec.markTypes) :
    ∃ te : TypeEnum, te.value = name ∧ (te, c) ∈ markRegistry := by
  have : Spec.markTypes = markRegistrySorted.map (fun e => (e.1.value, e.2)) := by rfl
  rw [this] at h
  obtain ⟨⟨te', c'⟩, hm, heq⟩ := List.mem_map.mp h
  simp only [Prod.mk.injEq] at heq
  exact ⟨te', heq.1, (markRegistry_sorted _).mpr (heq.2 ▸ hm)⟩

theorem markRegistry_spec (te : TypeEnum) (c : MarkCls) :
    (te, c) ∈ markRegistry ↔ (te.value, c) ∈ Spec.markTypes := by
  constructor
  · intro h
    have : Spec.markTypes = markRegistrySorted.map (fun e => (e.1.value, e.2)) := by rfl
    rw [this]
    exact List.mem_map.mpr ⟨(te, c), (markRegistry_sorted _).mp h, rfl⟩
  · intro h
    obtain ⟨te', hv, hm⟩ := markTypes_enum h
    rw [← TypeEnum.value_inj hv]
    exact hm

theorem NodeCls.registered (c : NodeCls) : (c.typeEnum, c) ∈ nodeRegistry := by
  cases c <;> decide

theorem MarkCls.registered (c : MarkCls) : (c.typeEnum, c) ∈ markRegistry := by
  cases c <;> decide

theorem nodeRegistry_typeEnum {te : TypeEnum} {c : NodeCls} (h : (te, c) ∈ nodeRegistry) :
    te = c.typeEnum := by
  have : ∀ e ∈ nodeRegistry, e.1 = e.2.typeEnum := by decide
  exact this _ h

theorem markRegistry_typeEnum {te : TypeEnum} {c : MarkCls} (h : (te, c) ∈ markRegistry) :
    te = c.typeEnum := by
  have : ∀ e ∈ markRegistry, e.1 = e.2.typeEnum := by decide
  exact this _ h

theorem NodeCls.typeEnum_inj {a b : NodeCls} (h : a.typeEnum = b.typeEnum) : a = b := by
  revert h
  cases a <;> cases b <;> decide

theorem MarkCls.typeEnum_inj {a b : MarkCls} (h : a.typeEnum = b.typeEnum) : a = b := by
  revert h
  cases a <;> cases b <;> decide

/-- Looking up a registered type string finds its class. -/
theorem nodeLookup_typeEnum (c : NodeCls) :
    registryLookup nodeRegistry (.str c.typeEnum.value.toList) = .ok (some c) := by
  cases c <;> rfl

theorem markLookup_typeEnum (c : MarkCls) :
    registryLookup markRegistry (.str c.typeEnum.value.toList) = .ok (some c) := by
  cases c <;> rfl

end Verif
