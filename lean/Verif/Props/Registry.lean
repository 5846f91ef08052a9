import Verif.Lemmas.Registry
/-!
# C13, C14, C03: registries, `is_type_of`, dispatch of `parse_node` / `parse_mark`
-/

namespace Verif.Props
open Verif

/-! ## C13 -/

/-- C13: the node registry is exactly the specified table of supported type strings; every class is
registered under its own default `type`, once; distinct keys have distinct type strings and
distinct classes. -/
theorem C13_node_registry :
    (∀ te c, (te, c) ∈ nodeRegistry ↔ (te.value, c) ∈ Spec.nodeTypes) ∧
    (∀ name c, (name, c) ∈ Spec.nodeTypes → ∃ te : TypeEnum, te.value = name) ∧
    (∀ c : NodeCls, ∃ te, (te, c) ∈ nodeRegistry ∧
      fieldDflt c.fields "type" = some (.lit (.str te.value.toList))) ∧
    (∀ te te' c c', (te, c) ∈ nodeRegistry → (te', c') ∈ nodeRegistry →
      (te.value = te'.value ↔ c = c')) ∧
    (nodeRegistry.map (·.2)).Nodup := by
  refine ⟨nodeRegistry_spec, ?_, ?_, ?_, by decide⟩
  · intro name c h
    obtain ⟨te, hv, _⟩ := nodeTypes_enum h
    exact ⟨te, hv⟩
  · intro c
    exact ⟨c.typeEnum, c.registered, rfl⟩
  · intro te te' c c' h h'
    have e1 := nodeRegistry_typeEnum h
    have e2 := nodeRegistry_typeEnum h'
    subst e1; subst e2
    exact ⟨fun hv => NodeCls.typeEnum_inj (TypeEnum.value_inj hv), fun hc => by rw [hc]⟩

/-- C13: the same for marks. -/
theorem C13_mark_registry :
    (∀ te c, (te, c) ∈ markRegistry ↔ (te.value, c) ∈ Spec.markTypes) ∧
    (∀ name c, (name, c) ∈ Spec.markTypes → ∃ te : TypeEnum, te.value = name) ∧
    (∀ c : MarkCls, ∃ te, (te, c) ∈ markRegistry ∧
      fieldDflt c.fields "type" = some (.lit (.str te.value.toList))) ∧
    (∀ te te' c c', (te, c) ∈ markRegistry → (te', c') ∈ markRegistry →
      (te.value = te'.value ↔ c = c')) ∧
    (markRegistry.map (·.2)).Nodup := by
  refine ⟨markRegistry_spec, ?_, ?_, ?_, by decide⟩
  · intro name c h
    obtain ⟨te, hv, _⟩ := markTypes_enum h
    exact ⟨te, hv⟩
  · intro c
    exact ⟨c.typeEnum, c.registered, rfl⟩
  · intro te te' c c' h h'
    have e1 := markRegistry_typeEnum h
    have e2 := markRegistry_typeEnum h'
    subst e1; subst e2
    exact ⟨fun hv => MarkCls.typeEnum_inj (TypeEnum.value_inj hv), fun hc => by rw [hc]⟩

/-- C13: for every value used as a type, a lookup succeeds in at most one of the two registries. -/
theorem C13_disjoint (t : Val) (c : NodeCls) (m : MarkCls)
    (hn : registryLookup nodeRegistry t = .ok (some c))
    (hm : registryLookup markRegistry t = .ok (some m)) : False := by
  obtain ⟨te, h1, e1⟩ := registryLookup_some hn
  obtain ⟨te', h2, e2⟩ := registryLookup_some hm
  rw [e1] at e2
  simp only [Val.str.injEq] at e2
  have hv : te = te' := TypeEnum.value_inj (String.toList_inj.mp e2)
  subst hv
  have h3 := nodeRegistry_typeEnum h1
  have h4 := markRegistry_typeEnum h2
  rw [h3] at h4
  revert h4
  cases c <;> cases m <;> decide

example : registryLookup nodeRegistry (.str "table".toList) = .ok (some .table) := rfl
example : registryLookup markRegistry (.str "strong".toList) = .ok (some .strong) := rfl

/-! ## C14 -/

/-- C14: `is_type_of(ts)` on an object with `type` field `t`: true iff `t` is a string equal to the
value of some listed member. -/
theorem C14_is_type_of (t : Val) (ts : List TypeEnum) :
    isTypeOf t ts = true ↔ ∃ te ∈ ts, t = .str te.value.toList := by
  unfold isTypeOf checkTypeMatch
  split
  · next s =>
    simp only [List.any_eq_true]
    constructor
    · rintro ⟨te, hm, he⟩
      exact ⟨te, hm, by rw [(toList_beq_iff _ _).mp he]⟩
    · rintro ⟨te, hm, he⟩
      simp only [Val.str.injEq] at he
      exact ⟨te, hm, (toList_beq_iff _ _).mpr he⟩
  · next hns =>
    simp only [Bool.false_eq_true, false_iff]
    rintro ⟨te, _, he⟩
    exact hns _ he

/-- C14: order and repetition of the expected types do not matter. -/
theorem C14_order_irrelevant (t : Val) (ts ts' : List TypeEnum) (h : ∀ te, te ∈ ts ↔ te ∈ ts') :
    isTypeOf t ts = isTypeOf t ts' := by
  rw [Bool.eq_iff_iff, C14_is_type_of, C14_is_type_of]
  simp [h]

/-- C14: what the members stand for: each member has its own type string, and no two have the same. -/
theorem C14_members : (∀ te : TypeEnum, (te, te.value) ∈ Spec.enumValues) ∧
    (∀ te name, (te, name) ∈ Spec.enumValues → te.value = name) ∧
    (∀ te te' : TypeEnum, te.value = te'.value → te = te') := by
  have h1 : ∀ te : TypeEnum, (te, te.value) ∈ Spec.enumValues := by intro te; cases te <;> decide
  have h2 : ∀ p ∈ Spec.enumValues, p.1.value = p.2 := by decide
  have h3 : ∀ p ∈ Spec.enumValues, ∀ q ∈ Spec.enumValues, p.2 = q.2 → p.1 = q.1 := by decide +kernel
  exact ⟨h1, fun te name h => h2 _ h, fun te te' h => h3 _ (h1 te) _ (h1 te') h⟩

example : isTypeOf (.str "em".toList) [.strong, .em] = true := rfl
example : isTypeOf (.str "Em".toList) [.strong, .em] = false := rfl

/-! ## C03 -/

theorem nodeFromDict_hd {w : Bool} {c : NodeCls} {d : List (String × Val)}
    {r : Res (Option (Slot (List Node)))} {n : Node} (h : (nodeFromDict w c d r).out = .ok n) :
    n.hd.cls = c ∧ n.hd.type = (valOf c.fields "type" d).getD .opt := by
  unfold nodeFromDict at h
  obtain ⟨a, _, h⟩ := Res.bind_out_ok h
  obtain ⟨b, _, h⟩ := Res.bind_out_ok h
  obtain ⟨m, _, h⟩ := Res.bind_out_ok h
  obtain ⟨u, _, h⟩ := Res.bind_out_ok h
  simp only [Res.ok, Except.ok.injEq] at h
  subst h
  exact ⟨rfl, rfl⟩

/-- C03: whenever `parse_node` returns a node, the JSON was an object whose `type` is a supported
type string, the node is an instance of the class for that string, carries that string as its
`type`, and `is_type_of` recognises exactly that member. -/
theorem C03_parse_node_class (w : Bool) (v : Val) (n : Node) (h : (parseNode w v).out = .ok n) :
    ∃ name : String, Spec.typeOf v = some (.str name.toList) ∧ (name, n.cls) ∈ Spec.nodeTypes ∧
      n.hd.type = .str name.toList ∧
      ∀ ts, isTypeOf n.hd.type ts = true ↔ ∃ te ∈ ts, te.value = name := by
  cases v with
  | dict d =>
    rw [parseNode_dict] at h
    split at h
    · simp [Res.err] at h
    · next t ht =>
      split at h
      · simp [Res.err] at h
      · simp [Res.err] at h
      · next c hc =>
        obtain ⟨te, hm, he⟩ := registryLookup_some hc
        obtain ⟨h1, h2⟩ := nodeFromDict_hd h
        have hty : n.hd.type = .str te.value.toList := by
          rw [h2]
          simp [valOf, NodeCls.fields, fieldValue, ht, he]
        refine ⟨te.value, ?_, ?_, hty, ?_⟩
        · simp [Spec.typeOf, ht, he]
        · rw [Node.cls, h1]
          exact (nodeRegistry_spec te c).mp hm
        · intro ts
          rw [hty, C14_is_type_of]
          simp only [Val.str.injEq, String.toList_inj]
          constructor
          · rintro ⟨u, hu, e⟩; exact ⟨u, hu, e.symm⟩
          · rintro ⟨u, hu, e⟩; exact ⟨u, hu, e.symm⟩
  | _ => simp [parseNode, Res.err] at h

/-- C03 for marks. -/
theorem C03_parse_mark_class (v : Val) (m : Mark) (h : parseMark v = .ok m) :
    ∃ name : String, Spec.typeOf v = some (.str name.toList) ∧ (name, m.cls) ∈ Spec.markTypes ∧
      m.type = .str name.toList ∧
      ∀ ts, isTypeOf m.type ts = true ↔ ∃ te ∈ ts, te.value = name := by
  cases v with
  | dict d =>
    simp only [parseMark] at h
    split at h
    · simp at h
    · next t ht =>
      split at h
      · simp at h
      · simp at h
      · next c hc =>
        obtain ⟨te, hm, he⟩ := registryLookup_some hc
        have hty : m.cls = c ∧ m.type = .str te.value.toList := by
          unfold markFromDict at h
          split at h
          · simp at h
          · split at h
            · simp at h
            · simp only [Except.ok.injEq] at h
              subst h
              simp [valOf, MarkCls.fields, fieldValue, ht, he]
        refine ⟨te.value, ?_, ?_, hty.2, ?_⟩
        · simp [Spec.typeOf, ht, he]
        · rw [hty.1]
          exact (markRegistry_spec te c).mp hm
        · intro ts
          rw [hty.2, C14_is_type_of]
          simp only [Val.str.injEq, String.toList_inj]
          constructor
          · rintro ⟨u, hu, e⟩; exact ⟨u, hu, e.symm⟩
          · rintro ⟨u, hu, e⟩; exact ⟨u, hu, e.symm⟩
  | _ => simp [parseMark] at h

/-- A concrete document that `parse_node` accepts. -/
example : ∃ n, (parseNode true (.dict
    [("type", .str "paragraph".toList),
     ("content", .list [.dict [("type", .str "text".toList), ("text", .str "hi".toList)]])])).out
      = .ok n := ⟨_, rfl⟩
example : ∃ m, parseMark (.dict [("type", .str "strong".toList)]) = .ok m := ⟨_, rfl⟩

example := C14_order_irrelevant (.str "em".toList) [.strong, .em] [.em, .strong, .em] (by simp [or_comm])

example : True := by
  obtain ⟨n, hn⟩ : ∃ n, (parseNode true (.dict [("type", .str "rule".toList)])).out = .ok n := ⟨_, rfl⟩
  have := C03_parse_node_class true _ n hn
  trivial

example : True := by
  obtain ⟨m, hm⟩ : ∃ m, parseMark (.dict [("type", .str "strong".toList)]) = .ok m := ⟨_, rfl⟩
  have := C03_parse_mark_class _ m hm
  trivial

end Verif.Props
