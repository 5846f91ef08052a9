import Verif.Props.Parsing
/-!
# C07: required fields
-/

namespace Verif.Props
open Verif

/-- Shape of the constructor check: TypeError and ParamError characterised by field names. -/
theorem checkRequired_eq (fs : List Field) (g : String → Bool) :
    checkRequired fs g =
      if ∃ f ∈ fs, f.dflt.isNoDefault = true ∧ g f.name = false then .error .typeError
      else if ∃ f ∈ fs, f.dflt.isReq = true ∧ g f.name = false then .error .paramError
      else .ok () := by
  unfold checkRequired
  simp only [List.any_eq_true, Bool.and_eq_true, Bool.not_eq_true']

theorem node_required (c : NodeCls) (g : String → Bool) :
    checkRequired c.fields g =
      if ∀ k ∈ Spec.requiredKeys c, g k = true then .ok () else .error .paramError := by
  cases c <;>
    simp [checkRequired, NodeCls.fields, NodeCls.ownFields, Spec.requiredKeys, Dflt.isNoDefault,
      Dflt.isReq] <;>
    first
      | done
      | (cases g "content" <;> simp <;> done)
      | (cases g "text" <;> simp <;> done)
      | (cases g "attrs" <;> simp <;> done)
      | (cases g "attrs" <;> cases g "content" <;> simp <;> done)

theorem node_attrs_required (c : NodeCls) :
    c.attrsFields.isSome = (Spec.requiredAttrs c).isSome ∧
    ∀ fs ks g, c.attrsFields = some fs → Spec.requiredAttrs c = some ks →
      checkRequired fs g = if ∀ k ∈ ks, g k = true then .ok () else .error .paramError := by
  constructor
  · cases c <;> rfl
  · intro fs ks g h1 h2
    cases c <;> simp only [NodeCls.attrsFields, Spec.requiredAttrs, Option.some.injEq,
        reduceCtorEq] at h1 h2 <;> subst h1 <;> subst h2 <;>
      simp [checkRequired, Dflt.isNoDefault, Dflt.isReq, optFields, reqFields] <;>
      grind

/-- Whether a mark class's required attrs have no default at all (TypeError when missing) or are
`REQ` (ParamError when missing). -/
def Spec.markMissingError : MarkCls → PyErr
  | .alignment | .backgroundColor | .breakout | .dataConsumer | .fragment | .textColor => .typeError
  | _ => .paramError

theorem mark_attrs_required (c : MarkCls) :
    c.attrsFields.isSome = (Spec.requiredMarkAttrs c).isSome ∧
    ∀ fs ks g, c.attrsFields = some fs → Spec.requiredMarkAttrs c = some ks →
      checkRequired fs g =
        if ∀ k ∈ ks, g k = true then .ok () else .error (Spec.markMissingError c) := by
  constructor
  · cases c <;> rfl
  · intro fs ks g h1 h2
    cases c <;> simp only [MarkCls.attrsFields, Spec.requiredMarkAttrs, Option.some.injEq,
        reduceCtorEq] at h1 h2 <;> subst h1 <;> subst h2 <;>
      simp [checkRequired, Dflt.isNoDefault, Dflt.isReq, optFields, reqFields,
        Spec.markMissingError] <;>
      grind

theorem mark_required (c : MarkCls) (g : String → Bool) :
    checkRequired c.fields g =
      if c.attrsFields.isSome = true → g "attrs" = true then .ok () else .error .paramError := by
  cases c <;>
    simp [checkRequired, MarkCls.fields, MarkCls.attrsFields, Dflt.isNoDefault, Dflt.isReq] <;>
    (cases g "attrs" <;> simp)

/-- The attrs step succeeds iff the attrs object, if given and used, has its required keys; otherwise
it raises ParamError (missing key) or TypeError (not an object). -/
theorem node_attrsStep (c : NodeCls) (d : List (String × Val)) :
    ((∃ a, attrsStep c.attrsFields d = .ok a) ↔ Spec.attrsOk (Spec.requiredAttrs c) d) ∧
    ∀ e, attrsStep c.attrsFields d = .error e → e = .typeError ∨ e = .paramError := by
  obtain ⟨h1, h2⟩ := node_attrs_required c
  unfold attrsStep Spec.attrsOk
  cases hf : c.attrsFields with
  | none =>
    rw [hf] at h1
    cases hr : Spec.requiredAttrs c with
    | none => simp
    | some ks => rw [hr] at h1; simp at h1
  | some fs =>
    rw [hf] at h1
    cases hr : Spec.requiredAttrs c with
    | none => rw [hr] at h1; simp at h1
    | some ks =>
      cases ha : lookupKey d "attrs" with
      | none => simp
      | some v =>
        simp only [Option.some.injEq, forall_eq']
        cases v with
        | dict ad =>
          have hc := h2 fs ks (hasKey ad) hf hr
          by_cases hk : ∀ k ∈ ks, hasKey ad k = true
          · rw [if_pos hk] at hc
            simp only [attrsFromDict, hc]
            exact ⟨⟨fun _ => ⟨ad, rfl, hk⟩, fun _ => ⟨_, rfl⟩⟩, by simp⟩
          · rw [if_neg hk] at hc
            simp only [attrsFromDict, hc]
            refine ⟨⟨by rintro ⟨a, h⟩; simp at h, ?_⟩, by simp⟩
            rintro ⟨ad', h, h'⟩
            cases h
            exact absurd h' hk
        | _ => simp [attrsFromDict]

/-- C07: `from_dict` of any node class on a JSON object succeeds iff every required key is present,
`attrs` (if given and used by the class) is an object with its required keys, and every entry of a
`content` / `marks` list either parses or has an unsupported type. -/
theorem C07_from_dict_iff (w : Bool) (c : NodeCls) (d : List (String × Val)) :
    (∃ n, (c.fromDict w (.dict d)).out = .ok n) ↔
      (∀ k ∈ Spec.requiredKeys c, (lookupKey d k).isSome) ∧
      Spec.attrsOk (Spec.requiredAttrs c) d ∧
      (∀ l, lookupKey d "content" = some (.list l) → ∀ v ∈ l,
        (∃ n, (parseNode w v).out = .ok n) ∨
        ∃ t cat, (parseNode w v).out = .error (.unimplementedType t cat)) ∧
      (∀ l, lookupKey d "marks" = some (.list l) → ∀ v ∈ l,
        (∃ m, parseMark v = .ok m) ∨
        ∃ t cat, parseMark v = .error (.unimplementedType t cat)) := by
  have hreq := node_required c (hasKey d)
  constructor
  · rintro ⟨n, h⟩
    obtain ⟨a, k, m, h1, h2, h3, h4, _⟩ := nodeFromDict_ok h
    refine ⟨?_, (node_attrsStep c d).1.mp ⟨a, h1⟩, ?_, ?_⟩
    · rw [hreq] at h4
      split at h4
      · next hh => exact hh
      · simp at h4
    · intro l hl
      rw [contentStep_eq, hl] at h2
      simp only [Res.map_out] at h2
      split at h2
      · simp at h2
      · next ns hns => exact ((parseNodes_ok_iff w l ns).mp hns).1
    · intro l hl
      unfold marksStep at h3
      rw [hl] at h3
      simp only [Res.map_out] at h3
      split at h3
      · simp at h3
      · next ns hns => exact ((parseMarks_ok_iff w l ns).mp hns).1
  · rintro ⟨h1, h2, h3, h4⟩
    obtain ⟨a, ha⟩ := (node_attrsStep c d).1.mpr h2
    have hk : ∃ k, (contentStep w d).out = .ok k := by
      rw [contentStep_eq]
      cases hc : lookupKey d "content" with
      | none => exact ⟨_, rfl⟩
      | some x =>
        cases x with
        | list l =>
          have := (parseNodes_ok_iff w l _).mpr ⟨h3 l hc, rfl⟩
          exact ⟨_, by simp only [Res.map_out, this]; rfl⟩
        | _ => exact ⟨_, rfl⟩
    have hm : ∃ k, (marksStep w d).out = .ok k := by
      unfold marksStep
      cases hc : lookupKey d "marks" with
      | none => exact ⟨_, rfl⟩
      | some x =>
        cases x with
        | list l =>
          have := (parseMarks_ok_iff w l _).mpr ⟨h4 l hc, rfl⟩
          exact ⟨_, by simp only [Res.map_out, this]; rfl⟩
        | _ => exact ⟨_, rfl⟩
    obtain ⟨k, hk⟩ := hk
    obtain ⟨m, hm⟩ := hm
    have h5 : checkRequired c.fields (hasKey d) = .ok () := by
      rw [hreq]; exact if_pos h1
    exact ⟨_, by
      simp only [NodeCls.fromDict, nodeFromDict, Res.bind_out, Res.ofExcept, ha, hk, hm, h5, Res.ok]
      rfl⟩

/-- C07: if only a required key of the node itself is missing (attrs, content and marks being fine),
`from_dict` raises ParamError. -/
theorem C07_missing_key (w : Bool) (c : NodeCls) (d : List (String × Val)) (k : String)
    (hk : k ∈ Spec.requiredKeys c) (hmiss : lookupKey d k = none)
    (hattrs : Spec.attrsOk (Spec.requiredAttrs c) d)
    (hcontent : ∀ l, lookupKey d "content" = some (.list l) → ∀ v ∈ l,
      (∃ n, (parseNode w v).out = .ok n) ∨
      ∃ t cat, (parseNode w v).out = .error (.unimplementedType t cat))
    (hmarks : ∀ l, lookupKey d "marks" = some (.list l) → ∀ v ∈ l,
      (∃ m, parseMark v = .ok m) ∨
      ∃ t cat, parseMark v = .error (.unimplementedType t cat)) :
    (c.fromDict w (.dict d)).out = .error .paramError := by
  obtain ⟨a, ha⟩ := (node_attrsStep c d).1.mpr hattrs
  have hk' : ∃ k, (contentStep w d).out = .ok k := by
    rw [contentStep_eq]
    cases hc : lookupKey d "content" with
    | none => exact ⟨_, rfl⟩
    | some x =>
      cases x with
      | list l =>
        have := (parseNodes_ok_iff w l _).mpr ⟨hcontent l hc, rfl⟩
        exact ⟨_, by simp only [Res.map_out, this]; rfl⟩
      | _ => exact ⟨_, rfl⟩
  have hm : ∃ k, (marksStep w d).out = .ok k := by
    unfold marksStep
    cases hc : lookupKey d "marks" with
    | none => exact ⟨_, rfl⟩
    | some x =>
      cases x with
      | list l =>
        have := (parseMarks_ok_iff w l _).mpr ⟨hmarks l hc, rfl⟩
        exact ⟨_, by simp only [Res.map_out, this]; rfl⟩
      | _ => exact ⟨_, rfl⟩
  obtain ⟨k', hk'⟩ := hk'
  obtain ⟨m, hm⟩ := hm
  have h5 : checkRequired c.fields (hasKey d) = .error .paramError := by
    rw [node_required, if_neg]
    intro h
    have := h k hk
    simp [hasKey, hmiss] at this
  simp only [NodeCls.fromDict, nodeFromDict, Res.bind_out, Res.ofExcept, ha, hk', hm, h5]

example := C07_missing_key true .text [("type", .str "text".toList), ("marks", .list [.dict [("type", .str "em".toList)]])]
  "text" (by decide) rfl (by simp [Spec.attrsOk, Spec.requiredAttrs]) nofun (by
    intro l h v hv
    cases h
    rw [List.mem_singleton] at hv
    subst hv
    exact .inl ⟨_, rfl⟩)

/-- C07: a required key missing in `attrs` raises ParamError, before anything else is looked at. -/
theorem C07_missing_attr (w : Bool) (c : NodeCls) (d ad : List (String × Val)) (ks : List String)
    (k : String) (hks : Spec.requiredAttrs c = some ks) (hk : k ∈ ks)
    (had : lookupKey d "attrs" = some (.dict ad)) (hmiss : lookupKey ad k = none) :
    (c.fromDict w (.dict d)).out = .error .paramError := by
  obtain ⟨h1, h2⟩ := node_attrs_required c
  cases hf : c.attrsFields with
  | none => rw [hf, hks] at h1; simp at h1
  | some fs =>
    have h3 : attrsStep (some fs) d = .error .paramError := by
      unfold attrsStep
      rw [had]
      have : ¬ ∀ k ∈ ks, hasKey ad k = true := by
        intro h
        have := h k hk
        simp [hasKey, hmiss] at this
      simp [attrsFromDict, h2 fs ks (hasKey ad) hf hks, if_neg this]
    simp only [NodeCls.fromDict, nodeFromDict, Res.bind_out, Res.ofExcept, hf, h3]

example := C07_missing_attr true .heading [("attrs", .dict [("localId", .int 1)])] [("localId", .int 1)] _ "level" rfl
  (by decide) rfl rfl

/-- C07 for marks: `from_dict` of a mark class succeeds iff the class takes no attrs, or `attrs` is
given as an object with the required keys. -/
theorem C07_mark_iff (c : MarkCls) (d : List (String × Val)) :
    (∃ m, c.fromDict (.dict d) = .ok m) ↔
      ∀ ks, Spec.requiredMarkAttrs c = some ks →
        ∃ ad, lookupKey d "attrs" = some (.dict ad) ∧ ∀ k ∈ ks, (lookupKey ad k).isSome := by
  obtain ⟨h1, h2⟩ := mark_attrs_required c
  simp only [MarkCls.fromDict, markFromDict, mark_required]
  cases hf : c.attrsFields with
  | none =>
    rw [hf] at h1
    cases hr : Spec.requiredMarkAttrs c with
    | none => simp [attrsStep]
    | some ks => rw [hr] at h1; simp at h1
  | some fs =>
    rw [hf] at h1
    cases hr : Spec.requiredMarkAttrs c with
    | none => rw [hr] at h1; simp at h1
    | some ks =>
      simp only [Option.some.injEq, forall_eq', Option.isSome_some, forall_const, attrsStep]
      cases ha : lookupKey d "attrs" with
      | none => simp [hasKey, ha]
      | some v =>
        cases v with
        | dict ad =>
          have hc := h2 fs ks (hasKey ad) hf hr
          have ha' : hasKey d "attrs" = true := by simp [hasKey, ha]
          by_cases hk : ∀ k ∈ ks, hasKey ad k = true
          · rw [if_pos hk] at hc
            simp only [attrsFromDict, hc, ha', if_true]
            exact ⟨fun _ => ⟨ad, rfl, hk⟩, fun _ => ⟨_, rfl⟩⟩
          · rw [if_neg hk] at hc
            simp only [attrsFromDict, hc]
            refine ⟨by rintro ⟨a, h⟩; simp at h, ?_⟩
            rintro ⟨ad', h, h'⟩
            cases h
            exact absurd h' hk
        | _ => simp [attrsFromDict]

/-- C07 for marks: which error a missing attribute raises. -/
theorem C07_mark_missing (c : MarkCls) (d ad : List (String × Val)) (ks : List String) (k : String)
    (hks : Spec.requiredMarkAttrs c = some ks) (hk : k ∈ ks)
    (had : lookupKey d "attrs" = some (.dict ad)) (hmiss : lookupKey ad k = none) :
    c.fromDict (.dict d) = .error (Spec.markMissingError c) := by
  obtain ⟨h1, h2⟩ := mark_attrs_required c
  cases hf : c.attrsFields with
  | none => rw [hf, hks] at h1; simp at h1
  | some fs =>
    have : ¬ ∀ k ∈ ks, hasKey ad k = true := by
      intro h
      have := h k hk
      simp [hasKey, hmiss] at this
    simp [MarkCls.fromDict, markFromDict, attrsStep, hf, had, attrsFromDict,
      h2 fs ks (hasKey ad) hf hks, if_neg this]

example := C07_mark_missing .link [("attrs", .dict [("title", .int 1)])] [("title", .int 1)] _ "href" rfl (by decide) rfl rfl

example : ∃ n, (NodeCls.fromDict true .heading (.dict
    [("attrs", .dict [("level", .int 2)]), ("content", .list [])])).out = .ok n := ⟨_, rfl⟩
example : (NodeCls.fromDict true .heading (.dict [("attrs", .dict [])])).out =
    .error .paramError := rfl
example : MarkCls.fromDict .textColor (.dict [("attrs", .dict [])]) = .error .typeError := rfl
example : MarkCls.fromDict .link (.dict [("attrs", .dict [])]) = .error .paramError := rfl

end Verif.Props
