import Verif.Props.Required
/-!
# C09: malformed children
-/

namespace Verif.Props
open Verif

/-- C09 (content): the first entry that fails with anything but an unsupported type makes the
whole `from_dict` fail with exactly that error (attrs, which are converted first, being fine). -/
theorem C09_content (w : Bool) (c : NodeCls) (d : List (String × Val)) (pre post : List Val)
    (v : Val) (e : PyErr)
    (hl : lookupKey d "content" = some (.list (pre ++ v :: post)))
    (hattrs : Spec.attrsOk (Spec.requiredAttrs c) d)
    (hpre : ∀ x ∈ pre, (∃ n, (parseNode w x).out = .ok n) ∨
      ∃ t cat, (parseNode w x).out = .error (.unimplementedType t cat))
    (hv : (parseNode w v).out = .error e) (he : ∀ t cat, e ≠ .unimplementedType t cat) :
    (c.fromDict w (.dict d)).out = .error e := by
  have he' : e.isUnimplemented = false := by
    cases e <;> first | rfl | exact absurd rfl (he _ _)
  obtain ⟨a, ha⟩ := (node_attrsStep c d).1.mpr hattrs
  simp only [NodeCls.fromDict, nodeFromDict, Res.bind_out, Res.ofExcept, ha]
  rw [contentStep_eq, hl]
  simp only [Res.map_out, parseNodes_first_error hpre hv he']

example := C09_content true .blockquote
  [("content", .list [.dict [("type", .str "layoutSection".toList)], .dict [("type", .str "text".toList)], .int 3])]
  [.dict [("type", .str "layoutSection".toList)]] [.int 3] (.dict [("type", .str "text".toList)]) .paramError rfl
  (by intro ks hks a ha; simp [lookupKey] at ha)
  (by intro x hx; rw [List.mem_singleton] at hx; subst hx; exact .inr ⟨_, _, rfl⟩) rfl nofun

/-- C09 (marks): likewise for marks, which are converted after attrs and content. -/
theorem C09_marks (w : Bool) (c : NodeCls) (d : List (String × Val)) (pre post : List Val)
    (v : Val) (e : PyErr)
    (hl : lookupKey d "marks" = some (.list (pre ++ v :: post)))
    (hattrs : Spec.attrsOk (Spec.requiredAttrs c) d)
    (hcontent : ∀ l, lookupKey d "content" = some (.list l) → ∀ x ∈ l,
      (∃ n, (parseNode w x).out = .ok n) ∨
      ∃ t cat, (parseNode w x).out = .error (.unimplementedType t cat))
    (hpre : ∀ x ∈ pre, (∃ n, parseMark x = .ok n) ∨
      ∃ t cat, parseMark x = .error (.unimplementedType t cat))
    (hv : parseMark v = .error e) (he : ∀ t cat, e ≠ .unimplementedType t cat) :
    (c.fromDict w (.dict d)).out = .error e := by
  have he' : e.isUnimplemented = false := by
    cases e <;> first | rfl | exact absurd rfl (he _ _)
  obtain ⟨a, ha⟩ := (node_attrsStep c d).1.mpr hattrs
  have hk : ∃ k, (contentStep w d).out = .ok k := by
    rw [contentStep_eq]
    cases hc : lookupKey d "content" with
    | none => exact ⟨_, rfl⟩
    | some x =>
      cases x with
      | list l =>
        have := (parseNodes_ok_iff w l _).mpr ⟨hcontent l hc, rfl⟩
        exact ⟨_, by simp only [Res.map_out, this]; rfl⟩
      | _ => exact ⟨_, rfl⟩
  obtain ⟨k, hk⟩ := hk
  simp only [NodeCls.fromDict, nodeFromDict, Res.bind_out, Res.ofExcept, ha, hk]
  unfold marksStep
  rw [hl]
  simp only [Res.map_out, parseMarks_first_error hpre hv he']

example := C09_marks true .text
  [("text", .str "a".toList), ("marks", .list [.dict [("type", .str "strong".toList)], .dict [("type", .str "link".toList),
    ("attrs", .dict [])]])]
  [.dict [("type", .str "strong".toList)]] [] (.dict [("type", .str "link".toList), ("attrs", .dict [])]) .paramError rfl
  (by intro ks hks a ha; simp [lookupKey] at ha) (by intro l hl; simp [lookupKey] at hl)
  (by intro x hx; rw [List.mem_singleton] at hx; subst hx; exact .inl ⟨_, rfl⟩) rfl nofun

/-- C09: whatever else is wrong with the node, one malformed entry among its content or its marks is enough: parsing does not succeed. -/
theorem C09_never (w : Bool) (c : NodeCls) (d : List (String × Val)) (l : List Val) (v : Val) (e : PyErr) (hv : v ∈ l)
    (he : ∀ t cat, e ≠ .unimplementedType t cat)
    (h : (lookupKey d "content" = some (.list l) ∧ (parseNode w v).out = .error e) ∨
      (lookupKey d "marks" = some (.list l) ∧ parseMark v = .error e)) :
    ∃ e', (c.fromDict w (.dict d)).out = .error e' := by
  cases hr : (c.fromDict w (.dict d)).out with
  | error e' => exact ⟨e', rfl⟩
  | ok n =>
    exfalso
    simp only [NodeCls.fromDict, nodeFromDict, Res.bind_out, Res.ofExcept] at hr
    cases ha : attrsStep c.attrsFields d with
    | error x => rw [ha] at hr; cases hr
    | ok a =>
      simp only [ha] at hr
      cases hc : (contentStep w d).out with
      | error x => rw [hc] at hr; cases hr
      | ok k =>
        simp only [hc] at hr
        cases hm : (marksStep w d).out with
        | error x => rw [hm] at hr; cases hr
        | ok m =>
          rcases h with ⟨h1, h2⟩ | ⟨h1, h2⟩
          · rw [contentStep_eq, h1] at hc
            simp only [Res.map_out] at hc
            cases hp : (parseNodes w l).out with
            | error x => rw [hp] at hc; cases hc
            | ok ns =>
              rcases ((parseNodes_ok_iff w l _).mp hp).1 v hv with ⟨n, hn⟩ | ⟨t, cat, hn⟩
              · rw [hn] at h2; cases h2
              · rw [hn] at h2; cases h2; exact he _ _ rfl
          · unfold marksStep at hm
            rw [h1] at hm
            simp only [Res.map_out] at hm
            cases hp : (parseMarks w l).out with
            | error x => rw [hp] at hm; cases hm
            | ok ns =>
              rcases ((parseMarks_ok_iff w l _).mp hp).1 v hv with ⟨n, hn⟩ | ⟨t, cat, hn⟩
              · rw [hn] at h2; cases h2
              · rw [hn] at h2; cases h2; exact he _ _ rfl

example := C09_never true .heading
  [("type", .str "heading".toList), ("attrs", .dict []), ("content", .list [.int 2, .dict [("type", .str "text".toList)], .int 3])]
  [.int 2, .dict [("type", .str "text".toList)], .int 3] (.dict [("type", .str "text".toList)]) .paramError
  (by simp) nofun (.inl ⟨rfl, rfl⟩)

/-- A heading whose child lacks its `text`: the ParamError of the child surfaces. -/
example : (NodeCls.fromDict true .bulletList (.dict [("content", .list
    [.dict [("type", .str "layoutSection".toList)], .dict [("type", .str "text".toList)],
     .int 3])])).out = .error .paramError := rfl

end Verif.Props
