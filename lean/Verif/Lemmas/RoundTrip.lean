import Verif.Lemmas.Serial
/-!
# Round trip of one node
-/

namespace Verif
open Verif.Props

theorem fieldDflt_cases (c : NodeCls) (name : String)
    (h : name = "attrs" ∨ name = "content" ∨ name = "marks") :
    fieldDflt c.fields name = none ∨ fieldDflt c.fields name = some .req ∨
      fieldDflt c.fields name = some .opt := by
  rcases h with rfl | rfl | rfl <;> cases c <;> simp [fieldDflt, NodeCls.fields, NodeCls.ownFields]

theorem slotOf_eq {α : Type} (c : NodeCls) (name : String)
    (h : name = "attrs" ∨ name = "content" ∨ name = "marks") (given : Option (Slot α)) :
    slotOf c.fields name given =
      if name ∈ Spec.nodeKeys c then given.getD .opt else .absent := by
  unfold slotOf
  have h2 := nodeFields_names c name
  have h3 := fieldDflt_isSome_iff c.fields name
  rcases fieldDflt_cases c name h with h1 | h1 | h1
  · rw [h1] at h3 ⊢
    rw [if_neg]
    rw [← h2, ← h3]; simp
  · rw [h1] at h3 ⊢
    rw [if_pos (by rw [← h2, ← h3]; rfl)]
    cases given <;> rfl
  · rw [h1] at h3 ⊢
    rw [if_pos (by rw [← h2, ← h3]; rfl)]
    cases given <;> rfl

theorem attrs_declared (c : NodeCls) : "attrs" ∈ Spec.nodeKeys c ↔ c.attrsFields.isSome = true := by
  cases c <;> decide

/-- `version` exists on the doc class only, defaulting to 1. -/
theorem valOf_version (c : NodeCls) (d : List (String × Val)) :
    valOf c.fields "version" d =
      if c = .doc then some ((lookupKey d "version").getD (.int 1)) else none := by
  cases c <;> cases h : lookupKey d "version" <;>
    simp [valOf, NodeCls.fields, NodeCls.ownFields, fieldValue, h]

/-- `text` exists on the text class only. -/
theorem valOf_text (c : NodeCls) (d : List (String × Val)) :
    valOf c.fields "text" d =
      if c = .text then some ((lookupKey d "text").getD .opt) else none := by
  cases c <;> cases h : lookupKey d "text" <;>
    simp [valOf, NodeCls.fields, NodeCls.ownFields, fieldValue, h]

theorem nn_plain {d : List (String × Val)} {k : String} (hd : Spec.plainDict d = true) :
    nn (lookupKey d k) = lookupKey d k := by
  cases h : lookupKey d k with
  | none => rfl
  | some v => simp [nn, isOpt_of_plain (plain_lookup hd h), Option.filter]

/-- The attrs part of the round trip. -/
theorem attrs_part (c : NodeCls) {d : List (String × Val)} {a : Option AttrsObj}
    (hd : Spec.plainDict d = true) (h : attrsStep c.attrsFields d = .ok a)
    {d' : List (String × Val)}
    (hd' : lookupKey d' "attrs" = nn (attrsVal (slotOf c.fields "attrs" (a.map Slot.val)))) :
    attrsStep c.attrsFields d' = .ok a ∧
      ("attrs" ∈ Spec.nodeKeys c → hasKey d "attrs" = true → hasKey d' "attrs" = true) := by
  rw [slotOf_eq c _ (.inl rfl)] at hd'
  rcases attrsStep_ok_cases h with ⟨rfl, h1⟩ | ⟨fs, ad, o, hf, had, rfl, hok⟩
  · have : nn (attrsVal (if "attrs" ∈ Spec.nodeKeys c then
        (Option.map Slot.val (none : Option AttrsObj)).getD .opt else .absent)) = none := by
      split <;> simp [attrsVal, nn, Val.isOpt]
    rw [this] at hd'
    refine ⟨by unfold attrsStep; rw [hd'], fun hdecl hk => ?_⟩
    rcases h1 with h1 | h1
    · simp [hasKey, h1] at hk
    · rw [attrs_declared, h1] at hdecl; simp at hdecl
  · have hdecl : "attrs" ∈ Spec.nodeKeys c := by rw [attrs_declared, hf]; rfl
    rw [if_pos hdecl] at hd'
    have hd'' : lookupKey d' "attrs" = some o.toDict := by
      rw [hd']
      simp [attrsVal, nn, AttrsObj.toDict, Val.isOpt]
    refine ⟨?_, fun _ _ => by simp [hasKey, hd'']⟩
    unfold attrsStep
    rw [hd'', hf]
    have hpl : Spec.plainDict ad = true := by
      have := plain_lookup hd had
      simpa [Spec.plain] using this
    simp only [attrs_roundtrip (attrsFields_nodup c fs hf) (attrsFields_noLit c fs hf) hpl hok]

/-- The marks part of the round trip. -/
theorem marks_part (w : Bool) (c : NodeCls) {d : List (String × Val)}
    {m : Option (Slot (List Mark))}
    (hd : Spec.plainDict d = true) (h : (marksStep w d).out = .ok m)
    (hraw : ∀ v, slotOf c.fields "marks" m ≠ .raw v) :
    ∃ o, marksEntry (slotOf c.fields "marks" m) = .ok (plainEntry "marks" o) ∧
      ∀ d', lookupKey d' "marks" = nn o →
        (∃ m', marksStep w d' = ⟨[], .ok m'⟩ ∧
          slotOf c.fields "marks" m' = slotOf c.fields "marks" m) ∧
        ("marks" ∈ Spec.nodeKeys c → hasKey d' "marks" = hasKey d "marks") := by
  rw [slotOf_eq c _ (.inr (.inr rfl))] at *
  simp only [slotOf_eq c "marks" (.inr (.inr rfl))]
  by_cases hdecl : "marks" ∈ Spec.nodeKeys c
  · simp only [if_pos hdecl] at *
    unfold marksStep at h
    cases hl : lookupKey d "marks" with
    | none =>
      rw [hl] at h
      simp [Res.ok] at h
      subst h
      refine ⟨some .opt, rfl, fun d' hd' => ?_⟩
      have : lookupKey d' "marks" = none := by rw [hd']; simp [nn, Val.isOpt]
      exact ⟨⟨none, by simp [marksStep, this, Res.ok], rfl⟩, fun _ => by simp [hasKey, this, hl]⟩
    | some v =>
      rw [hl] at h
      have hv := plain_lookup hd hl
      cases v with
      | list l =>
        simp only [Res.map_out] at h
        cases hp : (parseMarks w l).out with
        | error e => rw [hp] at h; simp at h
        | ok ms =>
          rw [hp] at h
          simp at h
          subst h
          have hpl : ∀ x ∈ l, Spec.plain x = true := by
            rw [Spec.plain, plainList_iff] at hv; exact hv
          have hrt : parseMarks w (ms.map Mark.toDict) = ⟨[], .ok ms⟩ := by
            refine parseMarks_roundtrip fun m hm => ?_
            obtain ⟨x, hx, hx'⟩ := parseMarks_mem hp hm
            exact parseMark_roundtrip (hpl x hx) hx'
          refine ⟨some (.list (ms.map Mark.toDict)), rfl, fun d' hd' => ?_⟩
          have : lookupKey d' "marks" = some (.list (ms.map Mark.toDict)) := by
            rw [hd']; simp [nn, Val.isOpt]
          exact ⟨⟨some (.val ms), by simp [marksStep, this, hrt, Res.map, Res.bind, Res.ok], rfl⟩,
            fun _ => by simp [hasKey, this, hl]⟩
      | opt => simp [Spec.plain] at hv
      | _ =>
        simp only [Res.ok, Except.ok.injEq] at h
        subst h
        simp [rawSlot] at hraw
  · simp only [if_neg hdecl] at *
    refine ⟨none, rfl, fun d' hd' => ⟨⟨none, ?_, trivial⟩, fun h => absurd h hdecl⟩⟩
    simp [marksStep, hd', nn, Res.ok]

/-- The content part of the round trip. -/
theorem content_part (w : Bool) (c : NodeCls) {d : List (String × Val)}
    {k : Option (Slot (List Node))}
    (hd : Spec.plainDict d = true) (h : (contentStep w d).out = .ok k)
    (hraw : ∀ v, slotOf c.fields "content" k ≠ .raw v)
    (hkids : ∀ ns, slotOf c.fields "content" k = .val ns →
      ∃ vs, listToDict ns = .ok vs ∧ parseNodes w vs = ⟨[], .ok ns⟩) :
    ∃ o, contentEntry (slotOf c.fields "content" k) = .ok (plainEntry "content" o) ∧
      ∀ d', lookupKey d' "content" = nn o →
        (∃ k', contentStep w d' = ⟨[], .ok k'⟩ ∧
          slotOf c.fields "content" k' = slotOf c.fields "content" k) ∧
        ("content" ∈ Spec.nodeKeys c → hasKey d' "content" = hasKey d "content") := by
  rw [slotOf_eq c _ (.inr (.inl rfl))] at *
  simp only [slotOf_eq c "content" (.inr (.inl rfl))] at *
  by_cases hdecl : "content" ∈ Spec.nodeKeys c
  · simp only [if_pos hdecl] at *
    rw [contentStep_eq] at h
    cases hl : lookupKey d "content" with
    | none =>
      rw [hl] at h
      simp [Res.ok] at h
      subst h
      refine ⟨some .opt, by simp [contentEntry, plainEntry], fun d' hd' => ?_⟩
      have : lookupKey d' "content" = none := by rw [hd']; simp [nn, Val.isOpt]
      exact ⟨⟨none, by simp [contentStep_eq, this, Res.ok], rfl⟩, fun _ => by simp [hasKey, this, hl]⟩
    | some v =>
      rw [hl] at h
      have hv := plain_lookup hd hl
      cases v with
      | list l =>
        simp only [Res.map_out] at h
        cases hp : (parseNodes w l).out with
        | error e => rw [hp] at h; simp at h
        | ok ms =>
          rw [hp] at h
          simp at h
          subst h
          obtain ⟨vs, hvs, hrt⟩ := hkids ms rfl
          refine ⟨some (.list vs), by simp [contentEntry, hvs, plainEntry], fun d' hd' => ?_⟩
          have : lookupKey d' "content" = some (.list vs) := by
            rw [hd']; simp [nn, Val.isOpt]
          exact ⟨⟨some (.val ms), by simp [contentStep_eq, this, hrt, Res.map, Res.bind, Res.ok],
            rfl⟩, fun _ => by simp [hasKey, this, hl]⟩
      | opt => simp [Spec.plain] at hv
      | _ =>
        simp only [Res.ok, Except.ok.injEq] at h
        subst h
        simp [rawSlot] at hraw
  · simp only [if_neg hdecl] at *
    refine ⟨none, by simp [contentEntry, plainEntry], fun d' hd' =>
      ⟨⟨none, ?_, trivial⟩, fun h => absurd h hdecl⟩⟩
    simp [contentStep_eq, hd', nn, Res.ok]

/-- No unconverted `content` / `marks` anywhere in the tree. -/
theorem node_roundtrip_step (w : Bool) (c : NodeCls) {d : List (String × Val)} {n : Node}
    (hd : Spec.plainDict d = true) (h : (c.fromDict w (.dict d)).out = .ok n)
    (hcraw : ∀ v, n.content ≠ .raw v) (hmraw : ∀ v, n.hd.marks ≠ .raw v)
    (hkids : ∀ ns, n.content = .val ns →
      ∃ vs, listToDict ns = .ok vs ∧ parseNodes w vs = ⟨[], .ok ns⟩) :
    ∃ d', n.toDict = .ok (.dict d') ∧ c.fromDict w (.dict d') = ⟨[], .ok n⟩ ∧
      lookupKey d' "type" = some n.hd.type := by
  obtain ⟨a, k, m, ha, hk, hm, hreq, rfl⟩ := nodeFromDict_ok h
  simp only [Node.content, Node.hd] at hcraw hmraw hkids ⊢
  obtain ⟨mo, hme, hm2⟩ := marks_part w c hd hm hmraw
  obtain ⟨co, hce, hc2⟩ := content_part w c hd hk hcraw hkids
  have htd := toDict_eq (hd := { cls := c
                                 type := (valOf c.fields "type" d).getD .opt
                                 version := valOf c.fields "version" d
                                 text := valOf c.fields "text" d
                                 attrs := slotOf c.fields "attrs" (a.map Slot.val)
                                 marks := slotOf c.fields "marks" m }) hce hme
  simp only at htd
  obtain ⟨ht, hv, hx, hat, hct, hmt⟩ := nodeDict_lookup
    (nn (some ((valOf c.fields "type" d).getD .opt))) (nn (valOf c.fields "version" d))
    (nn (valOf c.fields "text" d)) (nn (attrsVal (slotOf c.fields "attrs" (a.map Slot.val))))
    (nn co) (nn mo)
  generalize nodeDict (nn (some ((valOf c.fields "type" d).getD .opt)))
    (nn (valOf c.fields "version" d)) (nn (valOf c.fields "text" d))
    (nn (attrsVal (slotOf c.fields "attrs" (a.map Slot.val)))) (nn co) (nn mo) = d' at *
  have htype : nn (some ((valOf c.fields "type" d).getD .opt)) =
      some ((valOf c.fields "type" d).getD .opt) := by
    rw [nodeFields_type]
    cases hl : lookupKey d "type" with
    | none => simp [nn, Val.isOpt]
    | some v => simp [nn, isOpt_of_plain (plain_lookup hd hl)]
  refine ⟨d', htd, ?_, by rw [ht, htype]⟩
  obtain ⟨⟨k', hk', hks⟩, hck⟩ := hc2 d' hct
  obtain ⟨⟨m', hm', hms⟩, _⟩ := hm2 d' hmt
  obtain ⟨has, hak⟩ := attrs_part c hd ha hat
  have hver : valOf c.fields "version" d' = valOf c.fields "version" d := by
    rw [valOf_version, valOf_version]
    split
    · next hcd =>
      rw [hv, valOf_version, if_pos hcd]
      cases hl : lookupKey d "version" with
      | none => simp [nn, Val.isOpt, Option.filter]
      | some v => simp [nn, isOpt_of_plain (plain_lookup hd hl), Option.filter]
    · rfl
  have htext : valOf c.fields "text" d' = valOf c.fields "text" d ∧
      (c = .text → hasKey d "text" = true → hasKey d' "text" = true) := by
    rw [valOf_text, valOf_text]
    split
    · next hcd =>
      rw [valOf_text, if_pos hcd] at hx
      unfold hasKey
      rw [hx]
      cases hl : lookupKey d "text" with
      | none => simp [nn, Val.isOpt, Option.filter]
      | some v => simp [nn, isOpt_of_plain (plain_lookup hd hl), Option.filter]
    · next hcd => exact ⟨rfl, fun h => absurd h hcd⟩
  have htyp : valOf c.fields "type" d' = valOf c.fields "type" d := by
    rw [nodeFields_type c d', ht, htype, nodeFields_type]
    rfl
  have hreq' : checkRequired c.fields (hasKey d') = .ok () := by
    rw [node_required] at hreq ⊢
    rw [if_pos]
    split at hreq
    · next hall =>
      intro j hj
      have hjd := hall j hj
      have hdecl : j ∈ Spec.nodeKeys c := by simp [Spec.nodeKeys, hj]
      have hcases : j = "attrs" ∨ j = "content" ∨ (j = "text" ∧ c = .text) := by
        revert hj
        clear hak hck hall hjd hdecl h has htext htyp hver hm' hk' hat hx hv ht hct hmt htype htd hks hms hc2 hm2 hce hme hkids hcraw hmraw ha hk hm hreq
        cases c <;> simp [Spec.requiredKeys] <;> grind
      rcases hcases with rfl | rfl | ⟨rfl, hct⟩
      · exact hak hdecl hjd
      · rw [hck hdecl]; exact hjd
      · exact htext.2 hct hjd
    · simp at hreq
  simp only [NodeCls.fromDict, nodeFromDict, Res.ofExcept, has, hk', hm', hreq', Res.bind, Res.ok,
    List.append_nil, hks, hms, hver, htext.1, htyp]

end Verif
