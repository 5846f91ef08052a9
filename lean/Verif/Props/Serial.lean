import Verif.Props.RoundTrip
/-!
# C05, C06: what serialisation keeps; C07 (tail): required fields are present everywhere
-/

namespace Verif.Props
open Verif

/-! ## C05 -/

/-- C05: serialising is a normal form — re-parsing and re-serialising gives the same dict. -/
theorem C05_idempotent (w : Bool) (c : NodeCls) (v : Val) (n : Node) (hv : Spec.plain v = true)
    (h : (c.fromDict w v).out = .ok n) (hconv : Spec.Converted n) :
    ∃ d' n', n.toDict = .ok d' ∧ (c.fromDict w d').out = .ok n' ∧ n'.toDict = .ok d' := by
  obtain ⟨d', h1, h2, _⟩ := C04_from_dict w w c v n hv h hconv
  exact ⟨d', n, h1, by rw [h2], h1⟩

/-- The content entry of a successful `to_dict`. -/
theorem contentEntry_ok {s : Slot (List Node)} {l : List (String × Val)}
    (h : contentEntry s = .ok l) :
    ∃ o, l = plainEntry "content" o ∧
      (s = .absent → o = none) ∧ (s = .opt → o = some .opt) ∧
      (∀ v, s = .raw v → o = some (.list [])) ∧
      (∀ ns, s = .val ns → ∃ vs, listToDict ns = .ok vs ∧ o = some (.list vs)) := by
  cases s with
  | absent => simp [contentEntry] at h; subst h; exact ⟨none, rfl, by simp⟩
  | opt => simp [contentEntry] at h; subst h; exact ⟨some .opt, rfl, by simp⟩
  | raw v =>
    rw [contentEntry] at h
    unfold rawToDict at h
    cases hl : v.iterLen with
    | error e => rw [hl] at h; simp at h
    | ok n =>
      rw [hl] at h
      cases n with
      | zero => simp at h; subst h; exact ⟨some (.list []), rfl, by simp⟩
      | succ n => simp at h
  | val ns =>
    rw [contentEntry] at h
    cases hl : listToDict ns with
    | error e => rw [hl] at h; simp at h
    | ok vs =>
      rw [hl] at h; simp at h; subst h
      exact ⟨some (.list vs), rfl, by simp [hl]⟩

theorem marksEntry_ok {s : Slot (List Mark)} {l : List (String × Val)}
    (h : marksEntry s = .ok l) :
    ∃ o, l = plainEntry "marks" o ∧
      (s = .absent → o = none) ∧ (s = .opt → o = some .opt) ∧
      (∀ v, s = .raw v → o = some (.list [])) ∧
      (∀ ns, s = .val ns → o = some (.list (ns.map Mark.toDict))) := by
  cases s with
  | absent => simp [marksEntry] at h; subst h; exact ⟨none, rfl, by simp⟩
  | opt => simp [marksEntry] at h; subst h; exact ⟨some .opt, rfl, by simp⟩
  | raw v =>
    rw [marksEntry] at h
    unfold rawToDict at h
    cases hl : v.iterLen with
    | error e => rw [hl] at h; simp at h
    | ok n =>
      rw [hl] at h
      cases n with
      | zero => simp at h; subst h; exact ⟨some (.list []), rfl, by simp⟩
      | succ n => simp at h
  | val ns =>
    rw [marksEntry] at h
    simp at h; subst h
    exact ⟨some (.list (ns.map Mark.toDict)), rfl, by simp⟩

/-- A successful `to_dict` in terms of the six entries. -/
theorem toDict_ok {n : Node} {d' : Val} (h : n.toDict = .ok d') :
    ∃ co mo, contentEntry n.content = .ok (plainEntry "content" co) ∧
      marksEntry n.hd.marks = .ok (plainEntry "marks" mo) ∧
      d' = .dict (nodeDict (nn (some n.hd.type)) (nn n.hd.version) (nn n.hd.text)
        (nn (attrsVal n.hd.attrs)) (nn co) (nn mo)) := by
  obtain ⟨hd, s⟩ := n
  have h' := h
  rw [Node.toDict] at h'
  cases hc : contentEntry s with
  | error e => rw [hc] at h'; simp at h'
  | ok l =>
    rw [hc] at h'
    simp only at h'
    cases hm : marksEntry hd.marks with
    | error e => rw [hm] at h'; simp at h'
    | ok l2 =>
      obtain ⟨co, rfl, _⟩ := contentEntry_ok hc
      obtain ⟨mo, rfl, _⟩ := marksEntry_ok hm
      refine ⟨co, mo, hc, hm, ?_⟩
      rw [toDict_eq hc hm] at h
      exact (Except.ok.inj h).symm

theorem nn_some_plain {v : Val} (h : Spec.plain v = true) : nn (some v) = some v := by
  simp [nn, isOpt_of_plain h]

theorem marks_slot {w : Bool} {c : NodeCls} {d : List (String × Val)} {m : Option (Slot (List Mark))}
    (hm : (marksStep w d).out = .ok m) (hdecl : "marks" ∈ Spec.nodeKeys c) :
    (lookupKey d "marks" = none → slotOf c.fields "marks" m = .opt) ∧
    (∀ l, lookupKey d "marks" = some (.list l) →
      ∃ ms, (parseMarks w l).out = .ok ms ∧ slotOf c.fields "marks" m = .val ms) := by
  rw [slotOf_eq c _ (.inr (.inr rfl)), if_pos hdecl]
  unfold marksStep at hm
  constructor
  · intro h; rw [h] at hm; simp [Res.ok] at hm; subst hm; rfl
  · intro l h
    rw [h] at hm
    simp only [Res.map_out] at hm
    cases hp : (parseMarks w l).out with
    | error e => rw [hp] at hm; simp at hm
    | ok ms => rw [hp] at hm; simp at hm; subst hm; exact ⟨ms, rfl, rfl⟩

theorem content_slot {w : Bool} {c : NodeCls} {d : List (String × Val)}
    {m : Option (Slot (List Node))}
    (hm : (contentStep w d).out = .ok m) (hdecl : "content" ∈ Spec.nodeKeys c) :
    (lookupKey d "content" = none → slotOf c.fields "content" m = .opt) ∧
    (∀ l, lookupKey d "content" = some (.list l) →
      ∃ ms, (parseNodes w l).out = .ok ms ∧ slotOf c.fields "content" m = .val ms) := by
  rw [slotOf_eq c _ (.inr (.inl rfl)), if_pos hdecl]
  rw [contentStep_eq] at hm
  constructor
  · intro h; rw [h] at hm; simp [Res.ok] at hm; subst hm; rfl
  · intro l h
    rw [h] at hm
    simp only [Res.map_out] at hm
    cases hp : (parseNodes w l).out with
    | error e => rw [hp] at hm; simp at hm
    | ok ms => rw [hp] at hm; simp at hm; subst hm; exact ⟨ms, rfl, rfl⟩

theorem listToDict_forall {ns : List Node} {vs : List Val} (h : listToDict ns = .ok vs) :
    ns.map Node.toDict = vs.map .ok := by
  induction ns generalizing vs with
  | nil => simp [listToDict] at h; subst h; rfl
  | cons n ns ih =>
    rw [listToDict] at h
    cases h1 : n.toDict with
    | error e => rw [h1] at h; simp at h
    | ok v =>
      rw [h1] at h
      simp only at h
      cases h2 : listToDict ns with
      | error e => rw [h2] at h; simp at h
      | ok vs' => rw [h2] at h; simp at h; subst h; simp [h1, ih h2]

theorem six_keys (c : NodeCls) {k : String} (h : k ∈ Spec.nodeKeys c) :
    k ∈ ["type", "version", "text", "attrs", "content", "marks"] :=
  known_of_name c ((nodeFields_names c k).mpr h)

theorem version_doc (c : NodeCls) : "version" ∈ Spec.nodeKeys c ↔ c = .doc := by
  cases c <;> decide

theorem text_text (c : NodeCls) : "text" ∈ Spec.nodeKeys c ↔ c = .text := by
  cases c <;> decide

/-- C05: what `to_dict(from_dict(d))` contains, for every class and every plain JSON object:
only keys the class knows; every known plain field with its value; of `attrs` exactly the known keys
with their values; `content` and `marks` as the serialised children and marks; a known key missing in
the input is missing in the output except `type` (the class's type string) and a document's `version`
(1). -/
theorem C05_fields (w : Bool) (c : NodeCls) (d d' : List (String × Val)) (n : Node)
    (hd : Spec.plain (.dict d) = true) (h : (c.fromDict w (.dict d)).out = .ok n)
    (hd' : n.toDict = .ok (.dict d')) :
    (∀ k, (lookupKey d' k).isSome → k ∈ Spec.nodeKeys c) ∧
    (∀ k v, k = "type" ∨ k = "version" ∨ k = "text" → k ∈ Spec.nodeKeys c →
      lookupKey d k = some v → lookupKey d' k = some v) ∧
    (∀ ad, "attrs" ∈ Spec.nodeKeys c → lookupKey d "attrs" = some (.dict ad) →
      ∃ ad', lookupKey d' "attrs" = some (.dict ad') ∧
        ∀ k, lookupKey ad' k = if k ∈ Spec.attrKeys c then lookupKey ad k else none) ∧
    (∀ l, "content" ∈ Spec.nodeKeys c → lookupKey d "content" = some (.list l) →
      ∃ (kids : List Node) (vs : List Val), (l.filter Spec.registeredNode).map (fun v => (parseNode w v).out) = kids.map .ok ∧
        kids.map Node.toDict = vs.map .ok ∧ lookupKey d' "content" = some (.list vs)) ∧
    (∀ l, "marks" ∈ Spec.nodeKeys c → lookupKey d "marks" = some (.list l) →
      ∃ ms : List Mark, (l.filter Spec.registeredMark).map parseMark = ms.map .ok ∧
        lookupKey d' "marks" = some (.list (ms.map Mark.toDict))) ∧
    (∀ k, k ∈ Spec.nodeKeys c → lookupKey d k = none →
      (k = "type" → ∃ name, (name, c) ∈ Spec.nodeTypes ∧
        lookupKey d' k = some (.str name.toList)) ∧
      (k = "version" → lookupKey d' k = some (.int 1)) ∧
      (k ≠ "type" → k ≠ "version" → lookupKey d' k = none)) := by
  have hd0 : Spec.plainDict d = true := by simpa [Spec.plain] using hd
  obtain ⟨a, k, m, ha, hk, hm, hreq, rfl⟩ := nodeFromDict_ok h
  obtain ⟨co, mo, hce, hme, heq⟩ := toDict_ok hd'
  simp only [Node.hd, Node.content, Val.dict.injEq] at heq hce hme
  obtain ⟨co', hco', hc1, hc2, hc3, hc4⟩ := contentEntry_ok hce
  obtain ⟨mo', hmo', hm1, hm2, hm3, hm4⟩ := marksEntry_ok hme
  have hco : co' = co := by
    cases co <;> cases co' <;> simp [plainEntry] at hco' ⊢ <;> exact hco'.symm
  have hmo : mo' = mo := by
    cases mo <;> cases mo' <;> simp [plainEntry] at hmo' ⊢ <;> exact hmo'.symm
  subst hco; subst hmo
  obtain ⟨ht, hv, hx, hat, hct, hmt⟩ := nodeDict_lookup
    (nn (some ((valOf c.fields "type" d).getD .opt))) (nn (valOf c.fields "version" d))
    (nn (valOf c.fields "text" d)) (nn (attrsVal (slotOf c.fields "attrs" (a.map Slot.val))))
    (nn co') (nn mo')
  have hother := fun k => @nodeDict_lookup_other
    (nn (some ((valOf c.fields "type" d).getD .opt))) (nn (valOf c.fields "version" d))
    (nn (valOf c.fields "text" d)) (nn (attrsVal (slotOf c.fields "attrs" (a.map Slot.val))))
    (nn co') (nn mo') k
  rw [← heq] at ht hv hx hat hct hmt hother
  rw [nodeFields_type] at ht
  rw [valOf_version] at hv
  rw [valOf_text] at hx
  rw [slotOf_eq c _ (.inl rfl)] at hat
  have hname : ∀ name : String, Spec.plain (.str name.toList) = true := fun _ => rfl
  refine ⟨?_, ?_, ?_, ?_, ?_, ?_⟩
  · intro k hk
    by_cases h6 : k ∈ ["type", "version", "text", "attrs", "content", "marks"]
    · simp only [List.mem_cons, List.not_mem_nil, or_false] at h6
      rcases h6 with rfl | rfl | rfl | rfl | rfl | rfl
      · simp [Spec.nodeKeys]
      · rw [hv] at hk
        by_cases hc : c = .doc
        · exact (version_doc c).mpr hc
        · simp [hc, nn] at hk
      · rw [hx] at hk
        by_cases hc : c = .text
        · exact (text_text c).mpr hc
        · simp [hc, nn] at hk
      · rw [hat] at hk
        by_cases hc : "attrs" ∈ Spec.nodeKeys c
        · exact hc
        · simp [hc, attrsVal, nn] at hk
      · rw [hct] at hk
        by_cases hc : "content" ∈ Spec.nodeKeys c
        · exact hc
        · rw [hc1 (by rw [slotOf_eq c _ (.inr (.inl rfl)), if_neg hc])] at hk
          simp [nn] at hk
      · rw [hmt] at hk
        by_cases hc : "marks" ∈ Spec.nodeKeys c
        · exact hc
        · rw [hm1 (by rw [slotOf_eq c _ (.inr (.inr rfl)), if_neg hc])] at hk
          simp [nn] at hk
    · rw [hother k h6] at hk
      simp at hk
  · rintro k v (rfl | rfl | rfl) hdecl hl
    · rw [ht, hl]; exact nn_some_plain (plain_lookup hd0 hl)
    · rw [hv, if_pos ((version_doc c).mp hdecl), hl]; exact nn_some_plain (plain_lookup hd0 hl)
    · rw [hx, if_pos ((text_text c).mp hdecl), hl]; exact nn_some_plain (plain_lookup hd0 hl)
  · intro ad hdecl hl
    rcases attrsStep_ok_cases ha with ⟨rfl, h1 | h1⟩ | ⟨fs, ad', o, hf, had, rfl, hok⟩
    · rw [hl] at h1; simp at h1
    · rw [attrs_declared, h1] at hdecl; simp at hdecl
    · rw [hl] at had
      cases had
      rw [if_pos hdecl] at hat
      refine ⟨removeOptional o.fields, ?_, fun k => ?_⟩
      · rw [hat]; simp [attrsVal, nn, AttrsObj.toDict, Val.isOpt]
      · have hpl : Spec.plainDict ad = true := by
          have := plain_lookup hd0 hl
          simpa [Spec.plain] using this
        rw [attrs_toDict_lookup (attrsFields_nodup c fs hf) (attrsFields_noLit c fs hf) hpl hok]
        simp only [attrsFields_names c fs hf]
  · intro l hdecl hl
    obtain ⟨kids, hp, hs⟩ := (content_slot hk hdecl).2 l hl
    obtain ⟨vs, hvs, ho⟩ := hc4 kids hs
    refine ⟨kids, vs, (parseNodes_registered hp).1, listToDict_forall hvs, ?_⟩
    rw [hct, ho]; simp [nn, Val.isOpt]
  · intro l hdecl hl
    obtain ⟨ms, hp, hs⟩ := (marks_slot hm hdecl).2 l hl
    refine ⟨ms, (parseMarks_registered hp).1, ?_⟩
    rw [hmt, hm4 ms hs]; simp [nn, Val.isOpt]
  · intro k hdecl hl
    refine ⟨?_, ?_, ?_⟩
    · rintro rfl
      refine ⟨c.typeEnum.value, (nodeRegistry_spec _ _).mp c.registered, ?_⟩
      rw [ht, hl]; simp [nn, Val.isOpt]
    · rintro rfl
      rw [hv, if_pos ((version_doc c).mp hdecl), hl]; simp [nn, Val.isOpt]
    · intro hn1 hn2
      have h6 := six_keys c hdecl
      simp only [List.mem_cons, List.not_mem_nil, or_false] at h6
      rcases h6 with rfl | rfl | rfl | rfl | rfl | rfl
      · exact absurd rfl hn1
      · exact absurd rfl hn2
      · rw [hx, if_pos ((text_text c).mp hdecl), hl]; simp [nn, Val.isOpt]
      · rcases attrsStep_ok_cases ha with ⟨rfl, _⟩ | ⟨fs, ad', o, hf, had, rfl, hok⟩
        · rw [hat, if_pos hdecl]; simp [attrsVal, nn, Val.isOpt]
        · rw [hl] at had; simp at had
      · rw [hct, hc2 ((content_slot hk hdecl).1 hl)]; simp [nn, Val.isOpt]
      · rw [hmt, hm2 ((marks_slot hm hdecl).1 hl)]; simp [nn, Val.isOpt]

/-- C05 for marks: the type is kept, every known attribute given in the input keeps its value, no
unknown key appears. -/
theorem C05_mark (v : Val) (m : Mark) (hv : Spec.plain v = true) (h : parseMark v = .ok m) :
    ∃ d', m.toDict = .dict d' ∧ Spec.typeOf m.toDict = Spec.typeOf v ∧
      (∀ k, (lookupKey d' k).isSome → k = "type" ∨ k = "attrs") ∧
      ∀ ad', lookupKey d' "attrs" = some (.dict ad') →
        ∃ d ad, v = .dict d ∧ lookupKey d "attrs" = some (.dict ad) ∧
          ∀ k, (k ∈ Spec.markAttrKeys m.cls → ∀ x, lookupKey ad k = some x →
              lookupKey ad' k = some x) ∧
            (k ∉ Spec.markAttrKeys m.cls → lookupKey ad' k = none) := by
  obtain ⟨d, t, rfl, ht, hr, hm⟩ := parseMark_ok h
  have hd0 : Spec.plainDict d = true := by simpa [Spec.plain] using hv
  obtain ⟨_, h2, h3⟩ := markFromDict_ok hm
  rw [ht] at h2
  simp only [Option.getD_some] at h2
  have hto := isOpt_of_plain (plain_lookup hd0 ht)
  rcases h3 with ⟨hf, ha⟩ | ⟨fs, ad, a, hf, had, hok, ha⟩
  · refine ⟨[("type", t)], ?_, ?_, ?_, ?_⟩
    · simp [Mark.toDict, Mark.attrsEntry, ha, removeOptional, h2, hto]
    · simp [Mark.toDict, Mark.attrsEntry, ha, removeOptional, h2, hto, Spec.typeOf, lookupKey, ht]
    · intro k hk
      by_cases hkt : k = "type"
      · exact .inl hkt
      · simp [lookupKey, Ne.symm hkt] at hk
    · intro ad' had'; simp [lookupKey] at had'
  · refine ⟨[("type", t), ("attrs", .dict a.fields)], ?_, ?_, ?_, ?_⟩
    · simp [Mark.toDict, Mark.attrsEntry, ha, removeOptional, h2, hto,
        show Val.isOpt (.dict a.fields) = false from rfl]
    · simp [Mark.toDict, Mark.attrsEntry, ha, removeOptional, h2, hto, Spec.typeOf, lookupKey, ht]
    · intro k hk
      by_cases hkt : k = "type"
      · exact .inl hkt
      · by_cases hka : k = "attrs"
        · exact .inr hka
        · simp [lookupKey, Ne.symm hkt, Ne.symm hka] at hk
    · intro ad' had'
      simp [lookupKey] at had'
      subst had'
      obtain ⟨_, rfl⟩ := attrsFromDict_ok hok
      refine ⟨d, ad, rfl, had, fun k => ⟨fun hk x hx => ?_, fun hk => ?_⟩⟩
      · rw [← markAttrsFields_names _ fs hf] at hk
        obtain ⟨f, hfm, rfl⟩ := List.mem_map.mp hk
        simp only
        rw [lookup_map_field _ (markAttrsFields_nodup _ fs hf) hfm, fieldValue, hx]
      · rw [← markAttrsFields_names _ fs hf] at hk
        exact lookup_map_field_none _ hk

/-! ## Where the nodes of a tree come from -/

/-- Every node of a parsed tree is itself the result of its class's `from_dict` on plain JSON. -/
theorem within_origin {w : Bool} {v : Val} {n x : Node} (hv : Spec.plain v = true)
    (h : (n.cls.fromDict w v).out = .ok n) (hx : Spec.Within n x) :
    ∃ d, Spec.plainDict d = true ∧ (x.cls.fromDict w (.dict d)).out = .ok x := by
  induction hx with
  | self =>
    cases v with
    | dict d => exact ⟨d, by simpa [Spec.plain] using hv, h⟩
    | _ => simp [NodeCls.fromDict, Res.err] at h
  | child _ hc hm ih =>
    obtain ⟨d, hd, hf⟩ := ih
    obtain ⟨l, hl, hp⟩ := fromDict_child hf hc
    obtain ⟨u, hu, hpu⟩ := parseNodes_mem hp hm
    obtain ⟨du, t, rfl, ht, hr, hfu⟩ := parseNode_ok hpu
    have hpl : Spec.plain (.dict du) = true := by
      have := plain_lookup hd hl
      rw [Spec.plain, plainList_iff] at this
      exact this _ hu
    exact ⟨du, by simpa [Spec.plain] using hpl, hfu⟩

/-! ## C06 -/

/-- C06 fails: the optional attributes of a link mark that were left out come back as the `OPT`
sentinel, inside an otherwise valid document. -/
theorem C06_false : ∃ v n d', Spec.plain v = true ∧ (parseNode true v).out = .ok n ∧
    n.toDict = .ok d' ∧ Spec.plain d' = false := by
  refine ⟨rtExample, _, _, rfl, rfl, rfl, rfl⟩

theorem plainEntry_plain {k : String} {o : Option Val} :
    Spec.plainDict (plainEntry k o) = true ↔ ∀ v, o = some v → Spec.plain v = true := by
  cases o <;> simp [plainEntry, Spec.plainDict]

theorem plainDict_append {a b : List (String × Val)} :
    Spec.plainDict (a ++ b) = true ↔ Spec.plainDict a = true ∧ Spec.plainDict b = true := by
  simp only [plainDict_iff, List.mem_append]
  constructor
  · intro h; exact ⟨fun e he => h e (.inl he), fun e he => h e (.inr he)⟩
  · rintro ⟨h1, h2⟩ e (he | he)
    · exact h1 e he
    · exact h2 e he

theorem fieldValue_plain {d : List (String × Val)} {fs : List Field} (hl : noLit fs)
    (hd : Spec.plainDict d = true) {f : Field} (hf : f ∈ fs) :
    fieldValue d f = .opt ∨ Spec.plain (fieldValue d f) = true := by
  rw [fieldValue_noLit hl hf]
  cases h : lookupKey d f.name with
  | none => exact .inl rfl
  | some v => exact .inr (plain_lookup hd h)

/-- A parsed mark serialises to plain JSON iff none of its attributes was left out. -/
theorem mark_plain_iff {v : Val} {m : Mark} (hv : Spec.plain v = true) (h : parseMark v = .ok m) :
    Spec.plain m.toDict = true ↔ ∀ a, m.attrs = .val a → ∀ e ∈ a.fields, e.2 ≠ .opt := by
  obtain ⟨d, t, rfl, ht, hr, hm⟩ := parseMark_ok h
  have hd0 : Spec.plainDict d = true := by simpa [Spec.plain] using hv
  obtain ⟨_, h2, h3⟩ := markFromDict_ok hm
  rw [ht] at h2
  simp only [Option.getD_some] at h2
  have htp := plain_lookup hd0 ht
  have hto := isOpt_of_plain htp
  rcases h3 with ⟨hf, ha⟩ | ⟨fs, ad, a, hf, had, hok, ha⟩
  · simp [Mark.toDict, Mark.attrsEntry, ha, removeOptional, h2, hto, Spec.plain, Spec.plainDict, htp]
  · have hpl : Spec.plainDict ad = true := by
      have := plain_lookup hd0 had
      simpa [Spec.plain] using this
    obtain ⟨_, rfl⟩ := attrsFromDict_ok hok
    simp only [Mark.toDict, Mark.attrsEntry, ha, removeOptional, h2, List.filter_cons, hto,
      Bool.not_false, if_true, show ∀ l, Val.isOpt (.dict l) = false from fun _ => rfl,
      List.filter_nil, Spec.plain, Spec.plainDict, htp, Bool.true_and, Bool.and_true,
      Slot.val.injEq, forall_eq', plainDict_iff]
    constructor
    · intro h e he heq
      have := h e he
      rw [heq] at this
      simp [Spec.plain] at this
    · intro h e he
      obtain ⟨f, hfm, rfl⟩ := List.mem_map.mp he
      rcases fieldValue_plain (markAttrsFields_noLit _ fs hf) hpl hfm with h1 | h1
      · exact absurd h1 (h _ he)
      · exact h1

theorem within_cases {n x : Node} (h : Spec.Within n x) :
    x = n ∨ ∃ l y, n.content = .val l ∧ y ∈ l ∧ Spec.Within y x := by
  induction h with
  | self => exact .inl rfl
  | @child x y l _ hc hm ih =>
    rcases ih with rfl | ⟨l', z, h1, h2, h3⟩
    · exact .inr ⟨l, y, hc, hm, .self⟩
    · exact .inr ⟨l', z, h1, h2, .child h3 hc hm⟩

theorem listToDict_mem {ns : List Node} {vs : List Val} (h : listToDict ns = .ok vs) :
    (∀ n ∈ ns, ∃ v ∈ vs, n.toDict = .ok v) ∧ (∀ v ∈ vs, ∃ n ∈ ns, n.toDict = .ok v) := by
  have h' := listToDict_forall h
  constructor
  · intro n hn
    have : n.toDict ∈ vs.map Except.ok := by rw [← h']; exact List.mem_map.mpr ⟨n, hn, rfl⟩
    obtain ⟨v, hv, heq⟩ := List.mem_map.mp this
    exact ⟨v, hv, heq.symm⟩
  · intro v hv
    have : (Except.ok v : Except PyErr Val) ∈ ns.map Node.toDict := by
      rw [h']; exact List.mem_map.mpr ⟨v, hv, rfl⟩
    obtain ⟨n, hn, heq⟩ := List.mem_map.mp this
    exact ⟨n, hn, heq⟩

theorem toDict_plain_iff {w : Bool} (n : Node) : ∀ d, Spec.plainDict d = true →
    (n.cls.fromDict w (.dict d)).out = .ok n → ∀ d', n.toDict = .ok d' →
    (Spec.plain d' = true ↔ Spec.MarksFilled n) := by
  induction n using Node.induction with
  | h hd s ih =>
    intro d hdp hf d' hd'
    obtain ⟨co, mo, hce, hme, rfl⟩ := toDict_ok hd'
    simp only [Node.content, Node.hd] at hce hme
    obtain ⟨co', hco', hc1, hc2, hc3, hc4⟩ := contentEntry_ok hce
    obtain ⟨mo', hmo', hm1, hm2, hm3, hm4⟩ := marksEntry_ok hme
    have hco : co' = co := by
      cases co <;> cases co' <;> simp [plainEntry] at hco' ⊢ <;> exact hco'.symm
    have hmo : mo' = mo := by
      cases mo <;> cases mo' <;> simp [plainEntry] at hmo' ⊢ <;> exact hmo'.symm
    subst hco; subst hmo
    obtain ⟨a, k, m, ha, hk, hm, hreq, heq⟩ := nodeFromDict_ok hf
    simp only [Node.cls, Node.hd, Node.mk.injEq] at heq ha
    obtain ⟨hhd, hs⟩ := heq
    generalize hcc : hd.cls = c at *
    have e1 : ∀ v, nn (some hd.type) = some v → Spec.plain v = true := by
      rw [hhd]
      simp only
      rw [nodeFields_type]
      intro v hv
      cases hl : lookupKey d "type" with
      | none => rw [hl] at hv; simp [nn, Val.isOpt] at hv; rw [← hv.1]; rfl
      | some t =>
        rw [hl] at hv
        simp [nn, Option.filter] at hv
        rw [← hv.2]; exact plain_lookup hdp hl
    have e2 : ∀ v, nn hd.version = some v → Spec.plain v = true := by
      rw [hhd]
      simp only
      rw [valOf_version]
      intro v hv
      split at hv
      · cases hl : lookupKey d "version" with
        | none => rw [hl] at hv; simp [nn, Val.isOpt] at hv; rw [← hv.1]; rfl
        | some t =>
          rw [hl] at hv
          simp [nn, Option.filter] at hv
          rw [← hv.2]; exact plain_lookup hdp hl
      · simp [nn] at hv
    have e3 : ∀ v, nn hd.text = some v → Spec.plain v = true := by
      rw [hhd]
      simp only
      rw [valOf_text]
      intro v hv
      split at hv
      · cases hl : lookupKey d "text" with
        | none => rw [hl] at hv; simp [nn, Val.isOpt, Option.filter] at hv
        | some t =>
          rw [hl] at hv
          simp [nn, Option.filter] at hv
          rw [← hv.2]; exact plain_lookup hdp hl
      · simp [nn] at hv
    have e4 : ∀ v, nn (attrsVal hd.attrs) = some v → Spec.plain v = true := by
      rw [hhd]
      simp only
      rw [slotOf_eq c _ (.inl rfl)]
      intro v hv
      split at hv
      · rcases attrsStep_ok_cases ha with ⟨rfl, _⟩ | ⟨fs, ad, o, hf', had, rfl, hok⟩
        · simp [attrsVal, nn, Val.isOpt, Option.filter] at hv
        · simp [attrsVal, nn, AttrsObj.toDict, Val.isOpt] at hv
          obtain ⟨rfl, _⟩ := hv
          have hpl : Spec.plainDict ad = true := by
            have := plain_lookup hdp had
            simpa [Spec.plain] using this
          obtain ⟨_, rfl⟩ := attrsFromDict_ok hok
          rw [Spec.plain, plainDict_iff]
          intro e he
          simp only [removeOptional, List.mem_filter, List.mem_map] at he
          obtain ⟨⟨f, hfm, rfl⟩, hno⟩ := he
          rcases fieldValue_plain (attrsFields_noLit _ fs hf') hpl hfm with h1 | h1
          · rw [h1] at hno; simp [Val.isOpt] at hno
          · exact h1
      · simp [attrsVal, nn] at hv
    -- marks
    have em : (∀ v, nn mo' = some v → Spec.plain v = true) ↔
        ∀ ms, hd.marks = .val ms → ∀ m ∈ ms, ∀ a, m.attrs = .val a → ∀ e ∈ a.fields, e.2 ≠ .opt := by
      cases hmk : hd.marks with
      | absent => rw [hm1 hmk]; simp [nn]
      | opt => rw [hm2 hmk]; simp [nn, Val.isOpt]
      | raw v => rw [hm3 v hmk]; simp [nn, Val.isOpt, Spec.plain, Spec.plainList]
      | val ms =>
        rw [hm4 ms hmk]
        have horig : ∀ m ∈ ms, ∃ v, Spec.plain v = true ∧ parseMark v = .ok m := by
          rw [hhd] at hmk
          simp only at hmk
          rw [slotOf_eq c _ (.inr (.inr rfl))] at hmk
          split at hmk
          · next hdecl =>
            unfold marksStep at hm
            cases hl : lookupKey d "marks" with
            | none => rw [hl] at hm; simp [Res.ok] at hm; subst hm; simp at hmk
            | some v =>
              rw [hl] at hm
              cases v with
              | list l =>
                simp only [Res.map_out] at hm
                cases hp : (parseMarks w l).out with
                | error e => rw [hp] at hm; simp at hm
                | ok ms' =>
                  rw [hp] at hm
                  simp at hm
                  subst hm
                  simp at hmk
                  subst hmk
                  intro m hmem
                  obtain ⟨x, hx, hx'⟩ := parseMarks_mem hp hmem
                  have := plain_lookup hdp hl
                  rw [Spec.plain, plainList_iff] at this
                  exact ⟨x, this x hx, hx'⟩
              | _ => simp [Res.ok] at hm; subst hm; simp [rawSlot] at hmk
          · simp at hmk
        simp only [nn, Option.filter, Val.isOpt, Bool.not_false, if_true, Option.some.injEq,
          forall_eq', Spec.plain, plainList_iff, List.mem_map, forall_exists_index, and_imp,
          forall_apply_eq_imp_iff₂, Slot.val.injEq]
        constructor
        · intro h m hm
          obtain ⟨v, hv1, hv2⟩ := horig m hm
          exact (mark_plain_iff hv1 hv2).mp (h m hm)
        · intro h m hm
          obtain ⟨v, hv1, hv2⟩ := horig m hm
          exact (mark_plain_iff hv1 hv2).mpr (h m hm)
    -- content
    have ec : (∀ v, nn co' = some v → Spec.plain v = true) ↔
        ∀ ns, s = .val ns → ∀ x ∈ ns, Spec.MarksFilled x := by
      cases hsk : s with
      | absent => rw [hc1 hsk]; simp [nn]
      | opt => rw [hc2 hsk]; simp [nn, Val.isOpt]
      | raw v => rw [hc3 v hsk]; simp [nn, Val.isOpt, Spec.plain, Spec.plainList]
      | val ns =>
        obtain ⟨vs, hvs, ho⟩ := hc4 ns hsk
        rw [ho]
        obtain ⟨l, hl, hp⟩ := fromDict_child hf (show (Node.mk hd s).content = .val ns from hsk)
        have horig : ∀ x ∈ ns, ∃ du, Spec.plainDict du = true ∧
            (x.cls.fromDict w (.dict du)).out = .ok x := by
          intro x hx
          exact within_origin (v := .dict d) (by simpa [Spec.plain] using hdp)
            hf
            (.child .self (show (Node.mk hd s).content = .val ns from hsk) hx)
        simp only [nn, Option.filter, Val.isOpt, Bool.not_false, if_true, Option.some.injEq,
          forall_eq', Spec.plain, plainList_iff, Slot.val.injEq]
        constructor
        · intro h x hx
          obtain ⟨v, hv, hxv⟩ := (listToDict_mem hvs).1 x hx
          obtain ⟨du, hdu, hfu⟩ := horig x hx
          exact (ih ns x hsk hx du hdu hfu v hxv).mp (h v hv)
        · intro h v hv
          obtain ⟨x, hx, hxv⟩ := (listToDict_mem hvs).2 v hv
          obtain ⟨du, hdu, hfu⟩ := horig x hx
          exact (ih ns x hsk hx du hdu hfu v hxv).mpr (h x hx)
    have hmf : Spec.MarksFilled (.mk hd s) ↔
        (∀ ms, hd.marks = .val ms → ∀ m ∈ ms, ∀ a, m.attrs = .val a → ∀ e ∈ a.fields, e.2 ≠ .opt) ∧
        ∀ ns, s = .val ns → ∀ x ∈ ns, Spec.MarksFilled x := by
      constructor
      · intro h
        exact ⟨h _ .self, fun ns hs x hx y hy => h y (within_trans (.child .self hs hx) hy)⟩
      · rintro ⟨h1, h2⟩ x hx
        rcases within_cases hx with rfl | ⟨l, y, hl, hy, hxy⟩
        · exact h1
        · exact h2 l hl y hy x hxy
    rw [hmf, ← em, ← ec, Spec.plain, nodeDict]
    simp only [plainDict_append, plainEntry_plain]
    exact ⟨fun h => ⟨h.2, h.1.2⟩, fun h => ⟨⟨⟨⟨⟨e1, e2⟩, e3⟩, e4⟩, h.2⟩, h.1⟩⟩

/-- C06, exactly when it holds: the serialised form of an object parsed from plain JSON is plain
JSON iff no mark in the tree has a left-out attribute (only link, breakout and fragment marks have
optional attributes, see `C06_only_three`). -/
theorem C06_partial (w : Bool) (c : NodeCls) (v d' : Val) (n : Node) (hv : Spec.plain v = true)
    (h : (c.fromDict w v).out = .ok n) (hd' : n.toDict = .ok d') :
    Spec.plain d' = true ↔ Spec.MarksFilled n := by
  have hc := parse_cls h
  subst hc
  obtain ⟨d, hd, hf⟩ := within_origin hv h .self
  exact toDict_plain_iff n d hd hf d' hd'

/-- Only link, breakout and fragment marks can have a left-out attribute. -/
theorem C06_only_three (v : Val) (m : Mark) (a : AttrsObj) (hv : Spec.plain v = true)
    (h : parseMark v = .ok m) (ha : m.attrs = .val a) (hopt : ∃ e ∈ a.fields, e.2 = .opt) :
    m.cls = .link ∨ m.cls = .breakout ∨ m.cls = .fragment := by
  obtain ⟨d, t, rfl, ht, hr, hm⟩ := parseMark_ok h
  have hd0 : Spec.plainDict d = true := by simpa [Spec.plain] using hv
  obtain ⟨_, _, h3⟩ := markFromDict_ok hm
  rcases h3 with ⟨hf, ha'⟩ | ⟨fs, ad, a', hf, had, hok, ha'⟩
  · rw [ha] at ha'; simp at ha'
  · rw [ha] at ha'
    simp at ha'
    subst ha'
    have hpl : Spec.plainDict ad = true := by
      have := plain_lookup hd0 had
      simpa [Spec.plain] using this
    obtain ⟨hreq, rfl⟩ := attrsFromDict_ok hok
    obtain ⟨e, he, heo⟩ := hopt
    obtain ⟨f, hfm, rfl⟩ := List.mem_map.mp he
    rw [fieldValue_noLit (markAttrsFields_noLit _ fs hf) hfm] at heo
    have hnone : lookupKey ad f.name = none := by
      cases hl : lookupKey ad f.name with
      | none => rfl
      | some x =>
        rw [hl] at heo
        have := plain_lookup hpl hl
        simp at heo
        subst heo
        simp [Spec.plain] at this
    have hk : f.name ∈ Spec.markAttrKeys m.cls :=
      (markAttrsFields_names _ fs hf _).mp (List.mem_map.mpr ⟨f, hfm, rfl⟩)
    have hnr : ∀ ks, Spec.requiredMarkAttrs m.cls = some ks → f.name ∉ ks := by
      intro ks hks hin
      have := (mark_attrs_required m.cls).2 fs ks (hasKey ad) hf hks
      rw [hreq] at this
      split at this
      · next hall => have := hall _ hin; simp [hasKey, hnone] at this
      · simp at this
    revert hk hnr
    generalize f.name = nm
    cases m.cls <;> simp [Spec.markAttrKeys, Spec.requiredMarkAttrs, Spec.optionalMarkAttrs] <;>
      (intro h1 h2; rcases h1 with h1 | h1 <;> simp_all)

/-! ## C07, everywhere in the tree -/

/-- C07: in a tree parsed from plain JSON no object lacks a required field: every node has its
required text / attrs / content, every attrs object its required attributes, every mark its required
attributes. -/
theorem C07_complete (w : Bool) (c : NodeCls) (v : Val) (n x : Node) (hv : Spec.plain v = true)
    (h : (c.fromDict w v).out = .ok n) (hx : Spec.Within n x) : Spec.Complete x := by
  have hc := parse_cls h
  subst hc
  obtain ⟨d, hd, hf⟩ := within_origin hv h hx
  obtain ⟨hkeys, _⟩ := (C07_from_dict_iff w x.cls d).mp ⟨x, hf⟩
  obtain ⟨a, k, m, ha, hk, hm, hreq, heq⟩ := nodeFromDict_ok hf
  generalize x.cls = c at *
  subst heq
  simp only [Spec.Complete, Node.cls, Node.hd, Node.content]
  refine ⟨?_, ?_, ?_, ?_, ?_⟩
  · intro ht
    have := hkeys _ ht
    rw [valOf_text]
    have hct : c = .text := (text_text c).mp (by simp [Spec.nodeKeys, ht])
    rw [if_pos hct]
    cases hl : lookupKey d "text" with
    | none => rw [hl] at this; simp at this
    | some t =>
      refine ⟨t, rfl, ?_⟩
      rintro rfl
      have := plain_lookup hd hl
      simp [Spec.plain] at this
  · intro ht
    have := hkeys _ ht
    have hdecl : "attrs" ∈ Spec.nodeKeys c := by simp [Spec.nodeKeys, ht]
    rw [slotOf_eq c _ (.inl rfl), if_pos hdecl]
    rcases attrsStep_ok_cases ha with ⟨rfl, h1 | h1⟩ | ⟨fs, ad', o, hf, had, rfl, hok⟩
    · rw [h1] at this; simp at this
    · rw [attrs_declared, h1] at hdecl; simp at hdecl
    · exact ⟨o, rfl⟩
  · intro ht
    have := hkeys _ ht
    have hdecl : "content" ∈ Spec.nodeKeys c := by simp [Spec.nodeKeys, ht]
    rw [slotOf_eq c _ (.inr (.inl rfl)), if_pos hdecl]
    rw [contentStep_eq] at hk
    cases hl : lookupKey d "content" with
    | none => rw [hl] at this; simp at this
    | some v =>
      rw [hl] at hk
      have hv := plain_lookup hd hl
      cases v with
      | list l =>
        simp only [Res.map_out] at hk
        cases hp : (parseNodes w l).out with
        | error e => rw [hp] at hk; simp at hk
        | ok ms => rw [hp] at hk; simp at hk; subst hk; simp
      | opt => simp [Spec.plain] at hv
      | _ => simp [Res.ok] at hk; subst hk; simp [rawSlot]
  · intro a' ha' j hj
    rw [slotOf_eq c _ (.inl rfl)] at ha'
    split at ha'
    · rcases attrsStep_ok_cases ha with ⟨rfl, _⟩ | ⟨fs, ad, o, hf', had, rfl, hok⟩
      · simp at ha'
      · simp at ha'
        subst ha'
        have hpl : Spec.plainDict ad = true := by
          have := plain_lookup hd had
          simpa [Spec.plain] using this
        obtain ⟨hr, rfl⟩ := attrsFromDict_ok hok
        obtain ⟨hs, hreqs⟩ := node_attrs_required c
        rw [hf'] at hs
        cases hra : Spec.requiredAttrs c with
        | none => rw [hra] at hs; simp at hs
        | some ks =>
          rw [hra] at hj
          simp at hj
          have hjf : j ∈ names fs := by
            rw [attrsFields_names c fs hf', Spec.attrKeys, hra]; simp [hj]
          obtain ⟨f, hfm, rfl⟩ := List.mem_map.mp hjf
          rw [hreqs fs ks _ hf' hra] at hr
          split at hr
          · next hall =>
            have := hall _ hj
            simp only [hasKey] at this
            rw [lookup_map_field _ (attrsFields_nodup c fs hf') hfm,
              fieldValue_noLit (attrsFields_noLit c fs hf') hfm]
            cases hl : lookupKey ad f.name with
            | none => rw [hl] at this; simp at this
            | some x =>
              refine ⟨x, rfl, ?_⟩
              rintro rfl
              have := plain_lookup hpl hl
              simp [Spec.plain] at this
          · simp at hr
    · simp at ha'
  · intro ms hms mk hmk j hj
    rw [slotOf_eq c _ (.inr (.inr rfl))] at hms
    split at hms
    · next hdecl =>
      unfold marksStep at hm
      cases hl : lookupKey d "marks" with
      | none => rw [hl] at hm; simp [Res.ok] at hm; subst hm; simp at hms
      | some v =>
        rw [hl] at hm
        cases v with
        | list l =>
          simp only [Res.map_out] at hm
          cases hp : (parseMarks w l).out with
          | error e => rw [hp] at hm; simp at hm
          | ok ms' =>
            rw [hp] at hm
            simp at hm
            subst hm
            simp at hms
            subst hms
            obtain ⟨u, hu, hpu⟩ := parseMarks_mem hp hmk
            have hplu : Spec.plain u = true := by
              have := plain_lookup hd hl
              rw [Spec.plain, plainList_iff] at this
              exact this u hu
            obtain ⟨du, t, rfl, ht, hr, hmm⟩ := parseMark_ok hpu
            have hdu : Spec.plainDict du = true := by simpa [Spec.plain] using hplu
            obtain ⟨_, _, h3⟩ := markFromDict_ok hmm
            rcases h3 with ⟨hf', _⟩ | ⟨fs, ad, o, hf', had, hok, hma⟩
            · have hs := (mark_attrs_required mk.cls).1
              rw [hf'] at hs
              cases hra : Spec.requiredMarkAttrs mk.cls with
              | none => rw [hra] at hj; simp at hj
              | some ks => rw [hra] at hs; simp at hs
            · have hpl : Spec.plainDict ad = true := by
                have := plain_lookup hdu had
                simpa [Spec.plain] using this
              obtain ⟨hreq', rfl⟩ := attrsFromDict_ok hok
              cases hra : Spec.requiredMarkAttrs mk.cls with
              | none => rw [hra] at hj; simp at hj
              | some ks =>
                rw [hra] at hj
                simp at hj
                have hjf : j ∈ names fs := by
                  rw [markAttrsFields_names _ fs hf', Spec.markAttrKeys, hra]; simp [hj]
                obtain ⟨f, hfm, rfl⟩ := List.mem_map.mp hjf
                rw [(mark_attrs_required mk.cls).2 fs ks _ hf' hra] at hreq'
                split at hreq'
                · next hall =>
                  have := hall _ hj
                  simp only [hasKey] at this
                  refine ⟨_, _, hma, lookup_map_field _ (markAttrsFields_nodup _ fs hf') hfm, ?_⟩
                  rw [fieldValue_noLit (markAttrsFields_noLit _ fs hf') hfm]
                  cases hl : lookupKey ad f.name with
                  | none => rw [hl] at this; simp at this
                  | some x =>
                    simp only [Option.getD_some]
                    rintro rfl
                    have := plain_lookup hpl hl
                    simp [Spec.plain] at this
                · simp at hreq'
        | _ => simp [Res.ok] at hm; subst hm; simp [rawSlot] at hms
    · simp at hms

example : ∃ n, (parseNode true rtExample).out = .ok n ∧ ∃ x, Spec.Within n x ∧ x.cls = .text :=
  ⟨_, rfl, _, .child (.child .self rfl (by simp; left; rfl)) rfl (by simp; rfl), rfl⟩

example : True := by
  obtain ⟨n, hn, hc, d', hd'⟩ : ∃ n, (NodeCls.doc.fromDict true rtExample).out = .ok n ∧ Spec.Converted n ∧
      ∃ d', n.toDict = .ok (.dict d') := ⟨_, rfl, converted_of_noRaw rfl, _, rfl⟩
  have := C05_idempotent true .doc rtExample n rfl hn hc
  have := C05_fields true .doc _ d' n rfl hn hd'
  have := C06_partial true .doc rtExample _ n rfl hn hd'
  have := C07_complete true .doc rtExample n n rfl hn .self
  trivial

example : True := by
  obtain ⟨m, a, hm, ha, ho⟩ : ∃ m a, parseMark (.dict [("attrs", .dict [("href", .str "u".toList)]), ("type", .str "link".toList)]) = .ok m ∧
      m.attrs = .val a ∧ ∃ e ∈ a.fields, e.2 = .opt := ⟨_, _, rfl, rfl, _, .tail _ (.head _), rfl⟩
  have := C05_mark _ m rfl hm
  have := C06_only_three _ m a rfl hm ha ho
  trivial

end Verif.Props
