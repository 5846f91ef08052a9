import Verif.Lemmas.Errors
import Verif.Props.Registry
import Verif.Lemmas.Schema
/-!
# C01, C08, C09, C10: what parsing keeps, skips, logs and raises
-/

namespace Verif.Props
open Verif

/-! ## C10 -/

theorem hashable_iff {t : Val} : t.hashable = true ↔ (∀ l, t ≠ .list l) ∧ ∀ d, t ≠ .dict d := by
  cases t <;> simp [Val.hashable]

/-- C10: `parse_node` raises UnimplementedTypeError exactly when the JSON is an object whose own
`type` is hashable and not a supported type string; it then carries that type and category. -/
theorem C10_unimplemented_iff (w : Bool) (v t : Val) (cat : String) :
    (parseNode w v).out = .error (.unimplementedType t cat) ↔
      Spec.typeOf v = some t ∧ ((∀ l, t ≠ .list l) ∧ ∀ d, t ≠ .dict d) ∧
      (∀ name c, (name, c) ∈ Spec.nodeTypes → t ≠ .str name.toList) ∧ cat = "node" := by
  cases v with
  | dict d =>
    rw [parseNode_dict]
    simp only [Spec.typeOf]
    cases ht : lookupKey d "type" with
    | none => simp [Res.err]
    | some t' =>
      simp only [Option.some.injEq]
      cases hl : registryLookup nodeRegistry t' with
      | error e =>
        have := registryLookup_error hl
        simp only [Res.err, this.1, Except.error.injEq, reduceCtorEq, false_iff]
        rintro ⟨rfl, hh, _⟩
        rw [← hashable_iff, this.2] at hh
        simp at hh
      | ok o =>
        cases o with
        | none =>
          have := registryLookup_none.mp hl
          simp only [Res.err, Except.error.injEq, PyErr.unimplementedType.injEq]
          constructor
          · rintro ⟨rfl, rfl⟩
            refine ⟨rfl, hashable_iff.mp this.1, ?_, rfl⟩
            intro name c hm
            obtain ⟨te, hv, hm⟩ := nodeTypes_enum hm
            rw [← hv]
            exact this.2 te c hm
          · rintro ⟨rfl, _, _, rfl⟩
            exact ⟨rfl, rfl⟩
        | some c =>
          obtain ⟨te, hm, he⟩ := registryLookup_some hl
          simp only
          constructor
          · intro h
            have := nodeFromDict_error h fun e he => contentStep_error_shape he
            simp [PyErr.isShape] at this
          · rintro ⟨rfl, _, h, _⟩
            exact absurd he (h te.value c ((nodeRegistry_spec te c).mp hm))
  | _ => simp [parseNode, Res.err, Spec.typeOf]

/-- C10: a class's `from_dict` never raises UnimplementedTypeError: whatever it raises is a
KeyError, TypeError or ParamError. -/
theorem C10_from_dict_errors (w : Bool) (c : NodeCls) (v : Val) (e : PyErr)
    (h : (c.fromDict w v).out = .error e) : e = .keyError ∨ e = .typeError ∨ e = .paramError := by
  have : e.isShape = true := by
    cases v with
    | dict d => exact nodeFromDict_error h fun e he => contentStep_error_shape he
    | _ => simp [NodeCls.fromDict, Res.err] at h; subst h; rfl
  cases e <;> simp [PyErr.isShape] at this <;> simp

/-- C10: every other failure of `parse_node` is a KeyError, TypeError or ParamError. -/
theorem C10_parse_node_errors (w : Bool) (v : Val) (e : PyErr)
    (h : (parseNode w v).out = .error e) :
    e = .keyError ∨ e = .typeError ∨ e = .paramError ∨
      ∃ t, e = .unimplementedType t "node" ∧ Spec.typeOf v = some t := by
  by_cases hu : e.isUnimplemented
  · cases e with
    | unimplementedType t cat =>
      have := (C10_unimplemented_iff w v t cat).mp h
      exact .inr (.inr (.inr ⟨t, by rw [this.2.2.2], this.1⟩))
    | _ => simp [PyErr.isUnimplemented] at hu
  · have := parseNode_error v e h (by simpa using hu)
    cases e <;> simp [PyErr.isShape] at this <;> simp

/-- C10 for marks. -/
theorem C10_mark_unimplemented_iff (v t : Val) (cat : String) :
    parseMark v = .error (.unimplementedType t cat) ↔
      Spec.typeOf v = some t ∧ ((∀ l, t ≠ .list l) ∧ ∀ d, t ≠ .dict d) ∧
      (∀ name c, (name, c) ∈ Spec.markTypes → t ≠ .str name.toList) ∧ cat = "mark" := by
  cases v with
  | dict d =>
    simp only [parseMark, Spec.typeOf]
    cases ht : lookupKey d "type" with
    | none => simp
    | some t' =>
      simp only [Option.some.injEq]
      cases hl : registryLookup markRegistry t' with
      | error e =>
        have := registryLookup_error hl
        simp only [this.1, Except.error.injEq, reduceCtorEq, false_iff]
        rintro ⟨rfl, hh, _⟩
        rw [← hashable_iff, this.2] at hh
        simp at hh
      | ok o =>
        cases o with
        | none =>
          have := registryLookup_none.mp hl
          simp only [Except.error.injEq, PyErr.unimplementedType.injEq]
          constructor
          · rintro ⟨rfl, rfl⟩
            refine ⟨rfl, hashable_iff.mp this.1, ?_, rfl⟩
            intro name c hm
            obtain ⟨te, hv, hm⟩ := markTypes_enum hm
            rw [← hv]
            exact this.2 te c hm
          · rintro ⟨rfl, _, _, rfl⟩
            exact ⟨rfl, rfl⟩
        | some c =>
          obtain ⟨te, hm, he⟩ := registryLookup_some hl
          simp only
          constructor
          · intro h
            have := markFromDict_error h
            simp [PyErr.isShape] at this
          · rintro ⟨rfl, _, h, _⟩
            exact absurd he (h te.value c ((markRegistry_spec te c).mp hm))
  | _ => simp [parseMark, Spec.typeOf]

example : (parseNode true (.dict [("type", .str "layoutSection".toList)])).out =
    .error (.unimplementedType (.str "layoutSection".toList) "node") := rfl
example : (parseNode true (.dict [("text", .str "x".toList)])).out = .error .keyError := rfl
example : (parseNode true (.dict [("type", .list [])])).out = .error .typeError := rfl
example : (parseNode true (.dict [("type", .str "text".toList)])).out = .error .paramError := rfl

/-! ## Registered entries -/

theorem registered_of_ok {w : Bool} {v : Val} {n : Node} (h : (parseNode w v).out = .ok n) :
    Spec.registeredNode v = true := by
  obtain ⟨name, h1, h2, _⟩ := C03_parse_node_class w v n h
  simp only [Spec.registeredNode, h1, List.any_eq_true]
  exact ⟨_, h2, by simp⟩

theorem not_registered_of_unimplemented {w : Bool} {v t : Val} {c : String}
    (h : (parseNode w v).out = .error (.unimplementedType t c)) :
    Spec.registeredNode v = false ∧ Spec.typeOf v = some t ∧ c = "node" := by
  obtain ⟨h1, _, h3, h4⟩ := (C10_unimplemented_iff w v t c).mp h
  refine ⟨?_, h1, h4⟩
  rw [Bool.eq_false_iff]
  intro hr
  simp only [Spec.registeredNode, h1] at hr
  split at hr
  · next s hs =>
    simp only [Option.some.injEq] at hs
    simp only [List.any_eq_true] at hr
    obtain ⟨⟨name, c⟩, hm, he⟩ := hr
    rw [toList_beq_iff] at he
    exact h3 name c hm (by rw [hs, he])
  · simp at hr

theorem mark_registered_of_ok {v : Val} {n : Mark} (h : parseMark v = .ok n) :
    Spec.registeredMark v = true := by
  obtain ⟨name, h1, h2, _⟩ := C03_parse_mark_class v n h
  simp only [Spec.registeredMark, h1, List.any_eq_true]
  exact ⟨_, h2, by simp⟩

theorem mark_not_registered_of_unimplemented {v t : Val} {c : String}
    (h : parseMark v = .error (.unimplementedType t c)) :
    Spec.registeredMark v = false ∧ Spec.typeOf v = some t ∧ c = "mark" := by
  obtain ⟨h1, _, h3, h4⟩ := (C10_mark_unimplemented_iff v t c).mp h
  refine ⟨?_, h1, h4⟩
  rw [Bool.eq_false_iff]
  intro hr
  simp only [Spec.registeredMark, h1] at hr
  split at hr
  · next s hs =>
    simp only [Option.some.injEq] at hs
    simp only [List.any_eq_true] at hr
    obtain ⟨⟨name, c⟩, hm, he⟩ := hr
    rw [toList_beq_iff] at he
    exact h3 name c hm (by rw [hs, he])
  · simp at hr

/-- A successfully parsed list: the objects are the parses of its registered entries, in order. -/
theorem parseNodes_registered {w : Bool} {l : List Val} {ns : List Node}
    (h : (parseNodes w l).out = .ok ns) :
    (l.filter Spec.registeredNode).map (fun v => (parseNode w v).out) = ns.map .ok ∧
    ∀ v ∈ l, Spec.registeredNode v = false →
      ∃ t, (parseNode w v).out = .error (.unimplementedType t "node") := by
  obtain ⟨h1, rfl⟩ := (parseNodes_ok_iff w l ns).mp h
  constructor
  · clear h
    induction l with
    | nil => rfl
    | cons v vs ih =>
      have ih := ih fun v hv => h1 v (List.mem_cons_of_mem _ hv)
      rcases h1 v (by simp) with ⟨n, hn⟩ | ⟨t, c, hn⟩
      · have hr := registered_of_ok hn
        rw [List.filter_cons, if_pos hr, List.map_cons, List.filterMap_cons]
        simp only [hn, List.map_cons, ih]
      · have hr := (not_registered_of_unimplemented hn).1
        rw [List.filter_cons, if_neg (by simp [hr]), List.filterMap_cons]
        simp only [hn, ih]
  · intro v hv hr
    rcases h1 v hv with ⟨n, hn⟩ | ⟨t, c, hn⟩
    · rw [registered_of_ok hn] at hr; simp at hr
    · exact ⟨t, by rw [hn, (not_registered_of_unimplemented hn).2.2]⟩

theorem parseMarks_registered {w : Bool} {l : List Val} {ms : List Mark}
    (h : (parseMarks w l).out = .ok ms) :
    (l.filter Spec.registeredMark).map parseMark = ms.map .ok ∧
    ∀ v ∈ l, Spec.registeredMark v = false →
      ∃ t, parseMark v = .error (.unimplementedType t "mark") := by
  obtain ⟨h1, rfl⟩ := (parseMarks_ok_iff w l ms).mp h
  constructor
  · clear h
    induction l with
    | nil => rfl
    | cons v vs ih =>
      have ih := ih fun v hv => h1 v (List.mem_cons_of_mem _ hv)
      rcases h1 v (by simp) with ⟨n, hn⟩ | ⟨t, c, hn⟩
      · have hr := mark_registered_of_ok hn
        rw [List.filter_cons, if_pos hr, List.map_cons, List.filterMap_cons]
        simp only [hn, List.map_cons, ih]
      · have hr := (mark_not_registered_of_unimplemented hn).1
        rw [List.filter_cons, if_neg (by simp [hr]), List.filterMap_cons]
        simp only [hn, ih]
  · intro v hv hr
    rcases h1 v hv with ⟨n, hn⟩ | ⟨t, c, hn⟩
    · rw [mark_registered_of_ok hn] at hr; simp at hr
    · exact ⟨t, by rw [hn, (mark_not_registered_of_unimplemented hn).2.2]⟩

/-- What a successful `from_dict` is made of. -/
theorem nodeFromDict_ok {w : Bool} {c : NodeCls} {d : List (String × Val)}
    {r : Res (Option (Slot (List Node)))} {n : Node} (h : (nodeFromDict w c d r).out = .ok n) :
    ∃ a k m, attrsStep c.attrsFields d = .ok a ∧ r.out = .ok k ∧ (marksStep w d).out = .ok m ∧
      checkRequired c.fields (hasKey d) = .ok () ∧
      n = .mk { cls := c
                type := (valOf c.fields "type" d).getD .opt
                version := valOf c.fields "version" d
                text := valOf c.fields "text" d
                attrs := slotOf c.fields "attrs" (a.map Slot.val)
                marks := slotOf c.fields "marks" m }
              (slotOf c.fields "content" k) := by
  unfold nodeFromDict at h
  obtain ⟨a, h1, h⟩ := Res.bind_out_ok h
  obtain ⟨k, h2, h⟩ := Res.bind_out_ok h
  obtain ⟨m, h3, h⟩ := Res.bind_out_ok h
  obtain ⟨u, h4, h⟩ := Res.bind_out_ok h
  simp only [Res.ok, Except.ok.injEq] at h
  exact ⟨a, k, m, h1, h2, h3, h4, h.symm⟩

/-! ## C01 -/

/-- C01 (content): for every class with a `content` field and every JSON object whose `content` is a
list, a successful parse has as children exactly the parses of the entries with a supported type, in
order; every other entry is one with an unsupported type. -/
theorem C01_content (w : Bool) (c : NodeCls) (d : List (String × Val)) (l : List Val) (n : Node)
    (hl : lookupKey d "content" = some (.list l)) (hc : "content" ∈ Spec.nodeKeys c)
    (h : (c.fromDict w (.dict d)).out = .ok n) :
    ∃ kids, n.content = .val kids ∧
      (l.filter Spec.registeredNode).map (fun v => (parseNode w v).out) = kids.map .ok ∧
      ∀ v ∈ l, Spec.registeredNode v = false →
        ∃ t, (parseNode w v).out = .error (.unimplementedType t "node") := by
  obtain ⟨a, k, m, _, hk, _, _, rfl⟩ := nodeFromDict_ok h
  rw [contentStep_eq, hl] at hk
  simp only [Res.map_out] at hk
  split at hk
  · simp at hk
  · next ns hns =>
    simp only [Except.ok.injEq] at hk
    subst hk
    refine ⟨ns, ?_, parseNodes_registered hns⟩
    simp only [Node.content, slotOf]
    split
    · next hd =>
      rw [← nodeFields_names, ← fieldDflt_isSome_iff, hd] at hc; simp at hc
    · rfl

/-- C01 (marks). -/
theorem C01_marks (w : Bool) (c : NodeCls) (d : List (String × Val)) (l : List Val) (n : Node)
    (hl : lookupKey d "marks" = some (.list l)) (hc : "marks" ∈ Spec.nodeKeys c)
    (h : (c.fromDict w (.dict d)).out = .ok n) :
    ∃ ms, n.hd.marks = .val ms ∧
      (l.filter Spec.registeredMark).map parseMark = ms.map .ok ∧
      ∀ v ∈ l, Spec.registeredMark v = false →
        ∃ t, parseMark v = .error (.unimplementedType t "mark") := by
  obtain ⟨a, k, m, _, _, hm, _, rfl⟩ := nodeFromDict_ok h
  unfold marksStep at hm
  rw [hl] at hm
  simp only [Res.map_out] at hm
  split at hm
  · simp at hm
  · next ns hns =>
    simp only [Except.ok.injEq] at hm
    subst hm
    refine ⟨ns, ?_, parseMarks_registered hns⟩
    simp only [Node.hd, slotOf]
    split
    · next hd =>
      rw [← nodeFields_names, ← fieldDflt_isSome_iff, hd] at hc; simp at hc
    · rfl

/-! ### Deleting the unsupported elements beforehand changes nothing -/

theorem lookup_pruneDict (d : List (String × Val)) (k : String) :
    lookupKey (Spec.pruneDict d) k = (lookupKey d k).map fun v =>
      match v with
      | .list l =>
        if k = "content" then .list (Spec.pruneList l)
        else if k = "marks" then .list (l.filter Spec.registeredMark)
        else .list l
      | v => v := by
  induction d with
  | nil => simp [Spec.pruneDict, lookupKey]
  | cons e rest ih =>
    obtain ⟨k', v⟩ := e
    by_cases hk : k' = k
    · subst hk
      cases v <;> simp [Spec.pruneDict, lookupKey]
    · cases v <;> simp [Spec.pruneDict, lookupKey, hk, ih]

theorem hasKey_pruneDict (d : List (String × Val)) (k : String) :
    hasKey (Spec.pruneDict d) k = hasKey d k := by
  simp [hasKey, lookup_pruneDict]

theorem attrsStep_pruneDict (afs : Option (List Field)) (d : List (String × Val)) :
    attrsStep afs (Spec.pruneDict d) = attrsStep afs d := by
  unfold attrsStep
  rw [lookup_pruneDict]
  cases lookupKey d "attrs" with
  | none => rfl
  | some v =>
    cases v <;> rfl

theorem fieldValue_pruneDict (d : List (String × Val)) (f : Field) (h1 : f.name ≠ "content")
    (h2 : f.name ≠ "marks") : fieldValue (Spec.pruneDict d) f = fieldValue d f := by
  unfold fieldValue
  rw [lookup_pruneDict]
  cases lookupKey d f.name with
  | none => rfl
  | some v => cases v <;> simp [h1, h2]

theorem valOf_pruneDict (fs : List Field) (name : String) (d : List (String × Val))
    (h1 : name ≠ "content") (h2 : name ≠ "marks") :
    valOf fs name (Spec.pruneDict d) = valOf fs name d := by
  unfold valOf
  split
  · rfl
  · next f hf =>
    have hn : f.name = name := by simpa using List.find?_some hf
    rw [fieldValue_pruneDict] <;> rw [hn] <;> assumption

theorem parseMarks_filter {w : Bool} {l : List Val} {ms : List Mark}
    (h : (parseMarks w l).out = .ok ms) :
    parseMarks w (l.filter Spec.registeredMark) = ⟨[], .ok ms⟩ := by
  induction l generalizing ms with
  | nil => simp [parseMarks, Res.ok] at h; subst h; rfl
  | cons v vs ih =>
    rw [parseMarks] at h
    obtain ⟨o, h1, h2⟩ := Res.bind_out_ok h
    rw [Res.map_out] at h2
    split at h2
    · simp at h2
    · next ms' hms =>
      simp only [Except.ok.injEq] at h2
      subst h2
      have ih := ih hms
      rw [Res.skip_out] at h1
      split at h1
      · next m hm =>
        simp only [Except.ok.injEq] at h1
        subst h1
        have hm' : parseMark v = .ok m := hm
        rw [List.filter_cons, if_pos (mark_registered_of_ok hm'), parseMarks, ih]
        simp [Res.ofExcept, hm', Res.skipUnimplemented, Res.bind, Res.map, Res.ok]
      · next t c hm =>
        simp only [Except.ok.injEq] at h1
        subst h1
        have hm' : parseMark v = .error _ := hm
        rw [List.filter_cons, if_neg (by simp [(mark_not_registered_of_unimplemented hm').1]), ih]
        rfl
      · simp at h1

theorem marksStep_prune {w : Bool} {d : List (String × Val)} {m : Option (Slot (List Mark))}
    (h : (marksStep w d).out = .ok m) : marksStep w (Spec.pruneDict d) = ⟨[], .ok m⟩ := by
  unfold marksStep at h ⊢
  rw [lookup_pruneDict]
  cases hv : lookupKey d "marks" with
  | none => rw [hv] at h; simp [Res.ok] at h ⊢; exact h
  | some v =>
    rw [hv] at h
    cases v with
    | list l =>
      simp only [Res.map_out] at h
      split at h
      · simp at h
      · next ms hms =>
        simp only [Except.ok.injEq] at h
        subst h
        simp [parseMarks_filter hms, Res.map, Res.bind, Res.ok]
    | _ => simp [Res.ok] at h ⊢; exact h

theorem nodeFromDict_prune {w : Bool} {c : NodeCls} {d : List (String × Val)}
    {r r' : Res (Option (Slot (List Node)))} {n : Node}
    (h : (nodeFromDict w c d r).out = .ok n)
    (hr : ∀ k, r.out = .ok k → r' = ⟨[], .ok k⟩) :
    nodeFromDict w c (Spec.pruneDict d) r' = ⟨[], .ok n⟩ := by
  obtain ⟨a, k, m, h1, h2, h3, h4, rfl⟩ := nodeFromDict_ok h
  unfold nodeFromDict
  rw [hr k h2, marksStep_prune h3, attrsStep_pruneDict, h1]
  have : (hasKey (Spec.pruneDict d)) = hasKey d := funext (hasKey_pruneDict d)
  rw [this, h4]
  simp [Res.bind, Res.ofExcept, Res.ok, valOf_pruneDict]

theorem parseNodes_prune {w : Bool} {l : List Val} {ns : List Node}
    (hl : ∀ v ∈ l, ∀ n, (parseNode w v).out = .ok n → parseNode w (Spec.prune v) = ⟨[], .ok n⟩)
    (h : (parseNodes w l).out = .ok ns) :
    parseNodes w (Spec.pruneList l) = ⟨[], .ok ns⟩ := by
  induction l generalizing ns with
  | nil => simp [parseNodes, Res.ok] at h; subst h; rw [Spec.pruneList]; rfl
  | cons v vs ih =>
    rw [parseNodes] at h
    obtain ⟨o, h1, h2⟩ := Res.bind_out_ok h
    rw [Res.map_out] at h2
    split at h2
    · simp at h2
    · next ms' hms =>
      simp only [Except.ok.injEq] at h2
      subst h2
      have ih := ih (fun v hv => hl v (List.mem_cons_of_mem _ hv)) hms
      rw [Res.skip_out] at h1
      rw [Spec.pruneList]
      split at h1
      · next m hm =>
        simp only [Except.ok.injEq] at h1
        subst h1
        rw [if_pos (registered_of_ok hm), parseNodes, ih, hl v (by simp) m hm]
        simp [Res.skipUnimplemented, Res.bind, Res.map, Res.ok]
      · next t c hm =>
        simp only [Except.ok.injEq] at h1
        subst h1
        rw [if_neg (by simp [(not_registered_of_unimplemented hm).1]), ih]
        rfl
      · simp at h1

theorem contentStep_prune {w : Bool} {d : List (String × Val)} {k : Option (Slot (List Node))}
    (hl : ∀ l, lookupKey d "content" = some (.list l) → ∀ v ∈ l, ∀ n,
      (parseNode w v).out = .ok n → parseNode w (Spec.prune v) = ⟨[], .ok n⟩)
    (h : (contentStep w d).out = .ok k) : contentStep w (Spec.pruneDict d) = ⟨[], .ok k⟩ := by
  rw [contentStep_eq] at h ⊢
  rw [lookup_pruneDict]
  cases hv : lookupKey d "content" with
  | none => rw [hv] at h; simp [Res.ok] at h ⊢; exact h
  | some v =>
    rw [hv] at h
    cases v with
    | list l =>
      simp only [Res.map_out] at h
      split at h
      · simp at h
      · next ms hms =>
        simp only [Except.ok.injEq] at h
        subst h
        simp [parseNodes_prune (hl l hv) hms, Res.map, Res.bind, Res.ok]
    | _ => simp [Res.ok] at h ⊢; exact h

/-- C01 (any depth): removing every unsupported element of every `content` and `marks` list, at any
depth, before parsing yields the same object, now without any warning. -/
theorem C01_prune (w : Bool) (v : Val) (n : Node) (h : (parseNode w v).out = .ok n) :
    parseNode w (Spec.prune v) = ⟨[], .ok n⟩ := by
  revert n
  induction v using Val.contentInduction with
  | h v ih =>
    intro n h
    cases v with
    | dict d =>
      rw [parseNode_dict] at h
      rw [Spec.prune, parseNode_dict, lookup_pruneDict]
      cases ht : lookupKey d "type" with
      | none => rw [ht] at h; simp [Res.err] at h
      | some t =>
        rw [ht] at h
        simp only at h
        split at h
        · simp [Res.err] at h
        · simp [Res.err] at h
        · next c hc =>
          have hs : t = .str c.typeEnum.value.toList := by
            obtain ⟨te, hm, he⟩ := registryLookup_some hc
            rw [← nodeRegistry_typeEnum hm]; exact he
          subst hs
          simp only [Option.map_some, hc]
          exact nodeFromDict_prune h fun k hk =>
            contentStep_prune (fun l hl v hv => ih d l v rfl hl hv) hk
    | _ => simp [parseNode, Res.err] at h

/-- A document with an unsupported block and an unsupported mark: parses to the paragraph only. -/
def skipExample : Val := .dict
  [("type", .str "doc".toList), ("version", .int 1), ("content", .list
    [ .dict [("type", .str "layoutSection".toList)],
      .dict [("type", .str "paragraph".toList), ("content", .list
        [.dict [("type", .str "text".toList), ("text", .str "hi".toList), ("marks", .list
          [.dict [("type", .str "blink".toList)], .dict [("type", .str "strong".toList)]])]])] ])]

example : ∃ n, (parseNode true skipExample).out = .ok n ∧
    ∃ p, n.content = .val [p] ∧ p.cls = .paragraph := ⟨_, rfl, _, rfl, rfl⟩

/-! ## C08 -/

/-- C08: the flag changes neither the returned object nor the exception. -/
theorem C08_flag_irrelevant (w w' : Bool) (v : Val) :
    (parseNode w v).out = (parseNode w' v).out := parseNode_out w w' v

theorem C08_flag_irrelevant_from_dict (w w' : Bool) (c : NodeCls) (v : Val) :
    (c.fromDict w v).out = (c.fromDict w' v).out := by
  cases v with
  | dict d => exact nodeFromDict_out (contentStep_out w w' d)
  | _ => rfl

theorem Res.bind_log_nil {α β : Type} {x : Res α} {f : α → Res β} (hx : x.log = [])
    (hf : ∀ a, x.out = .ok a → (f a).log = []) : (x.bind f).log = [] := by
  unfold Res.bind
  split
  · exact hx
  · next a ha => simp [hx, hf a ha]

theorem parseMarks_log_false (l : List Val) : (parseMarks false l).log = [] := by
  induction l with
  | nil => rfl
  | cons v vs ih =>
    rw [parseMarks]
    refine Res.bind_log_nil ?_ fun a _ => by rw [Res.map_log, ih]
    unfold Res.skipUnimplemented
    split <;> simp [Res.ofExcept]

theorem nodeFromDict_log_false {c : NodeCls} {d : List (String × Val)}
    {r : Res (Option (Slot (List Node)))} (hr : r.log = []) :
    (nodeFromDict false c d r).log = [] := by
  unfold nodeFromDict
  refine Res.bind_log_nil rfl fun a _ => Res.bind_log_nil hr fun k _ => Res.bind_log_nil ?_
    fun m _ => Res.bind_log_nil rfl fun u _ => rfl
  unfold marksStep
  split
  · rfl
  · rw [Res.map_log, parseMarks_log_false]
  · rfl

theorem parseNodes_log_false {l : List Val} (hl : ∀ v ∈ l, (parseNode false v).log = []) :
    (parseNodes false l).log = [] := by
  induction l with
  | nil => rfl
  | cons v vs ih =>
    rw [parseNodes]
    refine Res.bind_log_nil ?_ fun a _ => by
      rw [Res.map_log, ih fun v hv => hl v (List.mem_cons_of_mem _ hv)]
    unfold Res.skipUnimplemented
    split <;> simp [hl v (by simp)]

/-- C08: with the flag off nothing is ever logged. -/
theorem C08_silent (v : Val) : (parseNode false v).log = [] := by
  induction v using Val.contentInduction with
  | h v ih =>
    cases v with
    | dict d =>
      rw [parseNode_dict]
      split
      · rfl
      · split
        · rfl
        · rfl
        · refine nodeFromDict_log_false ?_
          rw [contentStep_eq]
          split
          · rfl
          · next l hl => rw [Res.map_log, parseNodes_log_false fun v hv => ih d l v rfl hl hv]
          · rfl
    | _ => rfl

theorem contentWarnings_eq (d : List (String × Val)) :
    Spec.contentWarnings d = match lookupKey d "content" with
      | some (.list l) => Spec.listWarnings l
      | _ => [] := by
  induction d with
  | nil => simp [Spec.contentWarnings, lookupKey]
  | cons e rest ih =>
    obtain ⟨k, v⟩ := e
    by_cases hk : k = "content"
    · cases v <;> simp [Spec.contentWarnings, lookupKey, hk]
    · cases v <;> simp [Spec.contentWarnings, lookupKey, hk, ih]

theorem parseMarks_log {l : List Val} {ms : List Mark} (h : (parseMarks true l).out = .ok ms) :
    (parseMarks true l).log = l.filterMap fun m =>
      if Spec.registeredMark m then none else some ⟨(Spec.typeOf m).getD .none, "mark"⟩ := by
  induction l generalizing ms with
  | nil => rfl
  | cons v vs ih =>
    rw [parseMarks] at h
    obtain ⟨o, h1, h2⟩ := Res.bind_out_ok h
    rw [Res.map_out] at h2
    split at h2
    · simp at h2
    · next ms' hms =>
      have ih := ih hms
      rw [Res.skip_out] at h1
      rw [parseMarks, List.filterMap_cons]
      split at h1
      · next m hm =>
        have hm' : parseMark v = .ok m := hm
        simp [mark_registered_of_ok hm', Res.bind, Res.skipUnimplemented, Res.ofExcept, hm',
          Res.map_log, ih]
      · next t c hm =>
        have hm' : parseMark v = .error _ := hm
        obtain ⟨h3, h4, h5⟩ := mark_not_registered_of_unimplemented hm'
        simp [h3, h4, h5, Res.bind, Res.skipUnimplemented, Res.ofExcept, hm', Res.map_log, ih]
      · simp at h1

theorem parseNodes_log {l : List Val} {ns : List Node}
    (hl : ∀ v ∈ l, ∀ n, (parseNode true v).out = .ok n → (parseNode true v).log = Spec.warnings v)
    (h : (parseNodes true l).out = .ok ns) :
    (parseNodes true l).log = Spec.listWarnings l := by
  induction l generalizing ns with
  | nil => rw [Spec.listWarnings]; rfl
  | cons v vs ih =>
    rw [parseNodes] at h
    obtain ⟨o, h1, h2⟩ := Res.bind_out_ok h
    rw [Res.map_out] at h2
    split at h2
    · simp at h2
    · next ms' hms =>
      have ih := ih (fun v hv => hl v (List.mem_cons_of_mem _ hv)) hms
      rw [Res.skip_out] at h1
      rw [parseNodes, Spec.listWarnings]
      split at h1
      · next m hm =>
        simp [registered_of_ok hm, Res.bind, Res.skipUnimplemented, hm, Res.map_log, ih,
          hl v (by simp) m hm]
      · next t c hm =>
        obtain ⟨h3, h4, h5⟩ := not_registered_of_unimplemented hm
        have hlog : (parseNode true v).log = [] := by
          cases v with
          | dict d =>
            rw [parseNode_dict] at hm ⊢
            split
            · rfl
            · next t' ht =>
              simp only [ht] at hm
              split
              · rfl
              · rfl
              · next c' hc =>
                simp only [hc] at hm
                have := nodeFromDict_error hm fun e he => contentStep_error_shape he
                simp [PyErr.isShape] at this
          | _ => rfl
        simp [h3, h4, h5, Res.bind, Res.skipUnimplemented, hm, Res.map_log, ih, hlog]
      · simp at h1

/-- C08: with the flag on, a successful parse logs exactly the expected warnings: one per skipped
element, in document order. -/
theorem C08_warnings (v : Val) (n : Node) (h : (parseNode true v).out = .ok n) :
    (parseNode true v).log = Spec.warnings v := by
  revert n
  induction v using Val.contentInduction with
  | h v ih =>
    intro n h
    cases v with
    | dict d =>
      rw [parseNode_dict] at h ⊢
      cases ht : lookupKey d "type" with
      | none => rw [ht] at h; simp [Res.err] at h
      | some t =>
        rw [ht] at h
        simp only at h ⊢
        split at h
        · simp [Res.err] at h
        · simp [Res.err] at h
        · next c hc =>
          obtain ⟨a, k, m, h1, h2, h3, h4, rfl⟩ := nodeFromDict_ok h
          rw [Spec.warnings, contentWarnings_eq]
          have hcl : (contentStep true d).log = match lookupKey d "content" with
              | some (.list l) => Spec.listWarnings l
              | _ => [] := by
            rw [contentStep_eq] at h2 ⊢
            cases hv : lookupKey d "content" with
            | none => rfl
            | some v =>
              rw [hv] at h2
              cases v with
              | list l =>
                simp only [Res.map_out] at h2
                split at h2
                · simp at h2
                · next ns hns =>
                  simp only [Res.map_log]
                  exact parseNodes_log (fun v hx n => ih d l v rfl hv hx n) hns
              | _ => rfl
          have hml : (marksStep true d).log = match lookupKey d "marks" with
              | some (.list l) => l.filterMap fun m =>
                  if Spec.registeredMark m then none
                  else some ⟨(Spec.typeOf m).getD .none, "mark"⟩
              | _ => [] := by
            unfold marksStep at h3 ⊢
            cases hv : lookupKey d "marks" with
            | none => rfl
            | some v =>
              rw [hv] at h3
              cases v with
              | list l =>
                simp only [Res.map_out] at h3
                split at h3
                · simp at h3
                · next ns hns =>
                  simp only [Res.map_log]
                  exact parseMarks_log hns
              | _ => rfl
          unfold nodeFromDict
          rw [Res.bind_of_ok h1, Res.bind_of_ok h2, Res.bind_of_ok h3, Res.bind_of_ok h4]
          simp only [Res.ofExcept, Res.ok, List.nil_append, List.append_nil]
          rw [hcl, hml]
          cases lookupKey d "marks" with
          | none => rfl
          | some v => cases v <;> rfl
    | _ => simp [parseNode, Res.err] at h

example : (parseNode true skipExample).log =
    [⟨.str "layoutSection".toList, "node"⟩, ⟨.str "blink".toList, "mark"⟩] := rfl
example : (parseNode false skipExample).log = [] := rfl

/-! ## C09 -/

theorem parseNodes_first_error {w : Bool} {pre post : List Val} {v : Val} {e : PyErr}
    (hpre : ∀ x ∈ pre, (∃ n, (parseNode w x).out = .ok n) ∨
      ∃ t c, (parseNode w x).out = .error (.unimplementedType t c))
    (hv : (parseNode w v).out = .error e) (he : e.isUnimplemented = false) :
    (parseNodes w (pre ++ v :: post)).out = .error e := by
  induction pre with
  | nil =>
    rw [List.nil_append, parseNodes, Res.bind_out, Res.skip_out, hv]
    cases e <;> first | rfl | simp [PyErr.isUnimplemented] at he
  | cons x xs ih =>
    have ih := ih fun y hy => hpre y (List.mem_cons_of_mem _ hy)
    rw [List.cons_append, parseNodes, Res.bind_out, Res.skip_out]
    rcases hpre x (by simp) with ⟨n, hn⟩ | ⟨t, c, hn⟩ <;> simp [hn, Res.map_out, ih]

theorem parseMarks_first_error {w : Bool} {pre post : List Val} {v : Val} {e : PyErr}
    (hpre : ∀ x ∈ pre, (∃ n, parseMark x = .ok n) ∨
      ∃ t c, parseMark x = .error (.unimplementedType t c))
    (hv : parseMark v = .error e) (he : e.isUnimplemented = false) :
    (parseMarks w (pre ++ v :: post)).out = .error e := by
  induction pre with
  | nil =>
    rw [List.nil_append, parseMarks, Res.bind_out, Res.skip_out, Res.ofExcept, hv]
    cases e <;> first | rfl | simp [PyErr.isUnimplemented] at he
  | cons x xs ih =>
    have ih := ih fun y hy => hpre y (List.mem_cons_of_mem _ hy)
    rw [List.cons_append, parseMarks, Res.bind_out, Res.skip_out]
    rcases hpre x (by simp) with ⟨n, hn⟩ | ⟨t, c, hn⟩ <;> simp [Res.ofExcept, hn, Res.map_out, ih]

/-! ### The theorems on samples -/

example := C10_from_dict_errors true .text (.dict [("type", .str "text".toList)]) .paramError rfl

example := C10_parse_node_errors true (.dict [("type", .str "layoutSection".toList)]) _ rfl

example : True := by
  obtain ⟨n, hn⟩ : ∃ n, (NodeCls.doc.fromDict true skipExample).out = .ok n := ⟨_, rfl⟩
  have := C01_content true .doc _ _ n rfl (by decide) hn
  trivial

example : True := by
  obtain ⟨n, hn⟩ : ∃ n, (NodeCls.text.fromDict true (.dict [("text", .str "hi".toList), ("marks", .list
    [.dict [("type", .str "blink".toList)], .dict [("type", .str "strong".toList)]])])).out = .ok n := ⟨_, rfl⟩
  have := C01_marks true .text _ _ n rfl (by decide) hn
  trivial

example : True := by
  obtain ⟨n, hn⟩ : ∃ n, (parseNode true skipExample).out = .ok n := ⟨_, rfl⟩
  have := C01_prune true skipExample n hn
  have := C08_warnings skipExample n hn
  trivial

/-- C10: a value that is not a dict is refused with a TypeError by every way in, with nothing logged before. -/
theorem C10_not_a_dict (w : Bool) (c : NodeCls) (mc : MarkCls) (v : Val) (hv : ∀ d, v ≠ .dict d) :
    parseNode w v = ⟨[], .error .typeError⟩ ∧ c.fromDict w v = ⟨[], .error .typeError⟩ ∧
      parseMark v = .error .typeError ∧ mc.fromDict v = .error .typeError := by
  cases v with
  | dict d => exact absurd rfl (hv d)
  | _ => refine ⟨?_, rfl, rfl, rfl⟩ <;> rw [parseNode] <;> first | rfl | (intro d h; cases h)

example : ∀ d, Val.list [.dict [("type", .str "text".toList)]] ≠ .dict d := by intro d h; cases h

end Verif.Props
