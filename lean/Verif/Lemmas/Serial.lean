import Verif.Props.UnknownKeys
import Verif.Model.ToDict
/-!
# Lemmas about serialisation
-/

namespace Verif
open Verif.Props

/-! ## Plain JSON -/

theorem plain_lookup {d : List (String × Val)} {k : String} {v : Val}
    (hd : Spec.plainDict d = true) (h : lookupKey d k = some v) : Spec.plain v = true := by
  induction d with
  | nil => simp [lookupKey] at h
  | cons e rest ih =>
    obtain ⟨k', v'⟩ := e
    simp only [Spec.plainDict, Bool.and_eq_true] at hd
    simp only [lookupKey] at h
    split at h
    · simp at h; subst h; exact hd.1
    · exact ih hd.2 h

theorem plain_mem {l : List Val} {v : Val} (hl : Spec.plainList l = true) (h : v ∈ l) :
    Spec.plain v = true := by
  induction l with
  | nil => simp at h
  | cons x xs ih =>
    simp only [Spec.plainList, Bool.and_eq_true] at hl
    rcases List.mem_cons.mp h with rfl | h
    · exact hl.1
    · exact ih hl.2 h

theorem plainList_iff {l : List Val} : Spec.plainList l = true ↔ ∀ v ∈ l, Spec.plain v = true := by
  induction l with
  | nil => simp [Spec.plainList]
  | cons x xs ih => simp [Spec.plainList, ih]

theorem plainDict_iff {d : List (String × Val)} :
    Spec.plainDict d = true ↔ ∀ e ∈ d, Spec.plain e.2 = true := by
  induction d with
  | nil => simp [Spec.plainDict]
  | cons x xs ih => simp [Spec.plainDict, ih]

theorem isOpt_of_plain {v : Val} (h : Spec.plain v = true) : v.isOpt = false := by
  cases v <;> first | rfl | simp [Spec.plain] at h

theorem isOpt_iff {v : Val} : v.isOpt = true ↔ v = .opt := by
  cases v <;> simp [Val.isOpt]

/-! ## Lookups in serialised dicts -/

/-- A value unless it is the sentinel. -/
def nn (o : Option Val) : Option Val := o.filter fun v => !v.isOpt

theorem lookup_plainEntry (n k : String) (o : Option Val) :
    lookupKey (plainEntry n o) k = if n = k then o else none := by
  cases o <;> simp [plainEntry, lookupKey]

theorem removeOptional_append (a b : List (String × Val)) :
    removeOptional (a ++ b) = removeOptional a ++ removeOptional b := by
  simp [removeOptional]

theorem removeOptional_plainEntry (n : String) (o : Option Val) :
    removeOptional (plainEntry n o) = plainEntry n (nn o) := by
  cases o with
  | none => rfl
  | some v => cases h : v.isOpt <;> simp [removeOptional, plainEntry, nn, h, Option.filter]

theorem lookup_filter (p : String × Val → Bool) (l : List (String × Val))
    (h : (l.map (·.1)).Nodup) (k : String) :
    lookupKey (l.filter p) k = (lookupKey l k).filter fun v => p (k, v) := by
  induction l with
  | nil => rfl
  | cons e rest ih =>
    obtain ⟨k', v'⟩ := e
    simp only [List.map_cons, List.nodup_cons] at h
    have ih := ih h.2
    have hnone : k' = k → lookupKey rest k = none := by
      rintro rfl
      cases hl : lookupKey rest k' with
      | none => rfl
      | some v => exact absurd (List.mem_map.mpr ⟨_, lookupKey_mem hl, rfl⟩) h.1
    by_cases hk : k' = k
    · subst hk
      by_cases hp : p (k', v') = true
      · simp [hp, lookupKey, Option.filter]
      · simp [hp, lookupKey, ih, hnone, Option.filter]
    · by_cases hp : p (k', v') = true
      · simp [hp, lookupKey, hk, ih]
      · simp [hp, lookupKey, hk, ih]

theorem lookup_removeOptional (l : List (String × Val)) (h : (l.map (·.1)).Nodup) (k : String) :
    lookupKey (removeOptional l) k = nn (lookupKey l k) := lookup_filter _ l h k

/-! ## Attrs -/

theorem lookup_map_field {fs : List Field} (g : Field → Val) (hn : (names fs).Nodup)
    {f : Field} (hf : f ∈ fs) :
    lookupKey (fs.map fun f => (f.name, g f)) f.name = some (g f) := by
  induction fs with
  | nil => simp at hf
  | cons x xs ih =>
    simp only [names, List.map_cons, List.nodup_cons] at hn
    simp only [List.map_cons, lookupKey]
    rcases List.mem_cons.mp hf with rfl | hf'
    · simp
    · rw [if_neg, ih hn.2 hf']
      intro heq
      exact hn.1 (List.mem_map.mpr ⟨f, hf', heq.symm⟩)

theorem lookup_map_field_none {fs : List Field} (g : Field → Val) {k : String}
    (hk : k ∉ names fs) : lookupKey (fs.map fun f => (f.name, g f)) k = none := by
  induction fs with
  | nil => rfl
  | cons x xs ih =>
    simp only [names, List.map_cons, List.mem_cons, not_or] at hk
    simp only [List.map_cons, lookupKey]
    rw [if_neg (Ne.symm hk.1), ih hk.2]

theorem attrsFromDict_ok {fs : List Field} {d : List (String × Val)} {a : AttrsObj}
    (h : attrsFromDict fs (.dict d) = .ok a) :
    checkRequired fs (hasKey d) = .ok () ∧ a = ⟨fs.map fun f => (f.name, fieldValue d f)⟩ := by
  simp only [attrsFromDict] at h
  split at h
  · simp at h
  · next hc => simp at h; exact ⟨hc, h.symm⟩

/-- No attrs field has a literal default. -/
def noLit (fs : List Field) : Prop := ∀ f ∈ fs, ∀ v, f.dflt ≠ .lit v

theorem attrsFields_noLit (c : NodeCls) (fs : List Field) (h : c.attrsFields = some fs) :
    noLit fs := by
  cases c <;> simp only [NodeCls.attrsFields, Option.some.injEq, reduceCtorEq] at h <;> subst h <;>
    simp [noLit, optFields, reqFields]

theorem markAttrsFields_noLit (c : MarkCls) (fs : List Field) (h : c.attrsFields = some fs) :
    noLit fs := by
  cases c <;> simp only [MarkCls.attrsFields, Option.some.injEq, reduceCtorEq] at h <;> subst h <;>
    simp [noLit, optFields, reqFields]

theorem fieldValue_noLit {fs : List Field} (hl : noLit fs) {f : Field} (hf : f ∈ fs)
    (d : List (String × Val)) : fieldValue d f = (lookupKey d f.name).getD .opt := by
  unfold fieldValue
  cases lookupKey d f.name with
  | some v => rfl
  | none =>
    cases hd : f.dflt with
    | lit v => exact absurd hd (hl f hf v)
    | _ => rfl

/-- Serialised attrs have exactly the known keys of the original, with their values. -/
theorem attrs_toDict_lookup {fs : List Field} {d : List (String × Val)} {a : AttrsObj}
    (hn : (names fs).Nodup) (hl : noLit fs) (hd : Spec.plainDict d = true)
    (h : attrsFromDict fs (.dict d) = .ok a) (k : String) :
    lookupKey (removeOptional a.fields) k = if k ∈ names fs then lookupKey d k else none := by
  obtain ⟨_, rfl⟩ := attrsFromDict_ok h
  rw [lookup_removeOptional _ (by simpa [names, Function.comp_def] using hn)]
  split
  · next hk =>
    obtain ⟨f, hf, rfl⟩ := List.mem_map.mp hk
    rw [lookup_map_field _ hn hf, fieldValue_noLit hl hf]
    cases hv : lookupKey d f.name with
    | none => simp [nn, Val.isOpt]
    | some v => simp [nn, isOpt_of_plain (plain_lookup hd hv)]
  · next hk => rw [lookup_map_field_none _ hk]; rfl

theorem attrs_roundtrip {fs : List Field} {d : List (String × Val)} {a : AttrsObj}
    (hn : (names fs).Nodup) (hl : noLit fs) (hd : Spec.plainDict d = true)
    (h : attrsFromDict fs (.dict d) = .ok a) : attrsFromDict fs a.toDict = .ok a := by
  rw [AttrsObj.toDict, ← h]
  refine attrsFromDict_congr fun k hk => ?_
  rw [attrs_toDict_lookup hn hl hd h, if_pos hk]

theorem checkRequired_mono {fs : List Field} {g g' : String → Bool}
    (h : checkRequired fs g = .ok ())
    (hg : ∀ f ∈ fs, (f.dflt.isReq = true ∨ f.dflt.isNoDefault = true) → g f.name = true →
      g' f.name = true) : checkRequired fs g' = .ok () := by
  rw [checkRequired_eq] at h ⊢
  split at h
  · simp at h
  · next h1 =>
    split at h
    · simp at h
    · next h2 =>
      rw [if_neg, if_neg]
      · rintro ⟨f, hf, hr, hg'⟩
        refine h2 ⟨f, hf, hr, ?_⟩
        cases hh : g f.name with
        | false => rfl
        | true => rw [hg f hf (.inl hr) hh] at hg'; simp at hg'
      · rintro ⟨f, hf, hr, hg'⟩
        refine h1 ⟨f, hf, hr, ?_⟩
        cases hh : g f.name with
        | false => rfl
        | true => rw [hg f hf (.inr hr) hh] at hg'; simp at hg'

/-- A mark's attrs serialise with all fields, sentinels included, and parse back. -/
theorem markAttrs_roundtrip {fs : List Field} {d : List (String × Val)} {a : AttrsObj}
    (hn : (names fs).Nodup)
    (h : attrsFromDict fs (.dict d) = .ok a) : attrsFromDict fs (.dict a.fields) = .ok a := by
  obtain ⟨hc, rfl⟩ := attrsFromDict_ok h
  have hlk : ∀ f ∈ fs, lookupKey (fs.map fun f => (f.name, fieldValue d f)) f.name =
      some (fieldValue d f) := fun f hf => lookup_map_field _ hn hf
  simp only [attrsFromDict]
  rw [checkRequired_mono hc fun f hf _ _ => by simp [hasKey, hlk f hf]]
  simp only [Except.ok.injEq, AttrsObj.mk.injEq]
  refine List.map_congr_left fun f hf => ?_
  conv => lhs; rw [fieldValue, hlk f hf]

/-! ## Marks -/

theorem attrsStep_ok_cases {afs : Option (List Field)} {d : List (String × Val)}
    {o : Option AttrsObj} (h : attrsStep afs d = .ok o) :
    (o = none ∧ (lookupKey d "attrs" = none ∨ afs = none)) ∨
    ∃ fs ad a, afs = some fs ∧ lookupKey d "attrs" = some (.dict ad) ∧ o = some a ∧
      attrsFromDict fs (.dict ad) = .ok a := by
  unfold attrsStep at h
  cases hv : lookupKey d "attrs" with
  | none => rw [hv] at h; simp at h; exact .inl ⟨h.symm, .inl rfl⟩
  | some v =>
    rw [hv] at h
    cases afs with
    | none => simp at h; exact .inl ⟨h.symm, .inr rfl⟩
    | some fs =>
      right
      simp only at h
      cases v with
      | dict ad =>
        cases ha : attrsFromDict fs (.dict ad) with
        | error e => rw [ha] at h; simp at h
        | ok a => rw [ha] at h; simp at h; exact ⟨fs, ad, a, rfl, rfl, h.symm, ha⟩
      | _ => simp [attrsFromDict] at h

theorem markFields_attrs (c : MarkCls) :
    fieldDflt c.fields "attrs" = if c.attrsFields.isSome then some .req else none := by
  cases c <;> rfl

theorem markFields_type (c : MarkCls) (d : List (String × Val)) :
    valOf c.fields "type" d =
      some ((lookupKey d "type").getD (.str c.typeEnum.value.toList)) := by
  cases h : lookupKey d "type" <;> simp [valOf, MarkCls.fields, fieldValue, h]

theorem nodeFields_type (c : NodeCls) (d : List (String × Val)) :
    valOf c.fields "type" d =
      some ((lookupKey d "type").getD (.str c.typeEnum.value.toList)) := by
  cases h : lookupKey d "type" <;> simp [valOf, NodeCls.fields, fieldValue, h]

/-- Shape of a mark produced by `from_dict`. -/
theorem markFromDict_ok {c : MarkCls} {d : List (String × Val)} {m : Mark}
    (h : markFromDict c d = .ok m) :
    m.cls = c ∧ m.type = (lookupKey d "type").getD (.str c.typeEnum.value.toList) ∧
    ((c.attrsFields = none ∧ m.attrs = .absent) ∨
     ∃ fs ad a, c.attrsFields = some fs ∧ lookupKey d "attrs" = some (.dict ad) ∧
       attrsFromDict fs (.dict ad) = .ok a ∧ m.attrs = .val a) := by
  unfold markFromDict at h
  split at h
  · simp at h
  · next o ho =>
    rw [mark_required] at h
    split at h
    · simp at h
    · next hc =>
      simp at h
      subst h
      refine ⟨rfl, by rw [markFields_type]; rfl, ?_⟩
      cases hf : c.attrsFields with
      | none => left; simp [slotOf, markFields_attrs, hf]
      | some fs =>
        right
        rcases attrsStep_ok_cases ho with ⟨_, h1 | h1⟩ | ⟨fs', ad, a, h1, h2, h3, h4⟩
        · simp [hf, hasKey, h1] at hc
        · rw [hf] at h1; simp at h1
        · rw [hf] at h1; cases h1
          exact ⟨fs, ad, a, rfl, h2, h4, by simp [slotOf, markFields_attrs, hf, h3]⟩

theorem mark_roundtrip {c : MarkCls} {d : List (String × Val)} {m : Mark}
    (hd : Spec.plainDict d = true) (h : markFromDict c d = .ok m) :
    ∃ d', m.toDict = .dict d' ∧ markFromDict c d' = .ok m ∧ lookupKey d' "type" = some m.type := by
  obtain ⟨rfl, h2, h3⟩ := markFromDict_ok h
  have ht : m.type.isOpt = false := by
    rw [h2]
    cases hv : lookupKey d "type" with
    | none => rfl
    | some v => exact isOpt_of_plain (plain_lookup hd hv)
  obtain ⟨c, t, at_⟩ := m
  simp only at h2 h3 ht
  rcases h3 with ⟨hf, ha⟩ | ⟨fs, ad, a, hf, had, hok, ha⟩
  · simp only [Mark.toDict, Mark.attrsEntry, ha, removeOptional, List.filter, ht, Bool.not_false,
      Val.dict.injEq, exists_eq_left']
    refine ⟨?_, by simp [lookupKey]⟩
    simp [markFromDict, attrsStep, hf, lookupKey, mark_required, markFields_type, slotOf,
      markFields_attrs]
  · simp only [Mark.toDict, Mark.attrsEntry, ha, removeOptional, List.filter, ht, Bool.not_false,
      show Val.isOpt (.dict a.fields) = false from rfl, Val.dict.injEq, exists_eq_left']
    refine ⟨?_, by simp [lookupKey]⟩
    simp [markFromDict, attrsStep, hf, lookupKey, mark_required, markFields_type, slotOf,
      markFields_attrs, hasKey,
      markAttrs_roundtrip (markAttrsFields_nodup _ _ hf) hok]

/-- `parse_mark` in terms of the class found. -/
theorem parseMark_ok {v : Val} {m : Mark} (h : parseMark v = .ok m) :
    ∃ d t, v = .dict d ∧ lookupKey d "type" = some t ∧
      registryLookup markRegistry t = .ok (some m.cls) ∧ markFromDict m.cls d = .ok m := by
  cases v with
  | dict d =>
    simp only [parseMark] at h
    split at h
    · simp at h
    · next t ht =>
      split at h
      · simp at h
      · simp at h
      · next c hc =>
        have := (markFromDict_ok h).1
        exact ⟨d, t, rfl, ht, by rw [this]; exact hc, by rw [this]; exact h⟩
  | _ => simp [parseMark] at h

theorem parseMark_roundtrip {v : Val} {m : Mark} (hv : Spec.plain v = true)
    (h : parseMark v = .ok m) : parseMark m.toDict = .ok m := by
  obtain ⟨d, t, rfl, ht, hr, hm⟩ := parseMark_ok h
  have hd : Spec.plainDict d = true := by simpa [Spec.plain] using hv
  obtain ⟨d', hd', hok, ht'⟩ := mark_roundtrip hd hm
  have htt : m.type = t := by rw [(markFromDict_ok hm).2.1, ht]; rfl
  rw [hd']
  simp only [parseMark, ht', htt, hr, hok]

theorem parseMarks_roundtrip {w : Bool} {ms : List Mark}
    (h : ∀ m ∈ ms, parseMark m.toDict = .ok m) : parseMarks w (ms.map Mark.toDict) = ⟨[], .ok ms⟩ := by
  induction ms with
  | nil => rfl
  | cons m ms ih =>
    have ih := ih fun x hx => h x (List.mem_cons_of_mem _ hx)
    simp [parseMarks, h m (by simp), Res.ofExcept, Res.skipUnimplemented, Res.bind, Res.map, ih,
      Res.ok]

theorem parseMarks_mem {w : Bool} {l : List Val} {ms : List Mark}
    (h : (parseMarks w l).out = .ok ms) {m : Mark} (hm : m ∈ ms) : ∃ v ∈ l, parseMark v = .ok m := by
  obtain ⟨_, rfl⟩ := (parseMarks_ok_iff w l ms).mp h
  obtain ⟨v, hv, heq⟩ := List.mem_filterMap.mp hm
  refine ⟨v, hv, ?_⟩
  split at heq
  · next n hn => simp at heq; subst heq; exact hn
  · simp at heq

theorem parseNodes_mem {w : Bool} {l : List Val} {ms : List Node}
    (h : (parseNodes w l).out = .ok ms) {m : Node} (hm : m ∈ ms) :
    ∃ v ∈ l, (parseNode w v).out = .ok m := by
  obtain ⟨_, rfl⟩ := (parseNodes_ok_iff w l ms).mp h
  obtain ⟨v, hv, heq⟩ := List.mem_filterMap.mp hm
  refine ⟨v, hv, ?_⟩
  split at heq
  · next n hn => simp at heq; subst heq; exact hn
  · simp at heq

/-- `parse_node` in terms of the class found. -/
theorem parseNode_ok {w : Bool} {v : Val} {n : Node} (h : (parseNode w v).out = .ok n) :
    ∃ d t, v = .dict d ∧ lookupKey d "type" = some t ∧
      registryLookup nodeRegistry t = .ok (some n.cls) ∧
      (n.cls.fromDict w v).out = .ok n := by
  cases v with
  | dict d =>
    rw [parseNode_dict] at h
    split at h
    · simp [Res.err] at h
    · next t ht =>
      split at h
      · simp [Res.err] at h
      · simp [Res.err] at h
      · next c hc =>
        obtain ⟨a, k, m, _, _, _, _, heq⟩ := nodeFromDict_ok h
        have : n.cls = c := by rw [heq]; rfl
        exact ⟨d, t, rfl, ht, by rw [this]; exact hc, by rw [this]; exact h⟩
  | _ => simp [parseNode, Res.err] at h

/-! ## Nodes -/

/-- The value stored in the serialised dict for an attrs slot. -/
def attrsVal : Slot AttrsObj → Option Val
  | .absent => none
  | .opt => some .opt
  | .raw v => some v
  | .val a => some a.toDict

theorem nodeAttrsEntry_eq (s : Slot AttrsObj) : nodeAttrsEntry s = plainEntry "attrs" (attrsVal s) := by
  cases s <;> rfl

/-- The six possible entries of a serialised node. -/
def nodeDict (t v x a c m : Option Val) : List (String × Val) :=
  plainEntry "type" t ++ plainEntry "version" v ++ plainEntry "text" x ++ plainEntry "attrs" a ++
    plainEntry "content" c ++ plainEntry "marks" m

theorem nodeDict_lookup (t v x a c m : Option Val) :
    lookupKey (nodeDict t v x a c m) "type" = t ∧
    lookupKey (nodeDict t v x a c m) "version" = v ∧
    lookupKey (nodeDict t v x a c m) "text" = x ∧
    lookupKey (nodeDict t v x a c m) "attrs" = a ∧
    lookupKey (nodeDict t v x a c m) "content" = c ∧
    lookupKey (nodeDict t v x a c m) "marks" = m := by
  simp only [nodeDict, lookup_append, lookup_plainEntry]
  refine ⟨?_, ?_, ?_, ?_, ?_, ?_⟩ <;> simp <;>
    first
      | (cases t <;> simp)
      | (cases v <;> simp)
      | (cases x <;> simp)
      | (cases a <;> simp)
      | (cases c <;> simp)
      | (cases m <;> simp)

theorem nodeDict_lookup_other (t v x a c m : Option Val) {k : String}
    (h : k ∉ ["type", "version", "text", "attrs", "content", "marks"]) :
    lookupKey (nodeDict t v x a c m) k = none := by
  simp only [List.mem_cons, List.not_mem_nil, or_false, not_or] at h
  obtain ⟨h1, h2, h3, h4, h5, h6⟩ := h
  simp [nodeDict, lookup_append, lookup_plainEntry, Ne.symm h1, Ne.symm h2, Ne.symm h3, Ne.symm h4,
    Ne.symm h5, Ne.symm h6]

/-- Serialising a node whose content and marks entries are known. -/
theorem toDict_eq {hd : Hd} {content : Slot (List Node)} {c m : Option Val}
    (hc : contentEntry content = .ok (plainEntry "content" c))
    (hm : marksEntry hd.marks = .ok (plainEntry "marks" m)) :
    (Node.mk hd content).toDict = .ok (.dict (nodeDict (nn (some hd.type)) (nn hd.version)
      (nn hd.text) (nn (attrsVal hd.attrs)) (nn c) (nn m))) := by
  rw [Node.toDict]
  simp only [hc, hm]
  rw [show (("type", hd.type) :: (plainEntry "version" hd.version ++ plainEntry "text" hd.text ++
    nodeAttrsEntry hd.attrs ++ plainEntry "content" c ++ plainEntry "marks" m)) =
    plainEntry "type" (some hd.type) ++ (plainEntry "version" hd.version ++
      plainEntry "text" hd.text ++ nodeAttrsEntry hd.attrs ++ plainEntry "content" c ++
      plainEntry "marks" m) from rfl]
  simp only [removeOptional_append, nodeAttrsEntry_eq, removeOptional_plainEntry, nodeDict,
    List.append_assoc]

end Verif
