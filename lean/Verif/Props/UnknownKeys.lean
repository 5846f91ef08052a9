import Verif.Props.Required
/-!
# C02: unknown keys are ignored
-/

namespace Verif.Props
open Verif

theorem lookup_append_cons (pre post : List (String × Val)) (k j : String) (x : Val) :
    lookupKey (pre ++ (k, x) :: post) j =
      match lookupKey pre j with
      | some v => some v
      | none => if k = j then some x else lookupKey post j := by
  induction pre with
  | nil => simp [lookupKey]
  | cons e rest ih =>
    obtain ⟨k', v'⟩ := e
    simp only [List.cons_append, lookupKey]
    split
    · rfl
    · exact ih

theorem lookup_append (pre post : List (String × Val)) (j : String) :
    lookupKey (pre ++ post) j =
      match lookupKey pre j with
      | some v => some v
      | none => lookupKey post j := by
  induction pre with
  | nil => simp [lookupKey]
  | cons e rest ih =>
    obtain ⟨k', v'⟩ := e
    simp only [List.cons_append, lookupKey]
    split
    · rfl
    · exact ih

theorem lookup_insert_ne {pre post : List (String × Val)} {k j : String} {x : Val} (h : k ≠ j) :
    lookupKey (pre ++ (k, x) :: post) j = lookupKey (pre ++ post) j := by
  rw [lookup_append_cons, lookup_append, if_neg h]

theorem lookup_replace_ne {pre post : List (String × Val)} {k j : String} {x y : Val} (h : k ≠ j) :
    lookupKey (pre ++ (k, x) :: post) j = lookupKey (pre ++ (k, y) :: post) j := by
  rw [lookup_insert_ne h, lookup_insert_ne h]

theorem lookup_replace_self (pre post : List (String × Val)) (k : String) (x y : Val) :
    (lookupKey (pre ++ (k, x) :: post) k = lookupKey (pre ++ (k, y) :: post) k) ∨
    (lookupKey (pre ++ (k, x) :: post) k = some x ∧
      lookupKey (pre ++ (k, y) :: post) k = some y) := by
  rw [lookup_append_cons, lookup_append_cons]
  cases lookupKey pre k with
  | none => right; simp
  | some v => left; rfl

theorem checkRequired_congr {fs : List Field} {g g' : String → Bool}
    (h : ∀ k ∈ names fs, g k = g' k) : checkRequired fs g = checkRequired fs g' := by
  have h1 : ∀ f ∈ fs, g f.name = g' f.name := fun f hf => h _ (List.mem_map.mpr ⟨f, hf, rfl⟩)
  have ha : ∀ p : Field → Bool, (fs.any fun f => p f && !g f.name) =
      fs.any fun f => p f && !g' f.name := by
    intro p
    rw [Bool.eq_iff_iff]
    simp only [List.any_eq_true]
    constructor <;> rintro ⟨f, hf, h⟩ <;> refine ⟨f, hf, ?_⟩ <;> rw [← h, h1 f hf]
  unfold checkRequired
  rw [ha, ha]

theorem fieldValue_congr {d d' : List (String × Val)} {f : Field}
    (h : lookupKey d f.name = lookupKey d' f.name) : fieldValue d f = fieldValue d' f := by
  unfold fieldValue
  rw [h]

/-- Converting attrs looks only at the class's own field names. -/
theorem attrsFromDict_congr {fs : List Field} {a a' : List (String × Val)}
    (h : ∀ k ∈ names fs, lookupKey a k = lookupKey a' k) :
    attrsFromDict fs (.dict a) = attrsFromDict fs (.dict a') := by
  simp only [attrsFromDict]
  rw [checkRequired_congr (g' := hasKey a') fun k hk => by simp [hasKey, h k hk]]
  have : fs.map (fun f => (f.name, fieldValue a f)) = fs.map fun f => (f.name, fieldValue a' f) := by
    refine List.map_congr_left fun f hf => ?_
    rw [fieldValue_congr (h _ (List.mem_map.mpr ⟨f, hf, rfl⟩))]
  rw [this]

theorem valOf_congr {fs : List Field} {name : String} {d d' : List (String × Val)}
    (h : lookupKey d name = lookupKey d' name) : valOf fs name d = valOf fs name d' := by
  unfold valOf
  split
  · rfl
  · next f hf =>
    have := List.find?_some hf
    simp only [beq_iff_eq] at this
    rw [fieldValue_congr (this ▸ h)]

theorem attrsStep_congr {afs : Option (List Field)} {d d' : List (String × Val)}
    (h : lookupKey d "attrs" = lookupKey d' "attrs" ∨
      ∃ a a', lookupKey d "attrs" = some (.dict a) ∧ lookupKey d' "attrs" = some (.dict a') ∧
        ∀ fs, afs = some fs → ∀ k ∈ names fs, lookupKey a k = lookupKey a' k) :
    attrsStep afs d = attrsStep afs d' := by
  unfold attrsStep
  rcases h with h | ⟨a, a', h1, h2, h3⟩
  · rw [h]
  · rw [h1, h2]
    cases afs with
    | none => rfl
    | some fs => simp only [attrsFromDict_congr (h3 fs rfl)]

/-- `from_dict` looks only at the class's own field names. -/
theorem nodeFromDict_congr {w : Bool} {c : NodeCls} {d d' : List (String × Val)}
    {r r' : Res (Option (Slot (List Node)))}
    (hattrs : attrsStep c.attrsFields d = attrsStep c.attrsFields d') (hr : r = r')
    (hmarks : marksStep w d = marksStep w d')
    (hkeys : ∀ k ∈ names c.fields, hasKey d k = hasKey d' k)
    (htype : lookupKey d "type" = lookupKey d' "type")
    (hversion : lookupKey d "version" = lookupKey d' "version")
    (htext : lookupKey d "text" = lookupKey d' "text") :
    nodeFromDict w c d r = nodeFromDict w c d' r' := by
  unfold nodeFromDict
  rw [hattrs, hr, hmarks, checkRequired_congr hkeys, valOf_congr htype, valOf_congr hversion,
    valOf_congr htext]

theorem markFromDict_congr {c : MarkCls} {d d' : List (String × Val)}
    (hattrs : attrsStep c.attrsFields d = attrsStep c.attrsFields d')
    (hkey : hasKey d "attrs" = hasKey d' "attrs")
    (htype : lookupKey d "type" = lookupKey d' "type") :
    markFromDict c d = markFromDict c d' := by
  unfold markFromDict
  rw [hattrs, valOf_congr htype, mark_required, mark_required, hkey]

theorem parseMark_congr {d d' : List (String × Val)}
    (hattrs : ∀ c : MarkCls, attrsStep c.attrsFields d = attrsStep c.attrsFields d')
    (hkey : hasKey d "attrs" = hasKey d' "attrs")
    (htype : lookupKey d "type" = lookupKey d' "type") :
    parseMark (.dict d) = parseMark (.dict d') := by
  unfold parseMark
  simp only [← htype, fun c => markFromDict_congr (hattrs c) hkey htype]

theorem parseMark_addKey {m m' : Val} (h : Spec.AddMarkKey m m') : parseMark m = parseMark m' := by
  cases h with
  | here pre post k x hk =>
    have ha : lookupKey (pre ++ (k, x) :: post) "attrs" = lookupKey (pre ++ post) "attrs" :=
      lookup_insert_ne hk.2
    exact parseMark_congr (fun c => attrsStep_congr (.inl ha.symm)) (by simp [hasKey, ha])
      (lookup_insert_ne hk.1).symm
  | attrs pre post apre apost k x hk =>
    refine parseMark_congr (fun c => attrsStep_congr ?_) ?_ (lookup_replace_ne (by decide))
    · rcases lookup_replace_self pre post "attrs" (.dict (apre ++ apost))
        (.dict (apre ++ (k, x) :: apost)) with h | ⟨h1, h2⟩
      · exact .inl h
      · refine .inr ⟨_, _, h1, h2, fun fs hfs j hj => (lookup_insert_ne ?_).symm⟩
        rintro rfl
        exact hk c ((markAttrsFields_names c fs hfs k).mp hj)
    · rcases lookup_replace_self pre post "attrs" (.dict (apre ++ apost))
        (.dict (apre ++ (k, x) :: apost)) with h | ⟨h1, h2⟩
      · simp [hasKey, h]
      · simp [hasKey, h1, h2]

theorem parseMarks_replace {w : Bool} {l₁ l₂ : List Val} {m m' : Val}
    (h : parseMark m = parseMark m') : parseMarks w (l₁ ++ m :: l₂) = parseMarks w (l₁ ++ m' :: l₂) := by
  induction l₁ with
  | nil => simp only [List.nil_append, parseMarks, h]
  | cons x xs ih => simp only [List.cons_append, parseMarks, ih]

theorem parseNodes_replace {w : Bool} {l₁ l₂ : List Val} {m m' : Val}
    (h : parseNode w m = parseNode w m') :
    parseNodes w (l₁ ++ m :: l₂) = parseNodes w (l₁ ++ m' :: l₂) := by
  induction l₁ with
  | nil => simp only [List.nil_append, parseNodes, h]
  | cons x xs ih => simp only [List.cons_append, parseNodes, ih]

theorem parseNode_congr {w : Bool} {d d' : List (String × Val)}
    (htype : lookupKey d "type" = lookupKey d' "type")
    (h : ∀ c : NodeCls, c.fromDict w (.dict d) = c.fromDict w (.dict d')) :
    parseNode w (.dict d) = parseNode w (.dict d') := by
  rw [parseNode_dict, parseNode_dict, ← htype]
  have h' : ∀ c, nodeFromDict w c d (contentStep w d) = nodeFromDict w c d' (contentStep w d') := h
  simp only [h']

theorem known_of_name (c : NodeCls) {k : String} (h : k ∈ names c.fields) :
    k ∈ ["type", "version", "text", "attrs", "content", "marks"] := by
  rw [nodeFields_names] at h
  revert h
  cases c <;> simp [Spec.nodeKeys, Spec.requiredKeys, Spec.optionalKeys] <;> grind

theorem marksStep_congr {w : Bool} {d d' : List (String × Val)}
    (h : lookupKey d "marks" = lookupKey d' "marks") : marksStep w d = marksStep w d' := by
  unfold marksStep; rw [h]

theorem contentStep_congr {w : Bool} {d d' : List (String × Val)}
    (h : lookupKey d "content" = lookupKey d' "content") : contentStep w d = contentStep w d' := by
  rw [contentStep_eq, contentStep_eq, h]

theorem hasKey_replace (pre post : List (String × Val)) (k j : String) (x y : Val) :
    hasKey (pre ++ (k, x) :: post) j = hasKey (pre ++ (k, y) :: post) j := by
  unfold hasKey
  by_cases hj : k = j
  · subst hj
    rcases lookup_replace_self pre post k x y with h | ⟨h1, h2⟩
    · rw [h]
    · rw [h1, h2]; rfl
  · rw [lookup_replace_ne hj]

theorem fromDict_addKey {w : Bool} {v v' : Val} (h : Spec.AddNodeKey v v') :
    parseNode w v = parseNode w v' ∧ ∀ c : NodeCls, c.fromDict w v = c.fromDict w v' := by
  induction h with
  | here pre post k x hk =>
    have hne : ∀ j, (∃ c, j ∈ Spec.nodeKeys c) →
        lookupKey (pre ++ post) j = lookupKey (pre ++ (k, x) :: post) j := by
      rintro j ⟨c, hj⟩
      refine (lookup_insert_ne ?_).symm
      rintro rfl
      exact hk c hj
    have htype := hne "type" ⟨.doc, by decide⟩
    have hfrom : ∀ c : NodeCls,
        c.fromDict w (.dict (pre ++ post)) = c.fromDict w (.dict (pre ++ (k, x) :: post)) :=
      fun c => nodeFromDict_congr
        (attrsStep_congr (.inl (hne "attrs" ⟨.panel, by decide⟩)))
        (contentStep_congr (hne "content" ⟨.doc, by decide⟩))
        (marksStep_congr (hne "marks" ⟨.text, by decide⟩))
        (fun j hj => by simp [hasKey, hne j ⟨c, (nodeFields_names c j).mp hj⟩])
        htype (hne "version" ⟨.doc, by decide⟩) (hne "text" ⟨.text, by decide⟩)
    exact ⟨parseNode_congr htype hfrom, hfrom⟩
  | attrs pre post apre apost k x hk =>
    have hfrom : ∀ c : NodeCls,
        c.fromDict w (.dict (pre ++ ("attrs", .dict (apre ++ apost)) :: post)) =
        c.fromDict w (.dict (pre ++ ("attrs", .dict (apre ++ (k, x) :: apost)) :: post)) := by
      intro c
      refine nodeFromDict_congr (attrsStep_congr ?_)
        (contentStep_congr (lookup_replace_ne (by decide)))
        (marksStep_congr (lookup_replace_ne (by decide)))
        (fun j _ => hasKey_replace _ _ _ _ _ _) (lookup_replace_ne (by decide))
        (lookup_replace_ne (by decide)) (lookup_replace_ne (by decide))
      rcases lookup_replace_self pre post "attrs" (.dict (apre ++ apost))
        (.dict (apre ++ (k, x) :: apost)) with h | ⟨h1, h2⟩
      · exact .inl h
      · refine .inr ⟨_, _, h1, h2, fun fs hfs j hj => (lookup_insert_ne ?_).symm⟩
        rintro rfl
        exact hk c ((attrsFields_names c fs hfs k).mp hj)
    exact ⟨parseNode_congr (lookup_replace_ne (by decide)) hfrom, hfrom⟩
  | marks pre post l₁ l₂ m m' hm =>
    have hfrom : ∀ c : NodeCls,
        c.fromDict w (.dict (pre ++ ("marks", .list (l₁ ++ m :: l₂)) :: post)) =
        c.fromDict w (.dict (pre ++ ("marks", .list (l₁ ++ m' :: l₂)) :: post)) := by
      intro c
      refine nodeFromDict_congr (attrsStep_congr (.inl (lookup_replace_ne (by decide))))
        (contentStep_congr (lookup_replace_ne (by decide))) ?_
        (fun j _ => hasKey_replace _ _ _ _ _ _) (lookup_replace_ne (by decide))
        (lookup_replace_ne (by decide)) (lookup_replace_ne (by decide))
      rcases lookup_replace_self pre post "marks" (.list (l₁ ++ m :: l₂))
        (.list (l₁ ++ m' :: l₂)) with h | ⟨h1, h2⟩
      · exact marksStep_congr h
      · unfold marksStep
        rw [h1, h2]
        simp only [parseMarks_replace (parseMark_addKey hm)]
    exact ⟨parseNode_congr (lookup_replace_ne (by decide)) hfrom, hfrom⟩
  | content pre post l₁ l₂ v v' _ ih =>
    have hfrom : ∀ c : NodeCls,
        c.fromDict w (.dict (pre ++ ("content", .list (l₁ ++ v :: l₂)) :: post)) =
        c.fromDict w (.dict (pre ++ ("content", .list (l₁ ++ v' :: l₂)) :: post)) := by
      intro c
      refine nodeFromDict_congr (attrsStep_congr (.inl (lookup_replace_ne (by decide))))
        ?_ (marksStep_congr (lookup_replace_ne (by decide)))
        (fun j _ => hasKey_replace _ _ _ _ _ _) (lookup_replace_ne (by decide))
        (lookup_replace_ne (by decide)) (lookup_replace_ne (by decide))
      rcases lookup_replace_self pre post "content" (.list (l₁ ++ v :: l₂))
        (.list (l₁ ++ v' :: l₂)) with h | ⟨h1, h2⟩
      · exact contentStep_congr h
      · rw [contentStep_eq, contentStep_eq, h1, h2]
        simp only [parseNodes_replace ih.1]
    exact ⟨parseNode_congr (lookup_replace_ne (by decide)) hfrom, hfrom⟩

/-- C02: adding any number of unknown keys, at any places and depths, changes neither the parsed
object, nor the error, nor the log (`Res` carries all three) of `parse_node`. -/
theorem C02_parse_node (w : Bool) (v v' : Val) (h : Spec.AddNodeKeys v v') :
    parseNode w v' = parseNode w v := by
  induction h with
  | none => rfl
  | more _ h2 ih => rw [← ih, (fromDict_addKey h2).1]

/-- C02 for `from_dict` of any node class. -/
theorem C02_from_dict (w : Bool) (c : NodeCls) (v v' : Val) (h : Spec.AddNodeKeys v v') :
    c.fromDict w v' = c.fromDict w v := by
  induction h with
  | none => rfl
  | more _ h2 ih => rw [← ih, (fromDict_addKey h2).2]

/-- C02 for `parse_mark`. -/
theorem C02_parse_mark (m m' : Val) (h : Spec.AddMarkKey m m') : parseMark m' = parseMark m :=
  (parseMark_addKey h).symm

/-- A text node inside a paragraph gets an unknown key. -/
theorem sampleAdded : Spec.AddNodeKeys
    (.dict [("type", .str "paragraph".toList), ("content", .list
      [.dict [("type", .str "text".toList), ("text", .str "hi".toList)]])])
    (.dict [("type", .str "paragraph".toList), ("content", .list
      [.dict [("type", .str "text".toList), ("x-new", .int 1), ("text", .str "hi".toList)]])]) :=
  .more (.none _) (.content [("type", .str "paragraph".toList)] [] [] [] _ _
    (.here [("type", .str "text".toList)] [("text", .str "hi".toList)] "x-new" (.int 1)
      (by intro c; cases c <;> decide)))

example : Spec.unknownNodeAttr "data-x" := by intro c; cases c <;> decide
example : Spec.unknownMarkAttr "data-x" := by intro c; cases c <;> decide

example := C02_parse_node true _ _ sampleAdded

example := C02_from_dict true .paragraph _ _ sampleAdded

example := C02_parse_mark _ _ (.attrs [("type", .str "link".toList)] [] [("href", .str "u".toList)] [] "data-x" (.int 1)
  (by intro c; cases c <;> decide))

end Verif.Props
