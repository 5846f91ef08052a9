import Verif.Model.Kwargs
import Verif.Model.Equality
import Verif.Props.Serial
/-!
# C99: `to_kwargs` and the constructor

The claim of the docstring ("a dictionary suitable for function calls") is that `cls(**x.to_kwargs()) == x`.  It holds for attrs
instances and for marks and nodes without parts; for the others it is false: the parts come back as dicts.
-/

namespace Verif.Props.Kwargs
open Verif Verif.Spec Verif.Props

/-- The node has an attrs instance, children or marks. -/
def HasParts (n : Node) : Prop :=
  (∃ a, n.hd.attrs = .val a) ∨ (∃ x xs, n.content = .val (x :: xs)) ∨ ∃ x xs, n.hd.marks = .val (x :: xs)

/-- The node has children or marks. -/
def HasElements (n : Node) : Prop := (∃ x xs, n.content = .val (x :: xs)) ∨ ∃ x xs, n.hd.marks = .val (x :: xs)

theorem mem_names_any {fs : List Field} {k : String} (h : k ∈ names fs) : (fs.any fun f => f.name == k) = true := by
  obtain ⟨f, hf, rfl⟩ := List.mem_map.mp h
  exact List.any_eq_true.mpr ⟨f, hf, by simp⟩

theorem not_unexpected {fs : List Field} {d : List (String × Val)} (h : ∀ e ∈ d, e.1 ∈ names fs) : unexpected fs d = false := by
  unfold unexpected
  rw [List.any_eq_false]
  intro e he
  rw [mem_names_any (h e he)]
  simp

/-- C99 for attrs classes: `cls(**a.to_kwargs()) == a`, without exception. -/
theorem C99_attrs (c : NodeCls ⊕ MarkCls) (fs : List Field)
    (hc : (match c with | .inl c => c.attrsFields | .inr c => c.attrsFields) = some fs)
    (d : List (String × Val)) (a : AttrsObj) (hd : Spec.plainDict d = true) (h : attrsFromDict fs (.dict d) = .ok a) :
    ∃ d', a.toKwargs = .dict d' ∧ attrsNew fs d' = .ok a := by
  have hn : (names fs).Nodup := by
    cases c with
    | inl c => exact attrsFields_nodup c fs hc
    | inr c => exact markAttrsFields_nodup c fs hc
  have hl : noLit fs := by
    cases c with
    | inl c => exact attrsFields_noLit c fs hc
    | inr c => exact markAttrsFields_noLit c fs hc
  have hr := attrs_roundtrip hn hl hd h
  refine ⟨_, rfl, ?_⟩
  unfold attrsNew
  rw [not_unexpected, if_neg (by simp)]
  · exact hr
  · intro e he
    obtain ⟨_, rfl⟩ := attrsFromDict_ok h
    obtain ⟨f, hf, rfl⟩ := List.mem_map.mp (List.mem_filter.mp he).1
    exact List.mem_map.mpr ⟨f, hf, rfl⟩

theorem entry_mem_lookup {d : List (String × Val)} {e : String × Val} (h : e ∈ d) : (lookupKey d e.1).isSome = true := by
  induction d with
  | nil => simp at h
  | cons x d ih =>
    obtain ⟨k, v⟩ := x
    by_cases hk : k = e.1
    · simp [lookupKey, hk]
    · have : e ∈ d := by
        rcases List.mem_cons.mp h with h | h
        · exact absurd (by rw [h]) hk
        · exact h
      have h2 := ih this
      rw [lookupKey, if_neg hk]
      exact h2

theorem kwSlot_eq {α : Type} (emp : Val → Option α) (c : NodeCls) (name : String)
    (h : name = "attrs" ∨ name = "content" ∨ name = "marks") (d : List (String × Val)) :
    kwSlot emp c.fields name d =
      if name ∈ Spec.nodeKeys c then
        match lookupKey d name with
        | some .opt => .opt
        | some v => match emp v with | some a => .val a | none => .raw v
        | none => .opt
      else .absent := by
  unfold kwSlot
  have h2 := nodeFields_names c name
  have h3 := fieldDflt_isSome_iff c.fields name
  rcases fieldDflt_cases c name h with h1 | h1 | h1
  · rw [h1] at h3 ⊢
    rw [if_neg]
    rw [← h2, ← h3]; simp
  · rw [h1] at h3 ⊢
    rw [if_pos (by rw [← h2, ← h3]; rfl)]
    cases hl : lookupKey d name with
    | none => rfl
    | some v => cases v <;> rfl
  · rw [h1] at h3 ⊢
    rw [if_pos (by rw [← h2, ← h3]; rfl)]
    cases hl : lookupKey d name with
    | none => rfl
    | some v => cases v <;> rfl

/-- What becomes of an attrs slot. -/
def kwAttrs : Slot AttrsObj → Slot AttrsObj
  | .val a => .raw a.toDict
  | s => s

/-- `to_kwargs` and the constructor, part by part. -/
theorem node_kwargs (w : Bool) (c : NodeCls) (v : Val) (n : Node) (hv : Spec.plain v = true)
    (h : (c.fromDict w v).out = .ok n) (hconv : Spec.Converted n) :
    ∃ d' n', n.toKwargs = .ok (.dict d') ∧ c.new d' = .ok n' ∧ n'.hd = { n.hd with attrs := n'.hd.attrs, marks := n'.hd.marks } ∧
      n'.hd.attrs = kwAttrs n.hd.attrs ∧
      (n'.content = n.content ∧ (∀ x xs, n.content ≠ .val (x :: xs)) ∨
        (∃ x xs, n.content = .val (x :: xs)) ∧ ∃ y ys, n'.content = .raw (.list (y :: ys))) ∧
      (n'.hd.marks = n.hd.marks ∧ (∀ x xs, n.hd.marks ≠ .val (x :: xs)) ∨
        (∃ x xs, n.hd.marks = .val (x :: xs)) ∧ ∃ y ys, n'.hd.marks = .raw (.list (y :: ys))) := by
  obtain ⟨dv, h1, h2, _⟩ := C04_from_dict w w c v n hv h hconv
  obtain ⟨d, rfl⟩ : ∃ d, v = .dict d := by
    cases v with
    | dict d => exact ⟨d, rfl⟩
    | _ => simp [NodeCls.fromDict, Res.err] at h
  obtain ⟨co, mo, hco, hmo, hd'⟩ := toDict_ok h1
  subst hd'
  generalize hD : nodeDict (nn (some n.hd.type)) (nn n.hd.version) (nn n.hd.text) (nn (attrsVal n.hd.attrs)) (nn co) (nn mo) = D at *
  have hk := (C05_fields w c d D n hv h h1).1
  obtain ⟨_, _, _, l4, l5, l6⟩ := nodeDict_lookup (nn (some n.hd.type)) (nn n.hd.version) (nn n.hd.text) (nn (attrsVal n.hd.attrs)) (nn co) (nn mo)
  rw [hD] at l4 l5 l6
  have h2' : (c.fromDict w (.dict D)).out = .ok n := by rw [h2]
  obtain ⟨a, k, m, ha, hc, hm, hr, heq⟩ := nodeFromDict_ok h2'
  have hcv := hconv n .self
  have hun : unexpected c.fields D = false := not_unexpected fun e he => (nodeFields_names c e.1).mpr (hk _ (entry_mem_lookup he))
  have hnew : c.new D = .ok (.mk
        { cls := c
          type := (valOf c.fields "type" D).getD .opt
          version := valOf c.fields "version" D
          text := valOf c.fields "text" D
          attrs := kwSlot (fun _ => none) c.fields "attrs" D
          marks := kwSlot emptyList c.fields "marks" D }
        (kwSlot emptyList c.fields "content" D)) := by
    unfold NodeCls.new
    rw [hun, hr]
    simp
  refine ⟨D, _, h1, hnew, ?_, ?_, ?_, ?_⟩
  · rw [heq]; rfl
  · show kwSlot (fun _ => none) c.fields "attrs" D = _
    rw [kwSlot_eq _ c _ (.inl rfl), l4]
    have hs : n.hd.attrs = slotOf c.fields "attrs" (a.map Slot.val) := by rw [heq]; rfl
    rw [slotOf_eq c _ (.inl rfl)] at hs
    split at hs
    · next hdecl =>
      rw [if_pos hdecl, hs]
      cases a <;> simp [kwAttrs, attrsVal, nn, Val.isOpt, AttrsObj.toDict, Option.filter]
    · next hdecl => rw [if_neg hdecl, hs]; rfl
  · show (kwSlot emptyList c.fields "content" D = _ ∧ _) ∨ _ ∧ ∃ y ys, kwSlot emptyList c.fields "content" D = _
    rw [kwSlot_eq _ c _ (.inr (.inl rfl)), l5]
    have hs : n.content = slotOf c.fields "content" k := by rw [heq]; rfl
    rw [slotOf_eq c _ (.inr (.inl rfl))] at hs
    obtain ⟨o, ho, e1, e2, e3, e4⟩ := contentEntry_ok hco
    have ho' : co = o := by
      cases co <;> cases o <;> simp_all [plainEntry]
    subst ho'
    split at hs
    · next hdecl =>
      rw [if_pos hdecl]
      cases hcs : n.content with
      | absent =>
        have hl : lookupKey D "content" = none := by rw [l5, e1 hcs]; rfl
        have := (content_slot hc hdecl).1 hl
        rw [slotOf_eq c _ (.inr (.inl rfl)), if_pos hdecl, ← hs, hcs] at this
        cases this
      | opt => rw [e2 hcs]; simp [nn, Val.isOpt, Option.filter]
      | raw v => exact absurd hcs (hcv.1 v)
      | val ns =>
        obtain ⟨vs, hvs, rfl⟩ := e4 ns hcs
        cases ns with
        | nil => simp [listToDict] at hvs; subst hvs; simp [nn, Val.isOpt, emptyList, Option.filter]
        | cons x xs =>
          have := listToDict_forall hvs
          cases vs with
          | nil => simp at this
          | cons y ys => simp [nn, Val.isOpt, emptyList, Option.filter]
    · next hdecl => rw [if_neg hdecl, hs]; simp
  · show (kwSlot emptyList c.fields "marks" D = _ ∧ _) ∨ _ ∧ ∃ y ys, kwSlot emptyList c.fields "marks" D = _
    rw [kwSlot_eq _ c _ (.inr (.inr rfl)), l6]
    have hs : n.hd.marks = slotOf c.fields "marks" m := by rw [heq]; rfl
    rw [slotOf_eq c _ (.inr (.inr rfl))] at hs
    obtain ⟨o, ho, e1, e2, e3, e4⟩ := marksEntry_ok hmo
    have ho' : mo = o := by
      cases mo <;> cases o <;> simp_all [plainEntry]
    subst ho'
    split at hs
    · next hdecl =>
      rw [if_pos hdecl]
      cases hcs : n.hd.marks with
      | absent =>
        have hl : lookupKey D "marks" = none := by rw [l6, e1 hcs]; rfl
        have := (marks_slot hm hdecl).1 hl
        rw [slotOf_eq c _ (.inr (.inr rfl)), if_pos hdecl, ← hs, hcs] at this
        cases this
      | opt => rw [e2 hcs]; simp [nn, Val.isOpt, Option.filter]
      | raw v => exact absurd hcs (hcv.2 v)
      | val ns =>
        rw [e4 ns hcs]
        cases ns <;> simp [nn, Val.isOpt, emptyList, Option.filter]
    · next hdecl => rw [if_neg hdecl, hs]; simp

/-- C99 (what holds): for every object of every node class made from a JSON object, with its parts converted, `to_kwargs` and
calling the class succeed; the new object is the same iff the old one has no attrs instance, children or marks, and otherwise it
is not equal to it.  (The full claim has `n' = n` in all cases; it is false, see `C99_false`.) -/
theorem C99_node_partial (w : Bool) (c : NodeCls) (v : Val) (n : Node) (hv : Spec.plain v = true)
    (h : (c.fromDict w v).out = .ok n) (hconv : Spec.Converted n) :
    ∃ d' n', n.toKwargs = .ok (.dict d') ∧ c.new d' = .ok n' ∧ (n' = n ↔ ¬ HasParts n) ∧
      (HasParts n → ∀ iv, n'.eq iv n = false) := by
  obtain ⟨d', n', h1, h2, h3, h4, h5, h6⟩ := node_kwargs w c v n hv h hconv
  have hne : HasParts n → ∀ iv, n'.eq iv n = false := by
    intro hp iv
    obtain ⟨hd', s'⟩ := n'
    rw [Node.eq]
    rcases hp with ⟨a, ha⟩ | ⟨x, xs, hx⟩ | ⟨x, xs, hx⟩
    · have : hd'.attrs = .raw a.toDict := by
        rw [ha] at h4; exact h4
      rw [Bool.and_eq_false_iff]; left
      simp [Hd.eq, this, ha, slotEq]
    · rcases h5 with ⟨_, h5⟩ | ⟨_, y, ys, h5⟩
      · exact absurd hx (h5 x xs)
      · have : s' = .raw (.list (y :: ys)) := h5
        rw [Bool.and_eq_false_iff]; right
        rw [this, hx]; simp [contentEq]
    · rcases h6 with ⟨_, h6⟩ | ⟨_, y, ys, h6⟩
      · exact absurd hx (h6 x xs)
      · have : hd'.marks = .raw (.list (y :: ys)) := h6
        rw [Bool.and_eq_false_iff]; left
        simp [Hd.eq, this, hx, slotEq]
  refine ⟨d', n', h1, h2, ⟨?_, ?_⟩, hne⟩
  · rintro rfl hp
    rcases hp with ⟨a, ha⟩ | ⟨x, xs, hx⟩ | ⟨x, xs, hx⟩
    · rw [ha] at h4; simp [kwAttrs] at h4
    · rcases h5 with ⟨_, h5⟩ | ⟨_, y, ys, h5⟩
      · exact absurd hx (h5 x xs)
      · rw [hx] at h5; cases h5
    · rcases h6 with ⟨_, h6⟩ | ⟨_, y, ys, h6⟩
      · exact absurd hx (h6 x xs)
      · rw [hx] at h6; cases h6
  · intro hp
    have e5 : n'.content = n.content := by
      rcases h5 with ⟨h5, _⟩ | ⟨⟨x, xs, h5⟩, _⟩
      · exact h5
      · exact absurd (.inr (.inl ⟨x, xs, h5⟩)) hp
    have e6 : n'.hd.marks = n.hd.marks := by
      rcases h6 with ⟨h6, _⟩ | ⟨⟨x, xs, h6⟩, _⟩
      · exact h6
      · exact absurd (.inr (.inr ⟨x, xs, h6⟩)) hp
    have e4 : n'.hd.attrs = n.hd.attrs := by
      rw [h4]
      cases ha : n.hd.attrs with
      | val a => exact absurd (.inl ⟨a, ha⟩) hp
      | _ => rfl
    rw [e4, e6] at h3
    obtain ⟨hd, s⟩ := n
    obtain ⟨hd', s'⟩ := n'
    simp only [Node.hd, Node.content] at h3 e5
    rw [h3, e5]

/-- C99 (what holds), the use of the new object: it serialises like the old one unless the old one has children or marks; then
`to_dict` raises AttributeError. -/
theorem C99_to_dict_partial (w : Bool) (c : NodeCls) (v : Val) (n : Node) (hv : Spec.plain v = true)
    (h : (c.fromDict w v).out = .ok n) (hconv : Spec.Converted n) :
    ∃ d' n', n.toKwargs = .ok (.dict d') ∧ c.new d' = .ok n' ∧
      (¬ HasElements n → n'.toDict = n.toDict) ∧ (HasElements n → n'.toDict = .error .attributeError) := by
  obtain ⟨d', n', h1, h2, h3, h4, h5, h6⟩ := node_kwargs w c v n hv h hconv
  have ht : n.toDict = .ok (.dict d') := h1
  obtain ⟨co, mo, hco, hmo, _⟩ := toDict_ok ht
  refine ⟨d', n', h1, h2, ?_, ?_⟩
  · intro hp
    have e5 : n'.content = n.content := by
      rcases h5 with ⟨h5, _⟩ | ⟨⟨x, xs, h5⟩, _⟩
      · exact h5
      · exact absurd (.inl ⟨x, xs, h5⟩) hp
    have e6 : n'.hd.marks = n.hd.marks := by
      rcases h6 with ⟨h6, _⟩ | ⟨⟨x, xs, h6⟩, _⟩
      · exact h6
      · exact absurd (.inr ⟨x, xs, h6⟩) hp
    have e4 : nodeAttrsEntry n'.hd.attrs = nodeAttrsEntry n.hd.attrs := by
      rw [h4]; cases n.hd.attrs <;> rfl
    obtain ⟨hd, s⟩ := n
    obtain ⟨hd', s'⟩ := n'
    simp only [Node.hd, Node.content] at h3 e5 e4 e6
    rw [Node.toDict, Node.toDict, e5, e4, e6, h3]
  · intro hp
    obtain ⟨hd, s⟩ := n
    obtain ⟨hd', s'⟩ := n'
    simp only [Node.hd, Node.content] at hco hmo h5 h6
    rw [Node.toDict]
    rcases h5 with ⟨h5, h5'⟩ | ⟨_, y, ys, h5⟩
    · rw [h5, hco]
      simp only
      rcases h6 with ⟨h6, h6'⟩ | ⟨_, y, ys, h6⟩
      · rcases hp with ⟨x, xs, hp⟩ | ⟨x, xs, hp⟩
        · exact absurd hp (h5' x xs)
        · exact absurd hp (h6' x xs)
      · rw [h6]; simp [marksEntry, rawToDict, Val.iterLen]
    · rw [h5]; simp [contentEntry, rawToDict, Val.iterLen]

/-- C99 (what holds) for marks: the new mark is the same iff the class has no attrs, and otherwise it is not equal to the old one;
it always serialises like the old one. -/
theorem C99_mark_partial (c : MarkCls) (d : List (String × Val)) (m : Mark) (hd : Spec.plainDict d = true)
    (h : markFromDict c d = .ok m) :
    ∃ d' m', m.toKwargs = .dict d' ∧ c.new d' = .ok m' ∧ (m' = m ↔ c.attrsFields = none) ∧
      (c.attrsFields ≠ none → ∀ iv, m'.eq iv m = false) ∧ m'.toDict = m.toDict := by
  obtain ⟨d', h1, h2, h3⟩ := mark_roundtrip hd h
  obtain ⟨rfl, ht, hc⟩ := markFromDict_ok h
  obtain ⟨_, ht', _⟩ := markFromDict_ok h2
  obtain ⟨c, t, at_⟩ := m
  simp only at *
  have hreq : checkRequired c.fields (hasKey d') = .ok () := by
    unfold markFromDict at h2
    split at h2
    · simp at h2
    · cases hq : checkRequired c.fields (hasKey d') with
      | ok _ => rfl
      | error e => rw [hq] at h2; simp at h2
  have htn : t.isOpt = false := by
    rw [ht]
    cases hv : lookupKey d "type" with
    | none => rfl
    | some v => exact isOpt_of_plain (plain_lookup hd hv)
  rcases hc with ⟨hf, ha⟩ | ⟨fs, ad, a, hf, had, hok, ha⟩
  · subst ha
    have hd' : d' = [("type", t)] := by
      have := h1
      simp only [Mark.toDict, Mark.attrsEntry, removeOptional, List.filter, htn, Bool.not_false] at this
      exact (Val.dict.inj this).symm
    subst hd'
    have hun : unexpected c.fields [("type", t)] = false := by
      cases c <;> rfl
    refine ⟨_, ⟨c, t, .absent⟩, h1, ?_, by simp [hf], by simp [hf], rfl⟩
    unfold MarkCls.new
    rw [hun, hreq]
    simp [markFields_type, lookupKey, kwSlot, markFields_attrs, hf]
  · subst ha
    have hd' : d' = [("type", t), ("attrs", .dict a.fields)] := by
      have := h1
      simp only [Mark.toDict, Mark.attrsEntry, removeOptional, List.filter, htn, Bool.not_false,
        show Val.isOpt (.dict a.fields) = false from rfl] at this
      exact (Val.dict.inj this).symm
    subst hd'
    have hun : unexpected c.fields [("type", t), ("attrs", .dict a.fields)] = false := by
      cases c <;> first | rfl | simp [MarkCls.attrsFields] at hf
    refine ⟨_, ⟨c, t, .raw (.dict a.fields)⟩, h1, ?_, by simp [hf], ?_, rfl⟩
    · unfold MarkCls.new
      rw [hun, hreq]
      simp [markFields_type, lookupKey, kwSlot, markFields_attrs, hf]
    · intro _ iv
      simp [Mark.eq, slotEq]

/-! ## Concrete cases -/

/-- A paragraph with a text in it. -/
def para : Val := .dict [("type", .str "paragraph".toList),
  ("content", .list [.dict [("type", .str "text".toList), ("text", .str "a".toList)]])]

/-- The text in it. -/
def txt : Node := .mk ⟨.text, .str "text".toList, none, some (.str "a".toList), .absent, .opt⟩ .absent

/-- The paragraph. -/
def paraNode : Node := .mk ⟨.paragraph, .str "paragraph".toList, none, none, .opt, .opt⟩ (.val [txt])

theorem para_parses : (NodeCls.paragraph.fromDict false para).out = .ok paraNode := rfl

/-- C99 is false as it stands: `NodeParagraph(**p.to_kwargs()) != p` for the paragraph that holds the text "a", and its
`to_dict` raises AttributeError. -/
theorem C99_false : ∃ (v : Val) (n n' : Node) (d' : List (String × Val)), Spec.plain v = true ∧
    (NodeCls.paragraph.fromDict false v).out = .ok n ∧ n.toKwargs = .ok (.dict d') ∧ NodeCls.paragraph.new d' = .ok n' ∧
    (∀ iv, n'.eq iv n = false) ∧ n'.toDict = .error .attributeError := by
  have hw : Spec.Converted paraNode := converted_of_noRaw rfl
  obtain ⟨d', n', h1, h2, h3, h4⟩ := C99_node_partial false .paragraph para paraNode (by decide +kernel) para_parses hw
  obtain ⟨d2, n2, h1', h2', h3', h4'⟩ := C99_to_dict_partial false .paragraph para paraNode (by decide +kernel) para_parses hw
  rw [h1] at h1'
  cases h1'
  rw [h2] at h2'
  cases h2'
  exact ⟨para, paraNode, n', d', by decide +kernel, para_parses, h1, h2, h4 (.inr (.inl ⟨_, _, rfl⟩)), h4' (.inl ⟨_, _, rfl⟩)⟩

/-- The other case, a text without marks: the constructor gives the node back. -/
example : ∃ d', txt.toKwargs = .ok (.dict d') ∧ NodeCls.text.new d' = .ok txt := by
  obtain ⟨d', n', h1, h2, h3, _⟩ := C99_node_partial false .text
    (.dict [("type", .str "text".toList), ("text", .str "a".toList)]) txt (by decide +kernel) rfl (converted_of_noRaw rfl)
  rw [h3.mpr (by rintro (⟨a, ha⟩ | ⟨x, xs, hx⟩ | ⟨x, xs, hx⟩) <;> simp [txt, Node.hd, Node.content] at *)] at h2
  exact ⟨d', h1, h2⟩

/-- A node with attrs only (a rule with a `localId`): not equal, but it serialises alike. -/
example : ∃ (n n' : Node) (d' : List (String × Val)), n.toKwargs = .ok (.dict d') ∧ NodeCls.rule.new d' = .ok n' ∧
    n' ≠ n ∧ n'.toDict = n.toDict := by
  obtain ⟨n, hn, hc, ha, he⟩ : ∃ n, (NodeCls.rule.fromDict false
      (.dict [("type", .str "rule".toList), ("attrs", .dict [("localId", .str "i".toList)])])).out = .ok n ∧ Spec.Converted n ∧
      (∃ a, n.hd.attrs = .val a) ∧ n.content = .absent ∧ n.hd.marks = .absent :=
    ⟨_, rfl, converted_of_noRaw rfl, ⟨_, rfl⟩, rfl, rfl⟩
  obtain ⟨d', n', h1, h2, h3, _⟩ := C99_node_partial false .rule _ n (by decide +kernel) hn hc
  obtain ⟨d2, n2, h1', h2', h3', _⟩ := C99_to_dict_partial false .rule _ n (by decide +kernel) hn hc
  rw [h1] at h1'
  cases h1'
  rw [h2] at h2'
  cases h2'
  refine ⟨n, n', d', h1, h2, fun h => h3.mp h (.inl ha), h3' ?_⟩
  rintro (⟨x, xs, h⟩ | ⟨x, xs, h⟩)
  · rw [he.1] at h; cases h
  · rw [he.2] at h; cases h

/-- Marks: a link and a strong. -/
example : (∃ m, markFromDict .link [("type", .str "link".toList), ("attrs", .dict [("href", .str "u".toList)])] = .ok m ∧
      MarkCls.link.attrsFields ≠ none) ∧
    ∃ m, markFromDict .strong [("type", .str "strong".toList)] = .ok m ∧ MarkCls.strong.attrsFields = none :=
  ⟨⟨_, rfl, by simp [MarkCls.attrsFields]⟩, _, rfl, rfl⟩

/-- An attrs instance: of a heading. -/
example : ∃ a d', attrsFromDict [⟨"level", .req⟩, ⟨"localId", .opt⟩] (.dict [("level", .int 2)]) = .ok a ∧
    a.toKwargs = .dict d' ∧ attrsNew [⟨"level", .req⟩, ⟨"localId", .opt⟩] d' = .ok a :=
  ⟨_, _, rfl, rfl, rfl⟩

/-- A keyword that is no field is refused, and so is a missing required one. -/
example : attrsNew [⟨"level", .req⟩] [("level", .int 1), ("x", .int 2)] = .error .typeError ∧
    attrsNew [⟨"level", .req⟩] [] = .error .paramError := ⟨rfl, rfl⟩

end Verif.Props.Kwargs
