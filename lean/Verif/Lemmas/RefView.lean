import Verif.Lemmas.RefMarkdown
/-!
# How a parsed node of the ADF reference shows its JSON
-/

namespace Verif.Props
open Verif Verif.Spec Verif.Spec.Ref

/-- A described node with a parsed object. -/
structure View (w : Bool) (t : String) (row : Row) (d : List (String × Val)) (n : Node) : Prop where
  known : (t, row) ∈ rows
  type : OfType t (.dict d)
  ok : row.Ok d
  parse : (parseNode w (.dict d)).out = .ok n

theorem View.cls {w : Bool} {t : String} {row : Row} {d : List (String × Val)} {n : Node} (h : View w t row d n) :
    (t, n.cls) ∈ nodeTypes ∧ (n.cls.fromDict w (.dict d)).out = .ok n := by
  obtain ⟨c, hc, _⟩ := rows_required _ h.known
  have hp := h.parse
  rw [parseNode_of_type w h.type hc] at hp
  have := parse_cls' hp
  rw [this]
  exact ⟨hc, hp⟩

theorem View.parsed {w : Bool} {t : String} {row : Row} {d : List (String × Val)} {n : Node}
    (h : View w t row d n) : Parsed n := ⟨w, _, h.parse⟩

/-- The content. -/
theorem View.content {w : Bool} {t : String} {row : Row} {d : List (String × Val)} {n : Node}
    (h : View w t row d n) :
    (∃ l ns, lookupKey d "content" = some (.list l) ∧ n.content = .val ns ∧ (parseNodes w l).out = .ok ns) ∨
    (lookupKey d "content" = none ∧ n.content = .opt) ∨
    (row.kids = [] ∧ n.content = .absent) := by
  obtain ⟨hc, hp⟩ := h.cls
  obtain ⟨a, s, m, _, hs, _, _, heq⟩ := nodeFromDict_ok hp
  have e : n.content = slotOf n.cls.fields "content" s := congrArg Node.content heq
  by_cases hk : "content" ∈ nodeKeys n.cls
  · obtain ⟨h1, h2⟩ := content_slot hs hk
    cases hl : lookupKey d "content" with
    | none => exact .inr (.inl ⟨rfl, e.trans (h1 hl)⟩)
    | some v =>
      obtain ⟨l, rfl, _⟩ := h.ok.content v hl
      obtain ⟨ns, hns, hs'⟩ := h2 l hl
      exact .inl ⟨l, ns, rfl, e.trans hs', hns⟩
  · right; right
    constructor
    · by_contra hne
      exact hk (rows_kids _ h.known hne _ hc rfl)
    · rw [e, slotOf_eq _ _ (.inr (.inl rfl)), if_neg hk]

theorem View.child {w : Bool} {t : String} {row : Row} {d : List (String × Val)} {n : Node}
    (h : View w t row d n) (x : Node) :
    IsChild x n ↔ ∃ l k, lookupKey d "content" = some (.list l) ∧ k ∈ l ∧ (parseNode w k).out = .ok x := by
  unfold IsChild
  rcases h.content with ⟨l, ns, h1, h2, h3⟩ | ⟨h1, h2⟩ | ⟨h1, h2⟩
  · constructor
    · rintro ⟨kids, hk, hx⟩
      rw [h2] at hk; cases hk
      obtain ⟨v, hv, hp⟩ := parseNodes_mem h3 hx
      exact ⟨l, v, h1, hv, hp⟩
    · rintro ⟨l', k, hl', hk, hp⟩
      rw [h1] at hl'; cases hl'
      refine ⟨ns, h2, ?_⟩
      obtain ⟨_, rfl⟩ := (parseNodes_ok_iff w l ns).mp h3
      exact List.mem_filterMap.mpr ⟨k, hk, by rw [hp]⟩
  · constructor
    · rintro ⟨kids, hk, _⟩; rw [h2] at hk; cases hk
    · rintro ⟨l', k, hl', _⟩; rw [h1] at hl'; cases hl'
  · constructor
    · rintro ⟨kids, hk, _⟩; rw [h2] at hk; cases hk
    · rintro ⟨l', k, hl', hk, _⟩
      obtain ⟨_, he, _, ht⟩ := h.ok.content _ hl'
      cases he
      obtain ⟨t', ht', _⟩ := ht k hk
      rw [h1] at ht'; cases ht'

/-- Content is never faulty. -/
theorem View.notBad {w : Bool} {t : String} {row : Row} {d : List (String × Val)} {n : Node}
    (h : View w t row d n) (hk : row.kids ≠ []) : ¬ BadContent n := by
  rintro ⟨h1, h2⟩
  rcases h.content with ⟨l, ns, _, h3, _⟩ | ⟨_, h3⟩ | ⟨h3, _⟩
  · exact h2 (.inl ⟨ns, h3⟩)
  · exact h1 h3
  · exact hk h3

theorem View.iterates {w : Bool} {t : String} {row : Row} {d : List (String × Val)} {n : Node}
    (h : View w t row d n) (hk : row.kids ≠ []) (hn : row.needsContent = true) : Iterates n := by
  rcases h.content with ⟨l, ns, _, h3, _⟩ | ⟨h3, _⟩ | ⟨h3, _⟩
  · exact .inl ⟨ns, h3⟩
  · have := h.ok.contentGiven hn
    rw [h3] at this; cases this
  · exact absurd h3 hk

/-- The attributes. -/
theorem View.attr {w : Bool} {t : String} {row : Row} {d : List (String × Val)} {n : Node}
    (h : View w t row d n) {ad : List (String × Val)} (had : lookupKey d "attrs" = some (.dict ad))
    (hd : "attrs" ∈ nodeKeys n.cls) {k : String} (hk : k ∈ attrKeys n.cls) :
    Spec.attr n k = some ((lookupKey ad k).getD .opt) := by
  obtain ⟨hc, hp⟩ := h.cls
  obtain ⟨a, s, m, ha, _, _, _, heq⟩ := nodeFromDict_ok hp
  have e : n.hd.attrs = slotOf n.cls.fields "attrs" (a.map Slot.val) := congrArg (fun x => x.hd.attrs) heq
  unfold Spec.attr
  rw [slotOf_eq n.cls _ (.inl rfl), if_pos hd] at e
  rcases attrsStep_ok_cases ha with ⟨rfl, h1⟩ | ⟨fs, ad', o, hf', had', rfl, hok⟩
  · rcases h1 with h1 | h1
    · rw [had] at h1; cases h1
    · exfalso
      revert hk h1
      generalize n.cls = c
      cases c <;> simp [NodeCls.attrsFields, attrKeys, requiredAttrs, optionalAttrs]
  · rw [had] at had'; cases had'
    rw [e]
    simp only [Option.map_some, Option.getD_some]
    obtain ⟨_, rfl⟩ := attrsFromDict_ok hok
    have hjf : k ∈ names fs := by rw [attrsFields_names n.cls fs hf']; exact hk
    obtain ⟨f, hfm, rfl⟩ := List.mem_map.mp hjf
    rw [lookup_map_field _ (attrsFields_nodup n.cls fs hf') hfm, fieldValue_noLit (attrsFields_noLit _ _ hf') hfm]

theorem View.noAttrs {w : Bool} {t : String} {row : Row} {d : List (String × Val)} {n : Node}
    (h : View w t row d n) (hd : n.cls = .orderedList) : n.hd.attrs = .opt ↔ lookupKey d "attrs" = none := by
  obtain ⟨hc, hp⟩ := h.cls
  obtain ⟨a, s, m, ha, _, _, _, heq⟩ := nodeFromDict_ok hp
  have e : n.hd.attrs = slotOf n.cls.fields "attrs" (a.map Slot.val) := congrArg (fun x => x.hd.attrs) heq
  rw [slotOf_eq n.cls _ (.inl rfl), if_pos (by rw [hd]; decide)] at e
  rcases attrsStep_ok_cases ha with ⟨rfl, h1⟩ | ⟨fs, ad', o, hf', had', rfl, hok⟩
  · rcases h1 with h1 | h1
    · simp [e, h1]
    · rw [hd] at h1; simp [NodeCls.attrsFields] at h1
  · simp [e, had']

/-- The marks. -/
theorem View.marks {w : Bool} {t : String} {row : Row} {d : List (String × Val)} {n : Node}
    (h : View w t row d n) (hd : "marks" ∈ nodeKeys n.cls) :
    (∃ l ms, lookupKey d "marks" = some (.list l) ∧ n.hd.marks = .val ms ∧ (∀ m ∈ l, MarkOk row.marks m) ∧
      List.Forall₂ (fun v m => parseMark v = .ok m) l ms) ∨
    (lookupKey d "marks" = none ∧ n.hd.marks = .opt) := by
  obtain ⟨hc, hp⟩ := h.cls
  obtain ⟨a, s, m, _, _, hm, _, heq⟩ := nodeFromDict_ok hp
  have e : n.hd.marks = slotOf n.cls.fields "marks" m := congrArg (fun x => x.hd.marks) heq
  obtain ⟨h1, h2⟩ := marks_slot hm hd
  cases hl : lookupKey d "marks" with
  | none => exact .inr ⟨rfl, e.trans (h1 hl)⟩
  | some v =>
    obtain ⟨l, rfl, hok⟩ := h.ok.marks v hl
    obtain ⟨ms, hms, hs'⟩ := h2 l hl
    refine .inl ⟨l, ms, rfl, e.trans hs', hok, ?_⟩
    have := (parseMarks_registered hms).1
    rw [List.filter_eq_self.mpr (fun m hm => registered_markOk (hok m hm))] at this
    exact forall2_of_map this

theorem View.text {w : Bool} {row : Row} {d : List (String × Val)} {n : Node}
    (h : View w "text" row d n) : ∃ s, lookupKey d "text" = some (.str s) ∧ n.hd.text = some (.str s) := by
  obtain ⟨hc, hp⟩ := h.cls
  have hcls := text_cls _ hc rfl
  have hrow : ∀ e ∈ rows, e.1 = "text" → ∃ f ∈ e.2.own, f.name = "text" ∧ f.required = true ∧ f.ty = .nonEmpty := by
    intro e he h
    have hm : ("text", ({own := [req "text" .nonEmpty], marks := ["code", "em", "link", "strike", "strong",
        "subsup", "textColor", "underline", "backgroundColor"] } : Row)) ∈ rows := by simp [rows]
    have : e.2 = _ := rows_unique (t := "text") (h ▸ he) hm
    rw [this]
    exact ⟨req "text" .nonEmpty, by simp, rfl, rfl, rfl⟩
  obtain ⟨f, hf, h1, h2, h3⟩ := hrow _ h.known rfl
  obtain ⟨v, hv⟩ := Option.isSome_iff_exists.mp ((h.ok.own f hf).1 h2)
  have := (h.ok.own f hf).2 v hv
  rw [h3] at this
  obtain ⟨s, rfl, _⟩ := this
  rw [h1] at hv
  refine ⟨s, hv, ?_⟩
  simp only at hcls
  rw [hcls] at hp
  obtain ⟨a, k, m, _, _, _, _, rfl⟩ := nodeFromDict_ok hp
  simp [Node.hd, valOf, NodeCls.fields, NodeCls.ownFields, fieldValue, hv]

end Verif.Props
