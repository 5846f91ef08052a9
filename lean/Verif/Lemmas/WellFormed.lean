import Verif.Spec.Lists
import Verif.Lemmas.Attrs
/-!
# Parsing JSON whose `content` values are lists gives well-formed nodes
-/

namespace Verif
open Spec Props

/-- A JSON value in which `content`, where present in a node, is a list of such values. -/
inductive Spec.ContentLists : Val → Prop where
  | leaf (d : List (String × Val)) (h : lookupKey d "content" = none) : ContentLists (.dict d)
  | node (d : List (String × Val)) (l : List Val) (h : lookupKey d "content" = some (.list l))
      (hl : ∀ x ∈ l, ContentLists x) : ContentLists (.dict d)

theorem fromDict_content {w : Bool} {c : NodeCls} {d : List (String × Val)} {n : Node}
    (h : (c.fromDict w (.dict d)).out = .ok n) :
    (lookupKey d "content" = none → n.content = .opt ∨ n.content = .absent) ∧
    (∀ l, lookupKey d "content" = some (.list l) → n.content = .absent ∨ ∃ ns, n.content = .val ns) := by
  obtain ⟨a, k, m, _, hk, _, _, rfl⟩ := nodeFromDict_ok h
  simp only [Node.content]
  rw [slotOf_eq c _ (.inr (.inl rfl))]
  rw [contentStep_eq] at hk
  constructor
  · intro hl
    rw [hl] at hk
    simp [Res.ok] at hk
    subst hk
    split <;> simp
  · intro l hl
    rw [hl] at hk
    simp only at hk
    split
    · right
      rw [Res.map_out] at hk
      cases hp : (parseNodes w l).out with
      | error e => rw [hp] at hk; simp at hk
      | ok ns => rw [hp] at hk; simp at hk; subst hk; exact ⟨ns, rfl⟩
    · exact .inl rfl

theorem parsed_wellFormed {w : Bool} {v : Val} (hv : ContentLists v) {n : Node}
    (h : (parseNode w v).out = .ok n) : WellFormed n := by
  induction hv generalizing n with
  | leaf d hd =>
    obtain ⟨d', t, e, ht, hreg, hf⟩ := parseNode_ok h
    cases e
    exact .leaf (parsed_hasType ⟨w, _, h⟩) ((fromDict_content hf).1 hd)
  | node d l hd hl ih =>
    obtain ⟨d', t, e, ht, hreg, hf⟩ := parseNode_ok h
    cases e
    rcases (fromDict_content hf).2 l hd with hc | ⟨ns, hc⟩
    · exact .leaf (parsed_hasType ⟨w, _, h⟩) (.inr hc)
    · refine .node (parsed_hasType ⟨w, _, h⟩) hc ?_
      obtain ⟨l', hl', hp⟩ := fromDict_child hf hc
      rw [hd] at hl'
      cases hl'
      intro k hk
      obtain ⟨x, hx, hxk⟩ := parseNodes_mem hp hk
      exact ih x hx hxk

end Verif
