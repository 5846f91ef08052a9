import Verif.Props.Atoms
/-!
# Attributes of parsed nodes
-/

namespace Verif
open Spec Props

/-- The attrs of a parsed node of a class with attrs: omitted, or with a value (maybe the sentinel)
for every declared key. -/
theorem parsed_attrs_cases {n : Node} (h : Parsed n) (hd : "attrs" ∈ nodeKeys n.cls) :
    n.hd.attrs = .opt ∨ ∀ k ∈ attrKeys n.cls, ∃ v, attr n k = some v := by
  obtain ⟨w, v, h⟩ := h
  obtain ⟨d, t, rfl, ht, hreg, hf⟩ := parseNode_ok h
  have hf : (n.cls.fromDict w (.dict d)).out = .ok n := hf
  obtain ⟨a, kk, m, ha, hk', hm, hreq, heq⟩ := nodeFromDict_ok hf
  have e : n.hd.attrs = slotOf n.cls.fields "attrs" (a.map Slot.val) :=
    congrArg (fun x => x.hd.attrs) heq
  unfold attr
  rw [slotOf_eq n.cls _ (.inl rfl), if_pos hd] at e
  rcases attrsStep_ok_cases ha with ⟨rfl, h1⟩ | ⟨fs, ad', o, hf', had, rfl, hok⟩
  · left; rw [e]; rfl
  · right
    intro k hk
    rw [e]
    simp only [Option.map_some, Option.getD_some]
    obtain ⟨_, rfl⟩ := attrsFromDict_ok hok
    have hjf : k ∈ names fs := by rw [attrsFields_names n.cls fs hf']; exact hk
    obtain ⟨f, hfm, rfl⟩ := List.mem_map.mp hjf
    rw [lookup_map_field _ (attrsFields_nodup n.cls fs hf') hfm]
    exact ⟨_, rfl⟩

end Verif
