import Verif.Lemmas.Samples
import Verif.Spec.Lists
/-!
# Checks for the non-vacuity examples
-/

namespace Verif.Samples
open Verif

/-- Checks the hypothesis of the list theorems: children have their types, items have proper children. -/
def properKids (kids : List Node) : Bool :=
  kids.all fun k => typed k && (match k.content with
    | .raw _ => false
    | .val ks => ks.all typed
    | _ => true)

theorem proper_of {kids : List Node} (h : properKids kids = true) :
    ∀ k ∈ kids, Spec.HasType k ∧ Spec.Proper k := by
  intro k hk
  have := List.all_eq_true.mp h k hk
  rw [Bool.and_eq_true] at this
  refine ⟨hasTypes (kids := [k]) (by simp [this.1]) k (by simp), ?_⟩
  have h2 := this.2
  revert h2
  cases hc : k.content with
  | raw v => simp
  | val ks =>
    intro h2
    refine ⟨fun v hv => (by rw [hc] at hv; cases hv), fun ks' h' => ?_⟩
    rw [hc] at h'; cases h'
    exact hasTypes h2
  | _ => exact fun _ => ⟨fun v hv => (by rw [hc] at hv; cases hv), fun ks' h' => by rw [hc] at h'; cases h'⟩

theorem items_of {kids : List Node} (h : properKids kids = true) :
    ∀ k ∈ kids, Spec.HasType k ∧ (k.cls = .listItem → Spec.Proper k) :=
  fun k hk => ⟨(proper_of h k hk).1, fun _ => (proper_of h k hk).2⟩

/-- Checks `Spec.WellFormed`. -/
def wf : Nat → Node → Bool
  | 0, _ => false
  | k + 1, n => typed n && (match n.content with
    | .raw _ => false
    | .val ks => ks.all (wf k)
    | _ => true)

theorem wellFormed_of : ∀ (k : Nat) {n : Node}, wf k n = true → Spec.WellFormed n
  | 0, _, h => by simp [wf] at h
  | k + 1, n, h => by
    rw [wf, Bool.and_eq_true] at h
    have ht : Spec.HasType n := hasTypes (kids := [n]) (by simp [h.1]) n (by simp)
    have h2 := h.2
    cases hc : n.content with
    | raw v => rw [hc] at h2; simp at h2
    | val ks =>
      rw [hc] at h2
      exact .node ht hc fun k' hk' => wellFormed_of k (List.all_eq_true.mp h2 k' hk')
    | opt => exact .leaf ht (.inl hc)
    | absent => exact .leaf ht (.inr hc)

end Verif.Samples
