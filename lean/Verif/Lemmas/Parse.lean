import Verif.Model.FromDict
import Verif.Spec.Registry
/-!
# Helper lemmas about parsing
-/

namespace Verif

/-! ## Induction over JSON trees along `content` -/

theorem lookupKey_mem {d : List (String × Val)} {k : String} {v : Val}
    (h : lookupKey d k = some v) : (k, v) ∈ d := by
  induction d with
  | nil => simp [lookupKey] at h
  | cons e rest ih =>
    obtain ⟨k', v'⟩ := e
    simp only [lookupKey] at h
    split at h
    · next hk => simp at h; subst h; subst hk; simp
    · exact List.mem_cons_of_mem _ (ih h)

theorem sizeOf_lt_of_lookup {d : List (String × Val)} {k : String} {l : List Val} {x : Val}
    (h : lookupKey d k = some (.list l)) (hx : x ∈ l) : sizeOf x < sizeOf (Val.dict d) := by
  have h1 := List.sizeOf_lt_of_mem (lookupKey_mem h)
  have h2 := List.sizeOf_lt_of_mem hx
  simp at h1 ⊢
  omega

/-- Induction along the `content` lists of a JSON tree. -/
theorem Val.contentInduction {P : Val → Prop}
    (h : ∀ v, (∀ d l x, v = .dict d → lookupKey d "content" = some (.list l) → x ∈ l → P x) → P v) :
    ∀ v, P v := by
  intro v
  induction hn : sizeOf v using Nat.strongRecOn generalizing v with
  | _ n ih =>
    apply h
    intro d l x hv hl hx
    refine ih (sizeOf x) ?_ x rfl
    rw [← hn, hv]
    exact sizeOf_lt_of_lookup hl hx

/-- Induction over node trees. -/
theorem Node.induction {P : Node → Prop}
    (h : ∀ hd c, (∀ l x, c = .val l → x ∈ l → P x) → P (.mk hd c)) : ∀ n, P n := by
  intro n
  induction hn : sizeOf n using Nat.strongRecOn generalizing n with
  | _ m ih =>
    obtain ⟨hd, c⟩ := n
    apply h
    intro l x hc hx
    refine ih (sizeOf x) ?_ x rfl
    have h2 := List.sizeOf_lt_of_mem hx
    rw [← hn, hc]
    simp
    omega

/-! ## Steps as functions of lookups -/

theorem contentStep_eq (w : Bool) (d : List (String × Val)) :
    contentStep w d =
      match lookupKey d "content" with
      | none => .ok none
      | some (.list l) => (parseNodes w l).map fun ns => some (.val ns)
      | some v => .ok (some (rawSlot v)) := by
  induction d with
  | nil => simp [contentStep, lookupKey]
  | cons e rest ih =>
    obtain ⟨k, v⟩ := e
    simp only [lookupKey]
    by_cases hk : k = "content"
    · cases v <;> simp [contentStep, hk]
    · cases v <;> simp [contentStep, hk, ih]

/-- `parse_node` on a dict. -/
theorem parseNode_dict (w : Bool) (d : List (String × Val)) :
    parseNode w (.dict d) =
      match lookupKey d "type" with
      | none => .err .keyError
      | some t =>
        match registryLookup nodeRegistry t with
        | .error e => .err e
        | .ok none => .err (.unimplementedType t "node")
        | .ok (some c) => nodeFromDict w c d (contentStep w d) := by
  rw [parseNode]
  rfl

/-! ## The result monad -/

theorem Res.bind_out_ok {α β : Type} {x : Res α} {f : α → Res β} {b : β}
    (h : (x.bind f).out = .ok b) : ∃ a, x.out = .ok a ∧ (f a).out = .ok b := by
  unfold Res.bind at h
  split at h
  · simp at h
  · next a ha => exact ⟨a, ha, h⟩

theorem Res.bind_of_ok {α β : Type} {x : Res α} {f : α → Res β} {a : α} (h : x.out = .ok a) :
    x.bind f = ⟨x.log ++ (f a).log, (f a).out⟩ := by
  unfold Res.bind
  simp [h]

theorem Res.bind_of_error {α β : Type} {x : Res α} {f : α → Res β} {e : PyErr}
    (h : x.out = .error e) : x.bind f = ⟨x.log, .error e⟩ := by
  unfold Res.bind
  simp [h]

theorem Res.bind_out {α β : Type} (x : Res α) (f : α → Res β) :
    (x.bind f).out = match x.out with
      | .error e => .error e
      | .ok a => (f a).out := by
  unfold Res.bind
  cases x.out <;> rfl

theorem Res.map_out {α β : Type} (x : Res α) (g : α → β) :
    (x.map g).out = match x.out with
      | .error e => .error e
      | .ok a => .ok (g a) := by
  simp only [Res.map, Res.bind_out]
  cases x.out <;> rfl

theorem Res.map_log {α β : Type} (x : Res α) (g : α → β) : (x.map g).log = x.log := by
  unfold Res.map Res.bind
  split <;> simp [Res.ok]

theorem Res.skip_out {α : Type} (w : Bool) (x : Res α) :
    (x.skipUnimplemented w).out = match x.out with
      | .ok a => .ok (some a)
      | .error (.unimplementedType _ _) => .ok none
      | .error e => .error e := by
  unfold Res.skipUnimplemented
  cases x.out with
  | ok a => rfl
  | error e => cases e <;> rfl

/-! ## Registry -/

theorem findString {κ : Type} (reg : List (TypeEnum × κ)) (tbl : List (String × κ))
    (h : reg.map (fun e => (e.1.value, e.2)) = tbl) (s : Str) :
    (reg.find? fun e => e.1.value.toList == s).map (·.2) =
      (tbl.find? fun e => e.1.toList == s).map (·.2) := by
  subst h
  induction reg with
  | nil => rfl
  | cons e rest ih =>
    simp only [List.map_cons, List.find?_cons]
    cases e.1.value.toList == s
    · simpa using ih
    · simp

end Verif
