import Mathlib.Data.List.Perm.Subperm
import Verif.Spec.Equality
import Verif.Lemmas.Registry
import Verif.Lemmas.Schema
/-!
# Helper lemmas about `==`
-/

namespace Verif
open Spec

/-! ## Values -/

theorem Val.memInduction {P : Val → Prop}
    (h : ∀ v, (∀ l x, v = .list l → x ∈ l → P x) → (∀ d k x, v = .dict d → (k, x) ∈ d → P x) → P v) :
    ∀ v, P v := by
  intro v
  induction hn : sizeOf v using Nat.strongRecOn generalizing v with
  | _ n ih =>
    apply h
    · intro l x hv hx
      refine ih (sizeOf x) ?_ x rfl
      have := List.sizeOf_lt_of_mem hx
      rw [← hn, hv]; simp; omega
    · intro d k x hv hx
      refine ih (sizeOf x) ?_ x rfl
      have := List.sizeOf_lt_of_mem hx
      rw [← hn, hv]; simp at this ⊢; omega

variable {iv : Str → Option Int}

theorem listEq_iff {l m : List Val} :
    listEq iv l m = true ↔ List.Forall₂ (fun v w => v.eq iv w = true) l m := by
  induction l generalizing m with
  | nil => cases m <;> simp [listEq]
  | cons v l ih =>
    cases m with
    | nil => simp [listEq]
    | cons w m => simp [listEq, ih]

theorem dictSub_iff {d e : List (String × Val)} : dictSub iv d e = true ↔
    ∀ k v, (k, v) ∈ d → ∃ w, lookupKey e k = some w ∧ v.eq iv w = true := by
  induction d with
  | nil => simp [dictSub]
  | cons a d ih =>
    obtain ⟨k, v⟩ := a
    rw [dictSub, Bool.and_eq_true, ih]
    constructor
    · rintro ⟨h1, h2⟩ k' v' hm
      rcases List.mem_cons.mp hm with h | h
      · cases h
        cases hl : lookupKey e k with
        | none => rw [hl] at h1; simp at h1
        | some w => rw [hl] at h1; exact ⟨w, rfl, h1⟩
      · exact h2 k' v' h
    · intro h
      refine ⟨?_, fun k' v' hm => h k' v' (List.mem_cons_of_mem _ hm)⟩
      obtain ⟨w, h1, h2⟩ := h k v (List.mem_cons_self)
      rw [h1]; exact h2

theorem uniqueKeysList_iff {l : List Val} : UniqueKeysList l ↔ ∀ x ∈ l, UniqueKeys x := by
  induction l with
  | nil => simp [UniqueKeysList]
  | cons v l ih => simp [UniqueKeysList, ih]

theorem uniqueKeysDict_iff {d : List (String × Val)} : UniqueKeysDict d ↔ ∀ k x, (k, x) ∈ d → UniqueKeys x := by
  induction d with
  | nil => simp [UniqueKeysDict]
  | cons a d ih =>
    obtain ⟨k, v⟩ := a
    rw [UniqueKeysDict, ih]
    constructor
    · rintro ⟨h1, h2⟩ k' x hm
      rcases List.mem_cons.mp hm with h | h
      · cases h; exact h1
      · exact h2 _ _ h
    · intro h
      exact ⟨h k v List.mem_cons_self, fun k' x hm => h k' x (List.mem_cons_of_mem _ hm)⟩

theorem lookup_of_mem {d : List (String × Val)} (hn : (d.map Prod.fst).Nodup) {k : String} {v : Val}
    (h : (k, v) ∈ d) : lookupKey d k = some v := by
  induction d with
  | nil => simp at h
  | cons a d ih =>
    obtain ⟨k', v'⟩ := a
    rw [List.map_cons, List.nodup_cons] at hn
    rw [lookupKey]
    rcases List.mem_cons.mp h with h | h
    · cases h; simp
    · have : k' ≠ k := by
        rintro rfl
        exact hn.1 (List.mem_map.mpr ⟨_, h, rfl⟩)
      rw [if_neg this]
      exact ih hn.2 h

theorem numEq_iff {v w : Val} : numEq iv v w = true ↔ ∃ a, v.num? iv = some a ∧ w.num? iv = some a := by
  unfold numEq
  cases v.num? iv with
  | none => simp
  | some a =>
    cases w.num? iv with
    | none => simp
    | some b => simp only [decide_eq_true_eq, Option.some.injEq, exists_eq_left']; exact eq_comm

theorem eq_refl (v : Val) (h : UniqueKeys v) : v.eq iv v = true := by
  induction v using Val.memInduction with
  | h v ih1 ih2 =>
    cases v with
    | none => rfl
    | opt => rfl
    | str s => simp [Val.eq]
    | bool b => rw [Val.eq, numEq_iff]; exact ⟨_, rfl, rfl⟩
    | int n => rw [Val.eq, numEq_iff]; exact ⟨_, rfl, rfl⟩
    | float r =>
      rw [Val.eq, numEq_iff]
      simp only [Val.num?]
      cases iv r <;> exact ⟨_, rfl, rfl⟩
    | list l =>
      simp only [Val.eq, listEq_iff]
      rw [UniqueKeys, uniqueKeysList_iff] at h
      rw [List.forall₂_same]
      exact fun x hx => ih1 l x rfl hx (h x hx)
    | dict d =>
      simp only [Val.eq, dictSub_iff, Bool.and_eq_true, beq_self_eq_true, true_and]
      rw [UniqueKeys, uniqueKeysDict_iff] at h
      exact fun k v hm => ⟨v, lookup_of_mem h.1 hm, ih2 d k v rfl hm (h.2 k v hm)⟩

theorem eq_trans (u v w : Val) (h1 : u.eq iv v = true) (h2 : v.eq iv w = true) : u.eq iv w = true := by
  induction u using Val.memInduction generalizing v w with
  | h u ih1 ih2 =>
    have num : ∀ u : Val, (∀ w, u.eq iv w = numEq iv u w) → u.eq iv v = true → u.eq iv w = true := by
      intro u hu h
      rw [hu, numEq_iff] at h
      obtain ⟨a, h3, h4⟩ := h
      rw [hu, numEq_iff]
      refine ⟨a, h3, ?_⟩
      have h5 : numEq iv v w = true := by
        cases v <;> first | (simp [Val.num?] at h4) <;> exact h2
      rw [numEq_iff] at h5
      obtain ⟨b, h6, h7⟩ := h5
      rw [h4] at h6; cases h6; exact h7
    cases u with
    | none => cases v <;> simp [Val.eq] at h1; exact h2
    | opt => cases v <;> simp [Val.eq] at h1; exact h2
    | str s => cases v <;> simp [Val.eq] at h1; subst h1; exact h2
    | bool b => exact num _ (fun w => by rw [Val.eq]) h1
    | int b => exact num _ (fun w => by rw [Val.eq]) h1
    | float b => exact num _ (fun w => by rw [Val.eq]) h1
    | list l =>
      cases v <;> simp only [Val.eq, Bool.false_eq_true] at h1
      next m =>
      cases w <;> simp only [Val.eq, Bool.false_eq_true] at h2
      next o =>
      rw [listEq_iff] at h1 h2
      rw [Val.eq, listEq_iff]
      clear num ih2
      induction h1 generalizing o with
      | nil => cases h2; exact .nil
      | cons h _ ih =>
        cases h2 with
        | cons h' t' =>
          exact .cons (ih1 _ _ rfl List.mem_cons_self _ _ h h')
            (ih (fun l x hl hx => by cases hl; exact ih1 _ x rfl (List.mem_cons_of_mem _ hx)) _ t')
    | dict d =>
      cases v <;> simp only [Val.eq, Bool.false_eq_true] at h1
      next e =>
      cases w <;> simp only [Val.eq, Bool.false_eq_true] at h2
      next f =>
      simp only [Bool.and_eq_true, beq_iff_eq, dictSub_iff] at h1 h2
      simp only [Val.eq, Bool.and_eq_true, beq_iff_eq, dictSub_iff]
      refine ⟨h1.1.trans h2.1, fun k v hm => ?_⟩
      obtain ⟨w, h3, h4⟩ := h1.2 k v hm
      obtain ⟨x, h5, h6⟩ := h2.2 k w (lookupKey_mem h3)
      exact ⟨x, h5, ih2 d k v rfl hm _ _ h4 h6⟩

/-- The keys of equal dicts. -/
theorem dict_keys {d e : List (String × Val)} (hn : (d.map Prod.fst).Nodup) (hl : d.length = e.length)
    (hs : dictSub iv d e = true) : (d.map Prod.fst).Perm (e.map Prod.fst) := by
  have hsub : d.map Prod.fst ⊆ e.map Prod.fst := by
    intro k hk
    obtain ⟨⟨k', v⟩, hm, rfl⟩ := List.mem_map.mp hk
    obtain ⟨w, h1, _⟩ := dictSub_iff.mp hs k' v hm
    exact List.mem_map.mpr ⟨_, lookupKey_mem h1, rfl⟩
  exact (List.Nodup.subperm hn hsub).perm_of_length_le (by simp [hl])

theorem lookup_none_iff {d : List (String × Val)} {k : String} :
    lookupKey d k = none ↔ k ∉ d.map Prod.fst := by
  induction d with
  | nil => simp [lookupKey]
  | cons a d ih =>
    obtain ⟨k', v⟩ := a
    rw [lookupKey]
    by_cases h : k' = k
    · simp [h]
    · rw [if_neg h, ih]
      simp [Ne.symm h]

/-- What equal dicts have at a key. -/
theorem lookup_eq {d e : List (String × Val)} (hn : (d.map Prod.fst).Nodup)
    (h : (Val.dict d).eq iv (.dict e) = true) (k : String) :
    (lookupKey d k = none ∧ lookupKey e k = none) ∨
    ∃ v w, lookupKey d k = some v ∧ lookupKey e k = some w ∧ v.eq iv w = true := by
  simp only [Val.eq, Bool.and_eq_true, beq_iff_eq] at h
  cases hd : lookupKey d k with
  | some v =>
    obtain ⟨w, h1, h2⟩ := dictSub_iff.mp h.2 k v (lookupKey_mem hd)
    exact .inr ⟨v, w, rfl, h1, h2⟩
  | none =>
    refine .inl ⟨rfl, ?_⟩
    rw [lookup_none_iff] at hd ⊢
    rwa [← (dict_keys hn h.1 h.2).mem_iff]

theorem eq_symm (v w : Val) (hk : UniqueKeys v) (h : v.eq iv w = true) : w.eq iv v = true := by
  induction v using Val.memInduction generalizing w with
  | h v ih1 ih2 =>
    have num : ∀ v : Val, (∀ w, v.eq iv w = numEq iv v w) → v.eq iv w = true → w.eq iv v = true := by
      intro v hv h
      rw [hv, numEq_iff] at h
      obtain ⟨a, h3, h4⟩ := h
      have : numEq iv w v = true := numEq_iff.mpr ⟨a, h4, h3⟩
      cases w <;> first | (simp [Val.num?] at h4) <;> exact this
    cases v with
    | none => cases w <;> simp [Val.eq] at h; rfl
    | opt => cases w <;> simp [Val.eq] at h; rfl
    | str s => cases w <;> simp [Val.eq] at h; subst h; simp [Val.eq]
    | bool b => exact num _ (fun w => by rw [Val.eq]) h
    | int b => exact num _ (fun w => by rw [Val.eq]) h
    | float b => exact num _ (fun w => by rw [Val.eq]) h
    | list l =>
      cases w <;> simp only [Val.eq, Bool.false_eq_true] at h
      next m =>
      rw [listEq_iff] at h
      rw [Val.eq, listEq_iff]
      rw [UniqueKeys, uniqueKeysList_iff] at hk
      clear num ih2
      induction h with
      | nil => exact .nil
      | cons h _ ih =>
        exact .cons (ih1 _ _ rfl List.mem_cons_self _ (hk _ List.mem_cons_self) h)
          (ih (fun l x hl hx => by cases hl; exact ih1 _ x rfl (List.mem_cons_of_mem _ hx))
            (fun x hx => hk x (List.mem_cons_of_mem _ hx)))
    | dict d =>
      cases w <;> simp only [Val.eq, Bool.false_eq_true] at h
      next e =>
      rw [UniqueKeys, uniqueKeysDict_iff] at hk
      have hde : (Val.dict d).eq iv (.dict e) = true := by simpa only [Val.eq] using h
      simp only [Bool.and_eq_true, beq_iff_eq] at h
      simp only [Val.eq, Bool.and_eq_true, beq_iff_eq, dictSub_iff]
      refine ⟨h.1.symm, fun k w hm => ?_⟩
      have hne : (e.map Prod.fst).Nodup := (dict_keys hk.1 h.1 h.2).nodup_iff.mp hk.1
      rcases lookup_eq hk.1 hde k with ⟨_, h2⟩ | ⟨v, w', h1, h2, h3⟩
      · rw [lookup_of_mem hne hm] at h2; simp at h2
      · rw [lookup_of_mem hne hm] at h2; cases h2
        exact ⟨v, h1, ih2 d k v rfl (lookupKey_mem h1) _ (hk.2 k v (lookupKey_mem h1)) h3⟩

theorem str_eq {s : Str} {w : Val} (h : (Val.str s).eq iv w = true) : w = .str s := by
  cases w <;> simp [Val.eq] at h
  rw [h]

theorem list_eq {l : List Val} {w : Val} (h : (Val.list l).eq iv w = true) :
    ∃ m, w = .list m ∧ List.Forall₂ (fun v w => v.eq iv w = true) l m := by
  cases w <;> simp only [Val.eq, Bool.false_eq_true] at h
  exact ⟨_, rfl, listEq_iff.mp h⟩

theorem opt_eq {w : Val} (h : (Val.opt).eq iv w = true) : w = .opt := by
  cases w <;> simp [Val.eq] at h
  rfl

/-- Which constructor an equal value has. -/
theorem eq_kind {v w : Val} (h : v.eq iv w = true) :
    ((∃ d, v = .dict d) ↔ ∃ d, w = .dict d) ∧ ((∃ l, v = .list l) ↔ ∃ l, w = .list l) ∧
    ((∃ s, v = .str s) ↔ ∃ s, w = .str s) ∧ (v = .opt ↔ w = .opt) ∧ v.hashable = w.hashable := by
  cases v <;> cases w <;> first
    | (simp [Val.hashable]; done)
    | (simp [Val.eq] at h; done)
    | (simp [Val.eq, numEq_iff, Val.num?] at h)

end Verif
