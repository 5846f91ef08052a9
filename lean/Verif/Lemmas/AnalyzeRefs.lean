import Verif.Lemmas.Analyze
import Mathlib.Data.List.Infix
/-!
# References and base types in the schema analysis
-/

namespace Verif.Analyze
open Verif Verif.Spec.Analyze

/-! ## Sets -/

theorem mem_add {s : List Str} {x y : Str} : y ∈ add s x ↔ y ∈ s ∨ y = x := by
  unfold add; split
  · constructor
    · exact .inl
    · rintro (h | rfl) <;> assumption
  · simp

theorem add_nodup {s : List Str} (h : s.Nodup) (x : Str) : (add s x).Nodup := by
  unfold add; split
  · exact h
  · rename_i hx
    rw [List.nodup_append]
    exact ⟨h, by simp, by rintro a ha b hb rfl; exact hx (List.mem_singleton.mp hb ▸ ha)⟩

/-! ## `extract_refs` -/

theorem refPrefix_eq : refPrefix = "#/definitions/".toList := rfl

theorem ownRef_ok {d : List (String × Val)} {refs r : List Str} (h : ownRef d refs = .ok r) :
    (∀ name, name ∈ r ↔ name ∈ refs ∨ lookupKey d "$ref" = some (.str ("#/definitions/".toList ++ name))) ∧
    (refs.Nodup → r.Nodup) ∧ ∀ x, lookupKey d "$ref" = some x → ∃ s, x = .str s := by
  unfold ownRef at h
  split at h
  · rename_i s hs
    cases h
    refine ⟨fun name => ?_, fun hn => ?_, fun x hx => ⟨s, by rw [hs] at hx; exact (Option.some.inj hx).symm⟩⟩
    · rw [hs]
      simp only [Option.some.injEq, Val.str.injEq, ← refPrefix_eq]
      split
      · rename_i hp
        obtain ⟨t, rfl⟩ := List.isPrefixOf_iff_prefix.mp hp
        rw [mem_add]
        simp only [List.drop_left, List.append_cancel_left_eq]
        exact or_congr Iff.rfl ⟨fun h => h.symm, fun h => h.symm⟩
      · rename_i hp
        constructor
        · exact .inl
        · rintro (h | h)
          · exact h
          · exact absurd (List.isPrefixOf_iff_prefix.mpr ⟨name, h.symm⟩) hp
    · split
      · exact add_nodup hn _
      · exact hn
  · simp at h
  · rename_i hs
    cases h
    exact ⟨fun name => by simp [hs], id, by simp [hs]⟩

theorem ownRef_error {d : List (String × Val)} {refs : List Str} {e : PyErr} (h : ownRef d refs = .error e) :
    e = .attributeError ∧ ∃ x, lookupKey d "$ref" = some x ∧ ∀ s, x ≠ .str s := by
  unfold ownRef at h
  split at h
  · simp at h
  · rename_i x hx hs
    cases h
    exact ⟨rfl, x, hs, fun s hxs => hx s hxs⟩
  · simp at h

/-- What a call of `extract_refs` has to satisfy. -/
def RefsOk (out : Except PyErr (List Str)) (refs : List Str) (named : Str → Prop) (bad : Prop) : Prop :=
  match out with
  | .ok r => (∀ name, name ∈ r ↔ name ∈ refs ∨ named name) ∧ (refs.Nodup → r.Nodup) ∧ ¬ bad
  | .error e => e = .attributeError ∧ bad

theorem refs_bind {a : Except PyErr (List Str)} {f : List Str → Except PyErr (List Str)} {refs : List Str}
    {n1 n2 n : Str → Prop} {b1 b2 b : Prop} (h1 : RefsOk a refs n1 b1) (h2 : ∀ r, RefsOk (f r) r n2 b2)
    (hn : ∀ x, n x ↔ n1 x ∨ n2 x) (hb : b ↔ b1 ∨ b2) : RefsOk (a >>= f) refs n b := by
  cases a with
  | error e => exact ⟨h1.1, hb.mpr (.inl h1.2)⟩
  | ok r =>
    have h3 := h2 r
    show RefsOk (f r) refs n b
    cases hf : f r with
    | error e => rw [hf] at h3; exact ⟨h3.1, hb.mpr (.inr h3.2)⟩
    | ok r' =>
      rw [hf] at h3
      refine ⟨fun x => ?_, fun h => h3.2.1 (h1.2.1 h), ?_⟩
      · rw [h3.1, h1.1, hn, or_assoc]
      · rw [hb]; exact not_or.mpr ⟨h1.2.2, h3.2.2⟩

theorem ownRef_refsOk (d : List (String × Val)) (refs : List Str) : RefsOk (ownRef d refs) refs
    (fun name => lookupKey d "$ref" = some (.str ("#/definitions/".toList ++ name)))
    (∃ x, lookupKey d "$ref" = some x ∧ ∀ s, x ≠ .str s) := by
  cases h : ownRef d refs with
  | error e => exact ownRef_error h
  | ok r =>
    obtain ⟨h1, h2, h3⟩ := ownRef_ok h
    refine ⟨h1, h2, ?_⟩
    rintro ⟨x, hx, hs⟩
    obtain ⟨s, rfl⟩ := h3 x hx
    exact hs s rfl

mutual
theorem extractRefs_spec : ∀ (v : Val) (refs : List Str), RefsOk (extractRefs v refs) refs (Refers v) (BadRef v)
  | .dict d, refs => by
    rw [extractRefs]
    refine refs_bind (ownRef_refsOk d refs) (fun r => extractValues_spec d r) (fun x => ?_) ?_
    · constructor
      · intro h
        cases h with
        | here _ _ h => exact .inl h
        | value _ k v _ hm hv => exact .inr ⟨k, v, hm, hv⟩
      · rintro (h | ⟨k, v, hm, hv⟩)
        · exact .here d x h
        · exact .value d k v x hm hv
    · constructor
      · intro h
        cases h with
        | here _ x hx hs => exact .inl ⟨x, hx, hs⟩
        | value _ k v hm hv => exact .inr ⟨k, v, hm, hv⟩
      · rintro (⟨x, hx, hs⟩ | ⟨k, v, hm, hv⟩)
        · exact .here d x hx hs
        · exact .value d k v hm hv
  | .list l, refs => by
    rw [extractRefs]
    have := extractItems_spec l refs
    convert this using 1
    · funext x
      apply propext
      constructor
      · intro h; cases h with | item _ v _ hm hv => exact ⟨v, hm, hv⟩
      · rintro ⟨v, hm, hv⟩; exact .item l v x hm hv
    · constructor
      · intro h; cases h with | item _ v hm hv => exact ⟨v, hm, hv⟩
      · rintro ⟨v, hm, hv⟩; exact .item l v hm hv
  | .none, refs => ⟨fun x => ⟨.inl, fun h => h.elim id nofun⟩, id, nofun⟩
  | .bool _, refs => ⟨fun x => ⟨.inl, fun h => h.elim id nofun⟩, id, nofun⟩
  | .int _, refs => ⟨fun x => ⟨.inl, fun h => h.elim id nofun⟩, id, nofun⟩
  | .float _, refs => ⟨fun x => ⟨.inl, fun h => h.elim id nofun⟩, id, nofun⟩
  | .str _, refs => ⟨fun x => ⟨.inl, fun h => h.elim id nofun⟩, id, nofun⟩
  | .opt, refs => ⟨fun x => ⟨.inl, fun h => h.elim id nofun⟩, id, nofun⟩
theorem extractValues_spec : ∀ (d : List (String × Val)) (refs : List Str), RefsOk (extractValues d refs) refs
    (fun name => ∃ k v, (k, v) ∈ d ∧ Refers v name) (∃ k v, (k, v) ∈ d ∧ BadRef v)
  | [], refs => ⟨fun x => by simp, id, by simp⟩
  | (k, v) :: d, refs => by
    rw [extractValues]
    refine refs_bind (extractRefs_spec v refs) (fun r => extractValues_spec d r) (fun x => ?_) ?_
    · simp only [List.mem_cons, Prod.mk.injEq]
      constructor
      · rintro ⟨k', v', (⟨rfl, rfl⟩ | h), hr⟩
        · exact .inl hr
        · exact .inr ⟨k', v', h, hr⟩
      · rintro (h | ⟨k', v', h, hr⟩)
        · exact ⟨k, v, .inl ⟨rfl, rfl⟩, h⟩
        · exact ⟨k', v', .inr h, hr⟩
    · simp only [List.mem_cons, Prod.mk.injEq]
      constructor
      · rintro ⟨k', v', (⟨rfl, rfl⟩ | h), hr⟩
        · exact .inl hr
        · exact .inr ⟨k', v', h, hr⟩
      · rintro (h | ⟨k', v', h, hr⟩)
        · exact ⟨k, v, .inl ⟨rfl, rfl⟩, h⟩
        · exact ⟨k', v', .inr h, hr⟩
theorem extractItems_spec : ∀ (l : List Val) (refs : List Str), RefsOk (extractItems l refs) refs
    (fun name => ∃ v, v ∈ l ∧ Refers v name) (∃ v, v ∈ l ∧ BadRef v)
  | [], refs => ⟨fun x => by simp, id, by simp⟩
  | v :: l, refs => by
    rw [extractItems]
    refine refs_bind (extractRefs_spec v refs) (fun r => extractItems_spec l r) (fun x => ?_) ?_
    · simp
    · simp
end

/-! ## `get_base_type` -/

theorem before_cases (sep : Str) (hs : sep ≠ []) : ∀ s : Str,
    (¬ sep <:+: s ∧ before sep s = s) ∨
      ∃ t, s = before sep s ++ sep ++ t ∧ ¬ sep <:+: before sep s ++ sep.dropLast
  | [] => .inl ⟨by simpa using hs, rfl⟩
  | c :: s => by
    rw [before]
    split
    · rename_i hp
      obtain ⟨t, ht⟩ := List.isPrefixOf_iff_prefix.mp hp
      right
      refine ⟨t, by simpa using ht.symm, fun h => ?_⟩
      have := h.length_le
      have h2 : 0 < sep.length := List.length_pos_iff.mpr hs
      simp at this
      omega
    · rename_i hp
      have hp' : ¬ sep <+: c :: s := fun h => hp (List.isPrefixOf_iff_prefix.mpr h)
      rcases before_cases sep hs s with ⟨h1, h2⟩ | ⟨t, h1, h2⟩
      · left
        rw [h2]
        exact ⟨fun h => (List.infix_cons_iff.mp h).elim hp' h1, rfl⟩
      · right
        refine ⟨t, by rw [List.cons_append, List.cons_append, ← h1], ?_⟩
        rw [List.cons_append, List.infix_cons_iff]
        rintro (h | h)
        · refine hp' (h.trans ?_)
          have h3 : c :: s = (c :: before sep s) ++ (sep ++ t) := by
            rw [List.cons_append, ← List.append_assoc, ← h1]
          rw [h3, ← List.cons_append]
          refine (List.prefix_append_right_inj _).mpr ?_
          exact (List.dropLast_prefix sep).trans (List.prefix_append _ _)
        · exact h2 h

theorem before_unique {sep s b : Str} (hs : sep ≠ []) :
    before sep s = b ↔ (s = b ∧ ¬ sep <:+: s) ∨ ∃ t, s = b ++ sep ++ t ∧ ¬ sep <:+: b ++ sep.dropLast := by
  constructor
  · rintro rfl
    rcases before_cases sep hs s with ⟨h1, h2⟩ | h
    · exact .inl ⟨h2.symm, h1⟩
    · exact .inr h
  · rintro (⟨rfl, h⟩ | ⟨t, rfl, h⟩)
    · rcases before_cases sep hs s with ⟨h1, h2⟩ | ⟨t, h1, h2⟩
      · exact h2
      · exact absurd ⟨before sep s, t, h1.symm⟩ h
    · rcases before_cases sep hs (b ++ sep ++ t) with ⟨h1, h2⟩ | ⟨t', h1, h2⟩
      · exact absurd ⟨b, t, rfl⟩ h1
      · generalize before sep (b ++ sep ++ t) = b' at h1 h2
        -- two first occurrences
        have key : ∀ (b b' t t' : Str), b ++ sep ++ t = b' ++ sep ++ t' → b'.length < b.length →
            sep <:+: b ++ sep.dropLast := by
          intro b b' t t' he hl
          have hpre : b' ++ sep <+: b ++ sep ++ t := ⟨t', by simpa using he.symm⟩
          have hpre2 : b ++ sep.dropLast <+: b ++ sep ++ t := by
            rw [List.append_assoc]
            exact (List.prefix_append_right_inj _).mpr ((List.dropLast_prefix sep).trans (List.prefix_append _ _))
          have : b' ++ sep <+: b ++ sep.dropLast :=
            List.prefix_of_prefix_length_le hpre hpre2 (by
              have : 0 < sep.length := List.length_pos_iff.mpr hs
              simp; omega)
          exact (List.suffix_append b' sep).isInfix.trans this.isInfix
        rcases Nat.lt_trichotomy b'.length b.length with hl | hl | hl
        · exact absurd (key b b' t t' h1 hl) h
        · have := List.append_inj_left (by simpa using h1 : b ++ (sep ++ t) = b' ++ (sep ++ t')) hl.symm
          exact this.symm
        · exact absurd (key b' b t' t h1.symm hl) h2

theorem endsWith_iff {s suffix : Str} : endsWith s suffix = true ↔ ∃ t, s = t ++ suffix := by
  rw [endsWith, List.isSuffixOf_iff_suffix]
  exact ⟨fun ⟨t, h⟩ => ⟨t, h.symm⟩, fun ⟨t, h⟩ => ⟨t, h.symm⟩⟩

theorem baseType_node (s : Str) : baseType (s ++ "_node".toList) = some (before "_with_".toList s) := by
  rw [baseType, if_pos (endsWith_iff.mpr ⟨s, rfl⟩)]
  simp

theorem nodeOf_iff {name b : Str} (hn : endsWith name "_node".toList = true) :
    (baseType name = some b ∧ b ≠ []) ↔ NodeOf name b := by
  obtain ⟨s, rfl⟩ := endsWith_iff.mp hn
  rw [baseType_node, Option.some.injEq, before_unique (by decide), NodeOf, and_comm]
  refine and_congr Iff.rfl ?_
  constructor
  · intro h; exact ⟨s, rfl, h⟩
  · rintro ⟨s', he, h⟩
    rw [List.append_cancel_right he]; exact h

theorem of_iff {name b : Str} : (baseType name = some b ∧ b ≠ []) ↔ Of name b := by
  by_cases hn : endsWith name "_node".toList = true
  · rw [nodeOf_iff hn]
    refine ⟨.inl, ?_⟩
    rintro (h | ⟨hb, rfl⟩)
    · exact h
    · obtain ⟨s, hs⟩ := endsWith_iff.mp hn
      have := List.append_inj_right' hs (by decide)
      exact absurd this (by decide)
  · rw [baseType, if_neg hn]
    have hno : ¬ NodeOf name b := by
      rintro ⟨_, s, rfl, _⟩
      exact hn (endsWith_iff.mpr ⟨s, rfl⟩)
    split
    · rename_i hm
      obtain ⟨s, rfl⟩ := endsWith_iff.mp hm
      rw [show (s ++ "_mark".toList).take ((s ++ "_mark".toList).length - 5) = s by simp]
      simp only [Option.some.injEq, Of, hno, false_or]
      constructor
      · rintro ⟨rfl, h⟩; exact ⟨h, rfl⟩
      · rintro ⟨h, he⟩; exact ⟨List.append_cancel_right he, h⟩
    · rename_i hm
      simp only [reduceCtorEq, false_and, Of, hno, false_or, false_iff]
      rintro ⟨_, rfl⟩
      exact hm (endsWith_iff.mpr ⟨b, rfl⟩)

theorem of_suffix {name b : Str} (h : Of name b) :
    (endsWith name "_node".toList || endsWith name "_mark".toList) = true := by
  rw [Bool.or_eq_true]
  rcases h with ⟨_, s, rfl, _⟩ | ⟨_, rfl⟩
  · exact .inl (endsWith_iff.mpr ⟨s, rfl⟩)
  · exact .inr (endsWith_iff.mpr ⟨b, rfl⟩)

/-! ## `main` -/

theorem nodeDeps_ok : ∀ (defs : List (String × Val)),
    (∀ name v, (name, v) ∈ defs → endsWith name.toList "_node".toList = true → ¬ BadRef v) →
    ∃ g, nodeDeps defs = .ok g ∧
      g.keys = (defs.map (·.1.toList)).filter (fun n => endsWith n "_node".toList) ∧
      ∀ n ds, (n, ds) ∈ g → ∃ name v, (name, v) ∈ defs ∧ n = name.toList ∧
        ∀ r, r ∈ ds ↔ Refers v r ∧ (endsWith r "_node".toList || endsWith r "_mark".toList) = true
  | [], _ => ⟨[], rfl, rfl, by simp⟩
  | (name, v) :: defs, h => by
    obtain ⟨g, h1, h2, h3⟩ := nodeDeps_ok defs fun n v hm => h n v (by simp [hm])
    rw [nodeDeps]
    by_cases hn : endsWith name.toList "_node".toList = true
    · have hs := extractRefs_spec v []
      cases he : extractRefs v [] with
      | error e => rw [he] at hs; exact absurd hs.2 (h name v (by simp) hn)
      | ok r =>
        rw [he] at hs
        refine ⟨_, by rw [if_pos hn, h1]; rfl, ?_, ?_⟩
        · simp only [List.map_cons, List.filter_cons, hn, if_true]
          rw [← h2]; rfl
        · intro n ds hm
          rcases List.mem_cons.mp hm with hm | hm
          · cases hm
            refine ⟨name, v, by simp, rfl, fun r' => ?_⟩
            rw [List.mem_filter, hs.1]; simp
          · obtain ⟨name', v', h4, h5⟩ := h3 n ds hm
            exact ⟨name', v', by simp [h4], h5⟩
    · refine ⟨g, by rw [if_neg hn]; exact h1, ?_, ?_⟩
      · rw [h2, List.map_cons, List.filter_cons, if_neg hn]
      · intro n ds hm
        obtain ⟨name', v', h4, h5⟩ := h3 n ds hm
        exact ⟨name', v', by simp [h4], h5⟩

theorem nodeDeps_error : ∀ (defs : List (String × Val)) (name : String) (v : Val), (name, v) ∈ defs →
    endsWith name.toList "_node".toList = true → BadRef v → nodeDeps defs = .error .attributeError
  | [], _, _, h, _, _ => by simp at h
  | (name', v') :: defs, name, v, hm, hn, hb => by
    rw [nodeDeps]
    have hs := extractRefs_spec v' []
    rcases List.mem_cons.mp hm with h | h
    · obtain ⟨rfl, rfl⟩ := Prod.mk.inj h
      rw [if_pos hn]
      cases he : extractRefs v [] with
      | error e => rw [he] at hs; rw [hs.1]; rfl
      | ok r => rw [he] at hs; exact absurd hb hs.2.2
    · have ih := nodeDeps_error defs name v h hn hb
      rw [ih]
      split
      · cases he : extractRefs v' [] with
        | error e => rw [he] at hs; rw [hs.1]; rfl
        | ok r => rfl
      · rfl

/-! ### Grouping -/

structure Grouped (m : List (Str × List Str)) (names : List Str) : Prop where
  nodup : (m.map (·.1)).Nodup
  mem : ∀ b l, (b, l) ∈ m → ∀ n, n ∈ l ↔ n ∈ names ∧ baseType n = some b ∧ b ≠ []
  keys : ∀ b, b ∈ m.map (·.1) ↔ ∃ n ∈ names, baseType n = some b ∧ b ≠ []

theorem push_keys (m : List (Str × List Str)) (base name : Str) :
    (push m base name).map (·.1) = if base ∈ m.map (·.1) then m.map (·.1) else m.map (·.1) ++ [base] := by
  induction m with
  | nil => simp [push]
  | cons e m ih =>
    obtain ⟨b, l⟩ := e
    rw [push]
    split
    · rename_i h; simp [h]
    · rename_i h
      simp only [List.map_cons, ih, List.mem_cons, Ne.symm h, false_or]
      split <;> simp

theorem push_mem {m : List (Str × List Str)} {base name : Str} (hn : (m.map (·.1)).Nodup) {b : Str} {l : List Str}
    (h : (b, l) ∈ push m base name) :
    (b ≠ base ∧ (b, l) ∈ m) ∨ (b = base ∧ ((base ∉ m.map (·.1) ∧ l = [name]) ∨ ∃ l', (base, l') ∈ m ∧ l = l' ++ [name])) := by
  induction m with
  | nil => simp only [push, List.mem_singleton, Prod.mk.injEq] at h; right; simp [h]
  | cons e m ih =>
    obtain ⟨b0, l0⟩ := e
    simp only [List.map_cons, List.nodup_cons] at hn
    rw [push] at h
    split at h
    · rename_i he
      subst he
      rcases List.mem_cons.mp h with h | h
      · cases h; exact .inr ⟨rfl, .inr ⟨l0, by simp, rfl⟩⟩
      · left
        exact ⟨fun hb => hn.1 (hb ▸ List.mem_map_of_mem (f := (·.1)) h), by simp [h]⟩
    · rename_i he
      rcases List.mem_cons.mp h with h | h
      · cases h; exact .inl ⟨he, by simp⟩
      · rcases ih hn.2 h with ⟨h1, h2⟩ | ⟨rfl, ⟨h1, h2⟩ | ⟨l', h1, h2⟩⟩
        · exact .inl ⟨h1, by simp [h2]⟩
        · exact .inr ⟨rfl, .inl ⟨by simpa [Ne.symm he] using h1, h2⟩⟩
        · exact .inr ⟨rfl, .inr ⟨l', by simp [h1], h2⟩⟩

theorem grouped_step {m : List (Str × List Str)} {names : List Str} (h : Grouped m names) (name : Str) :
    Grouped (groupStep m name) (names ++ [name]) := by
  have same : (∀ b, ¬ (baseType name = some b ∧ b ≠ [])) → Grouped m (names ++ [name]) := by
    intro hno
    refine ⟨h.nodup, fun b l hm n => ?_, fun b => ?_⟩
    · rw [h.mem b l hm]
      simp only [List.mem_append, List.mem_singleton]
      constructor
      · rintro ⟨h1, h2⟩; exact ⟨.inl h1, h2⟩
      · rintro ⟨h1 | rfl, h2⟩
        · exact ⟨h1, h2⟩
        · exact absurd h2 (hno b)
    · rw [h.keys]
      simp only [List.mem_append, List.mem_singleton]
      constructor
      · rintro ⟨n, h1, h2⟩; exact ⟨n, .inl h1, h2⟩
      · rintro ⟨n, h1 | rfl, h2⟩
        · exact ⟨n, h1, h2⟩
        · exact absurd h2 (hno b)
  unfold groupStep
  split
  · rename_i base hb
    split
    · rename_i he
      exact same (by rintro b ⟨h1, h2⟩; rw [hb] at h1; cases h1; exact h2 he)
    · rename_i he
      refine ⟨?_, fun b l hm n => ?_, fun b => ?_⟩
      · rw [push_keys]
        split
        · exact h.nodup
        · rename_i hk
          rw [List.nodup_append]
          exact ⟨h.nodup, by simp, by rintro a ha b hb rfl; exact hk (List.mem_singleton.mp hb ▸ ha)⟩
      · rcases push_mem h.nodup hm with ⟨h1, h2⟩ | ⟨rfl, ⟨h1, rfl⟩ | ⟨l', h1, rfl⟩⟩
        · rw [h.mem b l h2]
          simp only [List.mem_append, List.mem_singleton]
          constructor
          · rintro ⟨h3, h4⟩; exact ⟨.inl h3, h4⟩
          · rintro ⟨h3 | rfl, h4⟩
            · exact ⟨h3, h4⟩
            · rw [hb] at h4; exact absurd (Option.some.inj h4.1).symm h1
        · simp only [List.mem_append, List.mem_singleton]
          constructor
          · rintro rfl; exact ⟨.inr rfl, hb, he⟩
          · rintro ⟨h3 | rfl, h4⟩
            · exact absurd ((h.keys b).mpr ⟨n, h3, h4⟩) h1
            · rfl
        · simp only [List.mem_append, List.mem_singleton, h.mem b l' h1]
          constructor
          · rintro (⟨h3, h4⟩ | rfl)
            · exact ⟨.inl h3, h4⟩
            · exact ⟨.inr rfl, hb, he⟩
          · rintro ⟨h3 | rfl, h4⟩
            · exact .inl ⟨h3, h4⟩
            · exact .inr rfl
      · rw [push_keys]
        simp only [List.mem_append, List.mem_singleton]
        have : b ∈ (if base ∈ m.map (·.1) then m.map (·.1) else m.map (·.1) ++ [base]) ↔ b ∈ m.map (·.1) ∨ b = base := by
          split
          · rename_i hk
            constructor
            · exact .inl
            · rintro (h | rfl) <;> assumption
          · simp
        rw [this, h.keys]
        constructor
        · rintro (⟨n, h1, h2⟩ | rfl)
          · exact ⟨n, .inl h1, h2⟩
          · exact ⟨name, .inr rfl, hb, he⟩
        · rintro ⟨n, h1 | rfl, h2⟩
          · exact .inl ⟨n, h1, h2⟩
          · rw [hb] at h2; exact .inr (Option.some.inj h2.1).symm
  · rename_i hb
    exact same (by simp [hb])

theorem grouped (names : List Str) : Grouped (groupBases names) names := by
  have : ∀ (rest done : List Str) (m : List (Str × List Str)), Grouped m done →
      Grouped (rest.foldl groupStep m) (done ++ rest) := by
    intro rest
    induction rest with
    | nil => intro done m h; simpa using h
    | cons n rest ih =>
      intro done m h
      have := ih _ _ (grouped_step h n)
      simpa using this
  have := this names [] [] ⟨by simp, by simp, by simp⟩
  simpa [groupBases] using this

/-! ### Dependencies of a base type -/

theorem foldl_add {α : Type} (f : List Str → α → List Str) (p : α → Str → Prop)
    (hf : ∀ s x, (∀ y, y ∈ f s x ↔ y ∈ s ∨ p x y) ∧ (s.Nodup → (f s x).Nodup)) (l : List α) (s : List Str) :
    (∀ y, y ∈ l.foldl f s ↔ y ∈ s ∨ ∃ x ∈ l, p x y) ∧ (s.Nodup → (l.foldl f s).Nodup) := by
  induction l generalizing s with
  | nil => simp
  | cons x l ih =>
    obtain ⟨h1, h2⟩ := ih (f s x)
    obtain ⟨h3, h4⟩ := hf s x
    refine ⟨fun y => ?_, fun h => h2 (h4 h)⟩
    rw [List.foldl_cons, h1, h3]
    simp [or_assoc]

theorem baseDeps_spec (deps : Graph) (base : Str) (variants : List Str) :
    (∀ b, b ∈ baseDeps deps base variants ↔
      ∃ v ∈ variants, ∃ r ∈ deps.deps v, (baseType r = some b ∧ b ≠ []) ∧ b ≠ base) ∧
    (baseDeps deps base variants).Nodup := by
  have h := foldl_add (fun s variant => (deps.deps variant).foldl (depStep base) s)
    (fun v b => ∃ r ∈ deps.deps v, (baseType r = some b ∧ b ≠ []) ∧ b ≠ base) (by
    intro s v
    refine foldl_add _ (fun r b => (baseType r = some b ∧ b ≠ []) ∧ b ≠ base) ?_ (deps.deps v) s
    intro s r
    unfold depStep
    cases hb : baseType r with
    | some b =>
      simp only
      split
      · rename_i hc
        refine ⟨fun y => ?_, fun h => add_nodup h b⟩
        rw [mem_add]
        refine or_congr Iff.rfl ⟨?_, ?_⟩
        · rintro rfl; exact ⟨⟨rfl, hc.1⟩, hc.2⟩
        · rintro ⟨⟨h1, _⟩, _⟩; exact (Option.some.inj h1).symm
      · rename_i hc
        refine ⟨fun y => ⟨.inl, ?_⟩, id⟩
        rintro (h | ⟨⟨h1, h2⟩, h3⟩)
        · exact h
        · cases h1; exact absurd ⟨h2, h3⟩ hc
    | none => exact ⟨fun y => by simp, id⟩) variants []
  exact ⟨fun b => (h.1 b).trans (by simp), h.2 List.nodup_nil⟩

/-! ### The graph of base types -/

theorem toList_inj {a b : String} (h : a.toList = b.toList) : a = b := String.toList_inj.mp h

theorem baseGraph_wants {defs : List (String × Val)} (hd : (defs.map (·.1)).Nodup) {g : Graph}
    (hk : g.keys = (defs.map (·.1.toList)).filter (fun n => endsWith n "_node".toList))
    (hg : ∀ n ds, (n, ds) ∈ g → ∃ name v, (name, v) ∈ defs ∧ n = name.toList ∧
        ∀ r, r ∈ ds ↔ Refers v r ∧ (endsWith r "_node".toList || endsWith r "_mark".toList) = true) :
    WF (baseGraph g) ∧ Entry (baseGraph g) = IsBase defs ∧
      ∀ b b', (∃ ds, (b, ds) ∈ baseGraph g ∧ b' ∈ ds) ↔ Wants defs b b' := by
  have hG := grouped g.keys
  have hkn : g.keys.Nodup := by
    rw [hk]
    refine List.Nodup.filter _ ?_
    rw [show (fun x : String × Val => x.1.toList) = String.toList ∘ (·.1) from rfl, ← List.map_map]
    exact hd.map fun a b h => toList_inj h
  have hval : ∀ {name v v'}, (name, v) ∈ defs → (name, v') ∈ defs → v = v' := by
    intro name v v' h1 h2
    have := List.inj_on_of_nodup_map hd h1 h2 rfl
    exact (Prod.mk.inj this).2
  have hkeys : (baseGraph g).map (·.1) = (groupBases g.keys).map (·.1) := by
    simp [baseGraph, Function.comp_def]
  have hbase : ∀ b, b ∈ (baseGraph g).map (·.1) ↔ IsBase defs b := by
    intro b
    rw [hkeys, hG.keys]
    constructor
    · rintro ⟨n, hn, hb⟩
      rw [hk, List.mem_filter, List.mem_map] at hn
      obtain ⟨⟨⟨name, v⟩, hm, rfl⟩, he⟩ := hn
      exact ⟨name, v, hm, (nodeOf_iff he).mp hb⟩
    · rintro ⟨name, v, hm, hb⟩
      have he : endsWith name.toList "_node".toList = true := by
        obtain ⟨_, s, hs, _⟩ := hb
        exact endsWith_iff.mpr ⟨s, hs⟩
      refine ⟨name.toList, ?_, (nodeOf_iff he).mpr hb⟩
      rw [hk, List.mem_filter, List.mem_map]
      exact ⟨⟨_, hm, rfl⟩, he⟩
  have hentry : Entry (baseGraph g) = IsBase defs := by
    funext b
    rw [← hbase b]
    exact propext (mem_keys (g := baseGraph g)).symm
  refine ⟨⟨by rw [hkeys]; exact hG.nodup, ?_⟩, hentry, ?_⟩
  · intro e he
    obtain ⟨e', _, rfl⟩ := List.mem_map.mp he
    exact (baseDeps_spec g e'.1 e'.2).2
  · intro b b'
    rw [Wants]
    -- the references of a node definition
    have hrefs : ∀ name v, (name, v) ∈ defs → endsWith name.toList "_node".toList = true → ∀ r,
        r ∈ g.deps name.toList ↔ Refers v r ∧ (endsWith r "_node".toList || endsWith r "_mark".toList) = true := by
      intro name v hm he r
      have : name.toList ∈ g.keys := by
        rw [hk, List.mem_filter, List.mem_map]; exact ⟨⟨_, hm, rfl⟩, he⟩
      have hin : (name.toList, g.deps name.toList) ∈ g := by
        simp only [Graph.deps]
        obtain ⟨ds, hds⟩ := mem_keys.mp this
        cases h : g.find? fun e => e.1 == name.toList with
        | none => exact absurd (List.find?_eq_none.mp h _ hds) (by simp)
        | some e =>
          have h1 := List.find?_some h
          have h2 := List.mem_of_find?_eq_some h
          simp only [beq_iff_eq] at h1
          rw [← h1]; simpa using h2
      obtain ⟨name', v', h1, h2, h3⟩ := hg _ _ hin
      have := toList_inj h2
      subst this
      rw [hval hm h1]; exact h3 r
    constructor
    · rintro ⟨ds, h1, h2⟩
      obtain ⟨⟨b0, l⟩, hl, he⟩ := List.mem_map.mp h1
      cases he
      obtain ⟨n, hn, r, hr, hb', hne⟩ := ((baseDeps_spec g b0 l).1 b').mp h2
      obtain ⟨hnk, hnb⟩ := (hG.mem b0 l hl n).mp hn
      rw [hk, List.mem_filter, List.mem_map] at hnk
      obtain ⟨⟨⟨name, v⟩, hm, rfl⟩, he⟩ := hnk
      exact ⟨hne, name, v, r, hm, (nodeOf_iff he).mp hnb, ((hrefs name v hm he r).mp hr).1, of_iff.mp hb'⟩
    · rintro ⟨hne, name, v, r, hm, hb, hr, hb'⟩
      have he : endsWith name.toList "_node".toList = true := by
        obtain ⟨_, s, hs, _⟩ := hb
        exact endsWith_iff.mpr ⟨s, hs⟩
      have hnk : name.toList ∈ g.keys := by
        rw [hk, List.mem_filter, List.mem_map]; exact ⟨⟨_, hm, rfl⟩, he⟩
      have hbk : b ∈ (groupBases g.keys).map (·.1) := (hG.keys b).mpr ⟨_, hnk, (nodeOf_iff he).mpr hb⟩
      obtain ⟨⟨b0, l⟩, hl, heq⟩ := List.mem_map.mp hbk
      cases heq
      refine ⟨_, List.mem_map.mpr ⟨_, hl, rfl⟩, ?_⟩
      refine ((baseDeps_spec g b0 l).1 b').mpr ⟨name.toList, ?_, r, ?_, of_iff.mpr hb', hne⟩
      · exact (hG.mem b0 l hl _).mpr ⟨hnk, (nodeOf_iff he).mpr hb⟩
      · exact (hrefs name v hm he r).mpr ⟨hr, of_suffix hb'⟩

theorem baseGraph_spec {defs : List (String × Val)} (hd : (defs.map (·.1)).Nodup) {g : Graph}
    (hk : g.keys = (defs.map (·.1.toList)).filter (fun n => endsWith n "_node".toList))
    (hg : ∀ n ds, (n, ds) ∈ g → ∃ name v, (name, v) ∈ defs ∧ n = name.toList ∧
        ∀ r, r ∈ ds ↔ Refers v r ∧ (endsWith r "_node".toList || endsWith r "_mark".toList) = true) :
    WF (baseGraph g) ∧ Entry (baseGraph g) = IsBase defs ∧ Dep (baseGraph g) = Needs defs := by
  obtain ⟨h1, h2, h3⟩ := baseGraph_wants hd hk hg
  refine ⟨h1, h2, ?_⟩
  funext b b'
  apply propext
  rw [Dep, h2, h3, Wants, Needs]
  tauto

end Verif.Analyze
