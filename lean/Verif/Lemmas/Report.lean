import Verif.Spec.Report
import Verif.Model.Report
import Verif.Lemmas.AnalyzeRefs
import Verif.Lemmas.Analyze
import Verif.Lemmas.Chars
/-!
# Lemmas about the report of the schema analysis
-/

namespace Verif.Analyze
open Verif Verif.Spec.Analyze

/-! ## The values of `type` -/

/-- What a call of `extract_type_enums` has to satisfy. -/
def EnumsOk (out : Except PyErr (List Str)) (s : List Str) (named : Str → Prop) : Prop :=
  ∃ r, out = .ok r ∧ (∀ x, x ∈ r ↔ x ∈ s ∨ named x) ∧ (s.Nodup → r.Nodup)

theorem enums_bind {a : Except PyErr (List Str)} {f : List Str → Except PyErr (List Str)} {s : List Str}
    {n1 n2 n : Str → Prop} (h1 : EnumsOk a s n1) (h2 : ∀ r, EnumsOk (f r) r n2) (hn : ∀ x, n x ↔ n1 x ∨ n2 x) :
    EnumsOk (a >>= f) s n := by
  obtain ⟨r, rfl, h3, h4⟩ := h1
  obtain ⟨r', h5, h6, h7⟩ := h2 r
  exact ⟨r', h5, fun x => by rw [h6, h3, hn, or_assoc], fun h => h7 (h4 h)⟩

theorem addEnums_spec : ∀ (l : List Val) (s : List Str), (∀ x ∈ l, ∃ t, x = .str t) →
    EnumsOk (addEnums l s) s (fun t => .str t ∈ l)
  | [], s, _ => ⟨s, rfl, by simp, id⟩
  | x :: l, s, h => by
    obtain ⟨t, rfl⟩ := h x (by simp)
    obtain ⟨r, h1, h2, h3⟩ := addEnums_spec l (add s t) fun x hx => h x (by simp [hx])
    refine ⟨r, by rw [addEnums, h1], fun y => ?_, fun hn => h3 (add_nodup hn t)⟩
    rw [h2, mem_add]
    simp only [List.mem_cons, Val.str.injEq, or_assoc]

theorem ownEnums_spec (d : List (String × Val)) (s : List Str) (h : ¬ OddEnum (.dict d)) :
    EnumsOk (ownEnums d s) s (fun x => ∃ t l, lookupKey d "type" = some (.dict t) ∧ lookupKey t "enum" = some (.list l) ∧ .str x ∈ l) := by
  unfold ownEnums
  split
  · rename_i t ht
    split
    · rename_i l hl
      have hl' : ∀ x ∈ l, ∃ t, x = .str t := by
        intro x hx
        by_contra hc
        push Not at hc
        exact h (.here d t _ ht hl fun l' he => by cases he; exact ⟨x, hx, hc⟩)
      obtain ⟨r, h1, h2, h3⟩ := addEnums_spec l s hl'
      refine ⟨r, h1, fun x => (h2 x).trans (or_congr_right ?_), h3⟩
      constructor
      · intro hx; exact ⟨t, l, ht, hl, hx⟩
      · rintro ⟨t', l', ht', hl'', hx⟩
        rw [ht] at ht'; cases ht'
        rw [hl] at hl''; cases hl''
        exact hx
    · rename_i x hx
      exact absurd (.here d t _ ht hx fun l he => by cases he) h
    · rename_i x hx
      exact absurd (.here d t _ ht hx fun l he => by cases he) h
    · rename_i x hx1 hx2 hx3 hx
      exact absurd (.here d t _ ht hx fun l he => absurd he (hx1 l)) h
    · rename_i hn
      refine ⟨s, rfl, fun x => ⟨.inl, ?_⟩, id⟩
      rintro (hx | ⟨t', l', ht', hl', -⟩)
      · exact hx
      · rw [ht] at ht'; cases ht'
        rw [hn] at hl'; cases hl'
  · rename_i hn
    refine ⟨s, rfl, fun x => ⟨.inl, ?_⟩, id⟩
    rintro (hx | ⟨t', l', ht', hl', -⟩)
    · exact hx
    · exact absurd ht' (hn t')

mutual
theorem extractEnums_spec : ∀ (v : Val) (s : List Str), ¬ OddEnum v → EnumsOk (extractEnums v s) s (TypeValue v)
  | .dict d, s, h => by
    rw [extractEnums]
    refine enums_bind (ownEnums_spec d s h) (fun r => enumValues_spec d r fun k v hm hv => h (.value d k v hm hv)) (fun x => ?_)
    constructor
    · intro h
      cases h with
      | here _ t l _ h1 h2 h3 => exact .inl ⟨t, l, h1, h2, h3⟩
      | value _ k v _ hm hv => exact .inr ⟨k, v, hm, hv⟩
    · rintro (⟨t, l, h1, h2, h3⟩ | ⟨k, v, hm, hv⟩)
      · exact .here d t l x h1 h2 h3
      · exact .value d k v x hm hv
  | .list l, s, h => by
    rw [extractEnums]
    obtain ⟨r, h1, h2, h3⟩ := enumItems_spec l s fun v hm hv => h (.item l v hm hv)
    refine ⟨r, h1, fun x => (h2 x).trans (or_congr_right ?_), h3⟩
    constructor
    · rintro ⟨v, hm, hv⟩; exact .item l v x hm hv
    · intro h; cases h with | item _ v _ hm hv => exact ⟨v, hm, hv⟩
  | .none, s, _ => ⟨s, rfl, fun x => ⟨.inl, fun h => h.elim id nofun⟩, id⟩
  | .bool _, s, _ => ⟨s, rfl, fun x => ⟨.inl, fun h => h.elim id nofun⟩, id⟩
  | .int _, s, _ => ⟨s, rfl, fun x => ⟨.inl, fun h => h.elim id nofun⟩, id⟩
  | .float _, s, _ => ⟨s, rfl, fun x => ⟨.inl, fun h => h.elim id nofun⟩, id⟩
  | .str _, s, _ => ⟨s, rfl, fun x => ⟨.inl, fun h => h.elim id nofun⟩, id⟩
  | .opt, s, _ => ⟨s, rfl, fun x => ⟨.inl, fun h => h.elim id nofun⟩, id⟩
theorem enumValues_spec : ∀ (d : List (String × Val)) (s : List Str), (∀ k v, (k, v) ∈ d → ¬ OddEnum v) →
    EnumsOk (enumValues d s) s (fun x => ∃ k v, (k, v) ∈ d ∧ TypeValue v x)
  | [], s, _ => ⟨s, rfl, by simp, id⟩
  | (k, v) :: d, s, h => by
    rw [enumValues]
    refine enums_bind (extractEnums_spec v s (h k v (by simp)))
      (fun r => enumValues_spec d r fun k v hm => h k v (by simp [hm])) (fun x => ?_)
    simp only [List.mem_cons, Prod.mk.injEq]
    constructor
    · rintro ⟨k', v', ⟨rfl, rfl⟩ | hm, hv⟩
      · exact .inl hv
      · exact .inr ⟨k', v', hm, hv⟩
    · rintro (hv | ⟨k', v', hm, hv⟩)
      · exact ⟨k, v, .inl ⟨rfl, rfl⟩, hv⟩
      · exact ⟨k', v', .inr hm, hv⟩
theorem enumItems_spec : ∀ (l : List Val) (s : List Str), (∀ v ∈ l, ¬ OddEnum v) →
    EnumsOk (enumItems l s) s (fun x => ∃ v, v ∈ l ∧ TypeValue v x)
  | [], s, _ => ⟨s, rfl, by simp, id⟩
  | v :: l, s, h => by
    rw [enumItems]
    refine enums_bind (extractEnums_spec v s (h v (by simp))) (fun r => enumItems_spec l r fun v hm => h v (by simp [hm])) (fun x => ?_)
    simp only [List.mem_cons]
    constructor
    · rintro ⟨v', rfl | hm, hv⟩
      · exact .inl hv
      · exact .inr ⟨v', hm, hv⟩
    · rintro (hv | ⟨v', hm, hv⟩)
      · exact ⟨v, .inl rfl, hv⟩
      · exact ⟨v', .inr hm, hv⟩
end

/-! ## Counting definitions -/

theorem number_filter {defs : List (String × Val)} (hd : (defs.map (·.1)).Nodup) (q : Str → Bool) (p : Str → Prop)
    (h : ∀ n, q n = true ↔ p n) : Number defs p (((defs.map (·.1.toList)).filter q).length) := by
  refine ⟨(defs.map (·.1)).filter fun x => q x.toList, hd.filter _, ?_, fun x => ?_⟩
  · rw [show defs.map (·.1.toList) = (defs.map (·.1)).map String.toList by simp, List.filter_map (f := String.toList),
      List.length_map]
    rfl
  · rw [List.mem_filter, h, List.mem_map]
    simp

theorem number_unique {defs defs' : List (String × Val)} (hp : ∀ e, e ∈ defs ↔ e ∈ defs') {p : Str → Prop} {n n' : Nat}
    (h : Number defs p n) (h' : Number defs' p n') : n = n' := by
  obtain ⟨l, h1, rfl, h3⟩ := h
  obtain ⟨l', h1', rfl, h3'⟩ := h'
  refine ((List.perm_ext_iff_of_nodup h1 h1').mpr fun x => ?_).length_eq
  rw [h3, h3']
  simp only [hp]

theorem suffix_ne {s : Str} (h1 : "_node".toList <:+ s) (h2 : "_mark".toList <:+ s) : False := by
  obtain ⟨a, rfl⟩ := h1
  obtain ⟨b, hb⟩ := h2
  exact absurd (List.append_inj_right' hb (by decide)) (by decide)

theorem endsWith_suffix {s t : Str} : endsWith s t = true ↔ t <:+ s := by rw [endsWith, List.isSuffixOf_iff_suffix]

/-! ## Marks -/

theorem markBases_spec (defs : List (String × Val)) : (markBases defs).Nodup ∧ ∀ m, m ∈ markBases defs ↔ IsMark defs m := by
  have h := foldl_add markStep (fun name b => baseType name = some b ∧ b ≠ []) (by
    intro s name
    unfold markStep
    cases hb : baseType name with
    | none => simp
    | some b =>
      by_cases he : b = []
      · subst he
        simp
      · simp only [he, if_false]
        refine ⟨fun y => ?_, fun hn => add_nodup hn b⟩
        rw [mem_add]
        refine or_congr_right ⟨fun h => by subst h; exact ⟨rfl, he⟩, fun h => (Option.some.inj h.1).symm⟩) (markNames defs) []
  refine ⟨h.2 List.nodup_nil, fun m => (h.1 m).trans ?_⟩
  simp only [List.not_mem_nil, false_or, markNames, List.mem_filter, List.mem_map, Bool.and_eq_true, Bool.not_eq_true']
  constructor
  · rintro ⟨n, ⟨⟨⟨name, v⟩, hm, rfl⟩, hn1, hn2⟩, hb⟩
    rcases of_iff.mp hb with h | ⟨h1, h2⟩
    · obtain ⟨_, s, hs, _⟩ := h
      rw [endsWith_iff.mpr ⟨s, hs⟩] at hn1
      cases hn1
    · exact ⟨h1, name, v, hm, h2⟩
  · rintro ⟨hne, name, v, hm, he⟩
    refine ⟨name.toList, ⟨⟨_, hm, rfl⟩, ?_, endsWith_iff.mpr ⟨m, he⟩⟩, of_iff.mpr (.inr ⟨hne, he⟩)⟩
    by_contra hc
    rw [Bool.not_eq_false, endsWith_suffix] at hc
    exact suffix_ne hc ⟨m, he.symm⟩

/-! ## The lines -/

theorem markItems_eq (env : Env) : ∀ (l : List Str), (∀ m ∈ l, m ≠ []) →
    markItems env l = .ok (l.map fun m => "- Mark".toList ++ className env m)
  | [], _ => rfl
  | [] :: l, h => absurd rfl (h [] (by simp))
  | (c :: cs) :: l, h => by
    rw [markItems, markItems_eq env l fun m hm => h m (by simp [hm])]
    rfl

theorem leafItems_eq (env : Env) : ∀ (l : List Str), (∀ m ∈ l, m ≠ []) →
    leafItems env l = .ok (l.map fun m => "- Node".toList ++ className env m)
  | [], _ => rfl
  | [] :: l, h => absurd rfl (h [] (by simp))
  | (c :: cs) :: l, h => by
    rw [leafItems, leafItems_eq env l fun m hm => h m (by simp [hm])]
    rfl

theorem compositeItems_eq (env : Env) (g : Graph) : ∀ (l : List Str), (∀ m ∈ l, m ≠ []) →
    compositeItems env g l = .ok (l.map fun m => "- Node".toList ++ className env m ++ " - needs: ".toList ++ commas (sort (g.deps m)))
  | [], _ => rfl
  | [] :: l, h => absurd rfl (h [] (by simp))
  | (c :: cs) :: l, h => by
    rw [compositeItems, compositeItems_eq env g l fun m hm => h m (by simp [hm])]
    simp only [capital, join_eq, bind, Except.bind, className, commas, List.map_cons]
    rfl

theorem sort_isEmpty (l : List Str) : (sort l).isEmpty = decide (l = []) := by
  have := sort_perm l
  cases h : sort l with
  | nil => rw [h] at this; rw [List.nil_perm.mp this]; rfl
  | cons x y =>
    cases l with
    | nil => rw [h] at this; exact absurd this.symm.nil_eq (by simp)
    | cons a b => simp

theorem orderItems_eq (g : Graph) : ∀ (l : List Str) (i : Nat),
    orderItems g i l = (l.map fun b => (b, sort (g.deps b))).mapIdx fun j e => orderEntry (i + j) e
  | [], _ => rfl
  | b :: l, i => by
    rw [orderItems, List.map_cons, List.mapIdx_cons, orderItems_eq g l]
    congr 1
    · rw [orderEntry, sort_isEmpty, join_eq, commas]
      by_cases h : g.deps b = []
      · rw [if_neg (not_not.mpr h), decide_eq_true h, if_pos rfl]
        rfl
      · rw [if_pos h, decide_eq_false h, if_neg (by decide), ← List.append_assoc]
        rfl
    · congr 1
      funext j e
      rw [show i + 1 + j = i + (j + 1) by omega]

end Verif.Analyze
