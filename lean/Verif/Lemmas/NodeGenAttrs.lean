import Verif.Lemmas.NodeGenPlan
import Verif.Spec.NodeGen
import Verif.Spec.Equality
/-!
# Lemmas about the node generator: merged properties, fields of `attrs`
-/

namespace Verif.NodeGen
open Verif Verif.Spec.NodeGen

theorem uniqueList {l : List Val} (h : Spec.UniqueKeysList l) : ∀ v ∈ l, Spec.UniqueKeys v := by
  induction l with
  | nil => simp
  | cons a l ih =>
    rw [Spec.UniqueKeysList] at h
    intro v hv
    rcases List.mem_cons.1 hv with rfl | hv
    · exact h.1
    · exact ih h.2 v hv

theorem uniqueDict {d : List (String × Val)} (h : Spec.UniqueKeysDict d) : ∀ p ∈ d, Spec.UniqueKeys p.2 := by
  induction d with
  | nil => simp
  | cons a d ih =>
    obtain ⟨k, w⟩ := a
    rw [Spec.UniqueKeysDict] at h
    intro v hv
    rcases List.mem_cons.1 hv with rfl | hv
    · exact h.1
    · exact ih h.2 v hv

theorem lookup_mem {d : List (String × Val)} {k : String} {v : Val} (h : lookupKey d k = some v) : (k, v) ∈ d := by
  induction d with
  | nil => simp [lookupKey] at h
  | cons a d ih =>
    rw [lookupKey] at h
    split at h
    · rename_i hk
      simp only [Option.some.injEq] at h
      rw [← hk, ← h]
      exact .head _
    · exact .tail _ (ih h)

theorem lookup_of_mem {d : List (String × Val)} {k : String} {v : Val} (hd : (d.map Prod.fst).Nodup) (h : (k, v) ∈ d) :
    lookupKey d k = some v := by
  induction d with
  | nil => simp at h
  | cons a d ih =>
    rw [List.map_cons, List.nodup_cons] at hd
    rw [lookupKey]
    rcases List.mem_cons.1 h with rfl | h
    · simp
    · rw [if_neg, ih hd.2 h]
      rintro rfl
      exact hd.1 (List.mem_map.2 ⟨_, h, rfl⟩)

theorem uniqueGet {d : List (String × Val)} {k : String} {v : Val} (h : Spec.UniqueKeys (.dict d)) (hv : lookupKey d k = some v) :
    Spec.UniqueKeys v := by
  rw [Spec.UniqueKeys] at h
  exact uniqueDict h.2 _ (lookup_mem hv)

/-- The value `update` leaves: the last one. -/
theorem lookup_update {d l : List (String × Val)} (hl : (l.map Prod.fst).Nodup) (k : String) :
    lookupKey (update d l) k = (lookupKey l k).or (lookupKey d k) := by
  induction l generalizing d with
  | nil => rfl
  | cons p l ih =>
    rw [List.map_cons, List.nodup_cons] at hl
    rw [update_cons, ih hl.2, lookup_setKey, lookupKey]
    by_cases h : p.1 = k
    · subst h
      rw [if_pos rfl, if_pos rfl]
      have : lookupKey l p.1 = none := by
        cases hx : lookupKey l p.1 with
        | none => rfl
        | some v => exact absurd (List.mem_map_of_mem (lookup_mem hx)) hl.1
      rw [this]; rfl
    · rw [if_neg h, if_neg h]

/-- The value an item of `allOf` declares. -/
def ownOf (key : String) (item : Val) : Option Val := lookupKey (pairsOf item) key

theorem lookup_updateAll {items : List Val} {d : List (String × Val)} (hi : ∀ v ∈ items, Spec.UniqueKeys v) (key : String) (v : Val) :
    lookupKey (update d (items.flatMap pairsOf)) key = some v ↔
      (∃ l e r, items = l ++ e :: r ∧ ownOf key e = some v ∧ ∀ x ∈ r, ownOf key x = none) ∨
      ((∀ e ∈ items, ownOf key e = none) ∧ lookupKey d key = some v) := by
  induction items generalizing d with
  | nil => simp [update]
  | cons a items ih =>
    have hn : ((pairsOf a).map Prod.fst).Nodup := by
      have := hi a (.head _)
      cases a with
      | dict x =>
        rw [pairsOf]
        cases hx : lookupKey x "properties" with
        | none => simp
        | some w =>
          have hw := uniqueGet this hx
          cases w with
          | dict q => rw [Spec.UniqueKeys] at hw; exact hw.1
          | _ => simp
      | _ => simp [pairsOf]
    rw [List.flatMap_cons, update_append, ih (fun v hv => hi v (.tail _ hv)), lookup_update hn]
    change (_ ∨ _ ∧ (ownOf key a).or (lookupKey d key) = some v) ↔ _
    constructor
    · rintro (⟨l, e, r, rfl, h1, h2⟩ | ⟨h1, h2⟩)
      · exact .inl ⟨a :: l, e, r, rfl, h1, h2⟩
      · cases ho : ownOf key a with
        | some w =>
          rw [ho] at h2
          simp only [Option.some_or] at h2
          exact .inl ⟨[], a, items, rfl, ho.trans h2, h1⟩
        | none =>
          rw [ho] at h2
          refine .inr ⟨fun e he => ?_, h2⟩
          rcases List.mem_cons.1 he with rfl | he
          · exact ho
          · exact h1 e he
    · rintro (⟨l, e, r, h0, h1, h2⟩ | ⟨h1, h2⟩)
      · cases l with
        | nil =>
          simp only [List.nil_append, List.cons.injEq] at h0
          obtain ⟨rfl, rfl⟩ := h0
          exact .inr ⟨h2, by rw [h1]; rfl⟩
        | cons b l =>
          simp only [List.cons_append, List.cons.injEq] at h0
          obtain ⟨rfl, rfl⟩ := h0
          exact .inl ⟨l, e, r, rfl, h1, h2⟩
      · refine .inr ⟨fun e he => h1 e (.tail _ he), ?_⟩
        rw [h1 a (.head _)]; exact h2

theorem ownOf_eq (key : String) (e : Val) : own key e = ownOf key e := by
  rw [ownOf]
  cases e with
  | dict x =>
    rw [own, pairsOf]
    cases lookupKey x "properties" with
    | none => rfl
    | some w => cases w <;> rfl
  | _ => rfl

/-- The items of `allOf`, if the merge works. -/
theorem merged_declares {d : List (String × Val)} {P : List (String × Val)} (hu : Spec.UniqueKeys (.dict d))
    (h : mergedProps d = .ok (.dict P)) (key : String) (v : Val) : lookupKey P key = some v ↔ Declares d key v := by
  rw [mergedProps] at h
  simp only [bind, Except.bind] at h
  cases ha : allOf d with
  | error e => rw [ha] at h; cases h
  | ok items =>
    rw [ha] at h
    simp only at h
    rw [Declares]
    simp only [ownOf_eq]
    have own : ownOf key (.dict d) = match lookupKey d "properties" with
      | some (.dict q) => lookupKey q key
      | _ => none := by
        rw [← ownOf_eq, Spec.NodeGen.own]
        cases lookupKey d "properties" with
        | none => rfl
        | some w => cases w <;> rfl
    -- the items that count
    have main : ∀ items' : List Val, (∀ v ∈ items, Spec.UniqueKeys v) →
        (items' = items ∨ (items' = [] ∧ ∀ e ∈ items, ∃ s, e = .str s)) →
        (lookupKey P key = some v ↔ (∃ l e r, items' = l ++ e :: r ∧ ownOf key e = some v ∧ ∀ x ∈ r, ownOf key x = none) ∨
          ((∀ e ∈ items', ownOf key e = none) ∧ ownOf key (.dict d) = some v)) := by
      intro items' hi hit
      have e1 : lookupKey P key = some v ↔ (∃ l e r, items = l ++ e :: r ∧ ownOf key e = some v ∧ ∀ x ∈ r, ownOf key x = none) ∨
          ((∀ e ∈ items, ownOf key e = none) ∧ ownOf key (.dict d) = some v) := by
        rcases mergeAll_ok h with ⟨hP, h2, -⟩ | ⟨d0, hP, hQ, -⟩
        · have e2 : lookupKey P key = ownOf key (.dict d) := by
            rw [own]
            cases hp : lookupKey d "properties" with
            | none => rw [hp] at hP; simp at hP; subst hP; rfl
            | some w => rw [hp] at hP; simp at hP; subst hP; rfl
          have hno : ∀ e ∈ items, ownOf key e = none := by
            intro e he
            rw [ownOf, List.flatMap_eq_nil_iff.1 h2 e he]; rfl
          rw [e2]
          constructor
          · exact fun hx => .inr ⟨hno, hx⟩
          · rintro (⟨l, e, r, rfl, h1, -⟩ | ⟨-, hx⟩)
            · rw [hno e (by simp)] at h1; cases h1
            · exact hx
        · simp only [Val.dict.injEq] at hQ
          subst hQ
          rw [lookup_updateAll hi]
          have e2 : lookupKey d0 key = ownOf key (.dict d) := by
            rw [own]
            cases hp : lookupKey d "properties" with
            | none => rw [hp] at hP; simp at hP; subst hP; rfl
            | some w => rw [hp] at hP; simp at hP; subst hP; rfl
          rw [e2]
      rw [e1]
      rcases hit with rfl | ⟨rfl, hs⟩
      · rfl
      · have hno : ∀ e ∈ items, ownOf key e = none := by
          intro e he
          obtain ⟨s, rfl⟩ := hs e he
          rfl
        constructor
        · rintro (⟨l, e, r, rfl, h1, -⟩ | ⟨-, hx⟩)
          · rw [hno e (by simp)] at h1; cases h1
          · exact .inr ⟨by simp, hx⟩
        · rintro (⟨l, e, r, h0, -, -⟩ | ⟨-, hx⟩)
          · simp at h0
          · exact .inr ⟨hno, hx⟩
    rw [allOf] at ha
    rw [allOfItems]
    cases hl : lookupKey d "allOf" with
    | none =>
      rw [hl] at ha
      simp only [Except.ok.injEq] at ha
      subst ha
      exact main [] (by simp) (.inl rfl)
    | some w =>
      rw [hl] at ha
      simp only at ha
      have hw := uniqueGet hu hl
      cases w with
      | list l =>
        simp only [pyIter, Except.ok.injEq] at ha
        subst ha
        rw [Spec.UniqueKeys] at hw
        exact main l (uniqueList hw) (.inl rfl)
      | dict x =>
        simp only [pyIter, Except.ok.injEq] at ha
        subst ha
        have hs : ∀ e ∈ x.map (fun p => Val.str p.1.toList), ∃ s, e = .str s := by
          intro e he
          obtain ⟨p, -, rfl⟩ := List.mem_map.1 he
          exact ⟨_, rfl⟩
        refine main [] (fun v hv => ?_) (.inr ⟨rfl, hs⟩)
        obtain ⟨s, rfl⟩ := hs v hv
        rw [Spec.UniqueKeys]
        all_goals simp
      | str x =>
        simp only [pyIter, Except.ok.injEq] at ha
        subst ha
        have hs : ∀ e ∈ x.map (fun c => Val.str [c]), ∃ s, e = .str s := by
          intro e he
          obtain ⟨p, -, rfl⟩ := List.mem_map.1 he
          exact ⟨_, rfl⟩
        refine main [] (fun v hv => ?_) (.inr ⟨rfl, hs⟩)
        obtain ⟨s, rfl⟩ := hs v hv
        rw [Spec.UniqueKeys]
        all_goals simp
      | _ => simp [pyIter] at ha

/-! ## Fields of `attrs` -/

theorem pyType_hint {p : List (String × Val)} {t : Str} (h : pyType (.dict p) = .ok t) : t = hint p := by
  rw [pyType] at h
  simp only [pyIn, pyItem, bind, Except.bind, pure, Except.pure] at h
  rw [hint]
  cases h1 : lookupKey p "enum" with
  | some v => rw [h1] at h; simp at h; simp [← h]
  | none =>
    rw [h1] at h
    cases h2 : lookupKey p "$ref" with
    | some v => rw [h2] at h; simp at h; simp [← h]
    | none =>
      rw [h2] at h
      cases h3 : lookupKey p "type" with
      | none => rw [h3] at h; simp at h; simp [← h]
      | some v =>
        rw [h3] at h
        simp only [Option.isSome_none, Option.isSome_some, if_true, if_false, Bool.false_eq_true] at h ⊢
        cases v with
        | str s =>
          simp only [typeMap, Except.ok.injEq] at h
          rw [← h]
          simp only [List.find?]
          have e : ∀ x : Str, (x == s) = decide (s = x) := by
            intro x
            by_cases hx : s = x
            · subst hx; simp
            · simp [hx, Ne.symm hx]
          simp only [e]
          by_cases c1 : s = "string".toList
          · subst c1; rfl
          by_cases c2 : s = "integer".toList
          · subst c2; rfl
          by_cases c3 : s = "number".toList
          · subst c3; rfl
          by_cases c4 : s = "boolean".toList
          · subst c4; rfl
          by_cases c5 : s = "array".toList
          · subst c5; rfl
          by_cases c6 : s = "object".toList
          · subst c6; rfl
          simp only [c1, c2, c3, c4, c5, c6, if_false, decide_false]
        | list l => simp [typeMap] at h
        | dict l => simp [typeMap] at h
        | _ => simp only [typeMap, Except.ok.injEq] at h; exact h.symm

/-- The field of one property. -/
theorem fieldsOf_mem {required : List Val} {d : List (String × Val)} {fs : List Field} (hp : ∀ x ∈ d, ∃ p, x.2 = .dict p)
    (h : fieldsOf (.list required) d = .ok fs) :
    (fs.map Field.name = d.map fun x => x.1.toList) ∧
    ∀ f, f ∈ fs ↔ ∃ k p, (k, Val.dict p) ∈ d ∧ f = ⟨k.toList, hint p, required.any (isStr k.toList)⟩ := by
  induction d generalizing fs with
  | nil => simp only [fieldsOf, Except.ok.injEq] at h; subst h; simp
  | cons x d ih =>
    obtain ⟨k, v⟩ := x
    obtain ⟨p, hv⟩ := hp _ (.head _)
    simp only at hv
    subst hv
    rw [fieldsOf] at h
    simp only [pyIn, bind, Except.bind, pure, Except.pure] at h
    cases ht : pyType (.dict p) with
    | error e => rw [ht] at h; cases h
    | ok t =>
      rw [ht] at h
      simp only at h
      cases hl : fieldsOf (.list required) d with
      | error e => rw [hl] at h; cases h
      | ok l =>
        rw [hl] at h
        simp only [Except.ok.injEq] at h
        subst h
        obtain ⟨i1, i2⟩ := ih (fun y hy => hp y (.tail _ hy)) hl
        rw [pyType_hint ht]
        refine ⟨by simp [i1], fun f => ?_⟩
        simp only [List.mem_cons, i2, Prod.mk.injEq, Val.dict.injEq]
        constructor
        · rintro (rfl | ⟨k', p', h1, rfl⟩)
          · exact ⟨k, p, .inl ⟨rfl, rfl⟩, rfl⟩
          · exact ⟨k', p', .inr h1, rfl⟩
        · rintro ⟨k', p', ⟨rfl, rfl⟩ | h1, rfl⟩
          · exact .inl rfl
          · exact .inr ⟨k', p', h1, rfl⟩

theorem any_isStr {l : List Val} {s : Str} : l.any (isStr s) = true ↔ .str s ∈ l := by
  rw [List.any_eq_true]
  constructor
  · rintro ⟨v, hv, h⟩
    cases v <;> simp [isStr] at h
    subst h; exact hv
  · exact fun h => ⟨_, h, by simp [isStr]⟩

theorem fieldLe_total (a b : Field) : fieldLe a b = true ∨ fieldLe b a = true := by
  rw [fieldLe, fieldLe]
  cases a.required <;> cases b.required <;> simp [le_total]

theorem fieldLe_trans (a b c : Field) (h : fieldLe a b = true) (h' : fieldLe b c = true) : fieldLe a c = true := by
  rw [fieldLe] at *
  revert h h'
  cases a.required <;> cases b.required <;> cases c.required <;> simp
  all_goals exact le_trans

theorem split_required {l : List Field} (h : l.Pairwise fun a b => fieldLe a b = true) :
    l = l.filter (·.required) ++ l.filter (!·.required) := by
  induction l with
  | nil => rfl
  | cons a l ih =>
    rw [List.pairwise_cons] at h
    cases ha : a.required with
    | true => simp only [List.filter_cons, ha, if_true, Bool.not_true, Bool.false_eq_true, if_false, List.cons_append]; rw [← ih h.2]
    | false =>
      have hn : l.filter (·.required) = [] := by
        rw [List.filter_eq_nil_iff]
        intro b hb hx
        have := h.1 b hb
        simp [fieldLe, ha, hx] at this
      have := ih h.2
      rw [hn] at this
      simp only [List.filter_cons, ha, if_true, Bool.not_false, Bool.false_eq_true, if_false, hn, List.nil_append]
      rw [List.nil_append] at this
      rw [← this]

theorem names_strict {l : List Field} (hn : (l.map Field.name).Nodup) (h : l.Pairwise fun a b => fieldLe a b = true) (r : Bool)
    (hr : ∀ f ∈ l, f.required = r) : (l.map Field.name).Pairwise (· < ·) := by
  rw [List.Nodup] at hn
  rw [List.pairwise_map] at hn ⊢
  refine List.Pairwise.imp_of_mem ?_ (hn.and h)
  intro a b ha hb hab
  have := hab.2
  rw [fieldLe, hr a ha, hr b hb] at this
  cases r <;> simp at this <;> exact lt_of_le_of_ne this hab.1

/-- The fields of the schema of `attrs`. -/
theorem attrsFields_spec {P a : List (String × Val)} {r : Option (List Field)} (hP : lookupKey P "attrs" = some (.dict a))
    (ha : Spec.UniqueKeys (.dict a)) (hw : AttrsSchema a) (h : attrsFields (.dict P) = .ok r) :
    ∃ req opt : List (Str × Str), r = some (req.map (fun x => ⟨x.1, x.2, true⟩) ++ opt.map (fun x => ⟨x.1, x.2, false⟩)) ∧
      (∀ f t, (f, t) ∈ req ↔ ∃ p, HasAttr a f p ∧ t = hint p ∧ Requires a f) ∧
      (∀ f t, (f, t) ∈ opt ↔ ∃ p, HasAttr a f p ∧ t = hint p ∧ ¬ Requires a f) ∧
      (req.map Prod.fst).Pairwise (· < ·) ∧ (opt.map Prod.fst).Pairwise (· < ·) := by
  rw [attrsFields] at h
  simp only [pyIn, pyItem, pyGet, bind, Except.bind, pure, Except.pure, hP, Option.isSome_some, if_true] at h
  cases hq : lookupKey a "properties" with
  | none =>
    rw [hq] at h
    simp at h
    refine ⟨[], [], by simp [← h], ?_, ?_, by simp, by simp⟩ <;> simp [HasAttr, hq]
  | some v =>
    obtain ⟨q, rfl, hpd⟩ := hw.2 v hq
    rw [hq] at h
    simp only [Option.isSome_some, if_true] at h
    obtain ⟨required, hreq, hR⟩ : ∃ l, (lookupKey a "required").getD (.list []) = .list l ∧ ∀ f, Requires a f ↔ Val.str f ∈ l := by
      cases hr : lookupKey a "required" with
      | none => exact ⟨[], rfl, fun f => by simp [Requires, hr]⟩
      | some w =>
        obtain ⟨l, rfl⟩ := hw.1 w hr
        exact ⟨l, rfl, fun f => by simp [Requires, hr]⟩
    rw [hreq] at h
    cases hf : fieldsOf (.list required) q with
    | error e => rw [hf] at h; cases h
    | ok fs =>
      rw [hf] at h
      simp only [Except.ok.injEq] at h
      subst h
      obtain ⟨f1, f2⟩ := fieldsOf_mem hpd hf
      have hqn : (q.map Prod.fst).Nodup := by
        have := uniqueGet ha hq
        rw [Spec.UniqueKeys] at this
        exact this.1
      have hmem : ∀ f k p, (k, Val.dict p) ∈ q → k.toList = f → HasAttr a f p := by
        rintro _ k p h rfl
        exact ⟨q, hq, by simpa using lookup_of_mem hqn h⟩
      have hmem' : ∀ f p, HasAttr a f p → (String.ofList f, Val.dict p) ∈ q := by
        rintro f p ⟨q', h1, h2⟩
        rw [hq] at h1
        simp only [Option.some.injEq, Val.dict.injEq] at h1
        subst h1
        exact lookup_mem h2
      generalize hs : fs.insertionSort (fun x y => fieldLe x y = true) = s
      have hperm : s.Perm fs := hs ▸ List.perm_insertionSort _ _
      have : Std.Total fun x y : Field => fieldLe x y = true := ⟨fieldLe_total⟩
      have : IsTrans Field fun x y => fieldLe x y = true := ⟨fieldLe_trans⟩
      have hpw : s.Pairwise fun x y => fieldLe x y = true := hs ▸ List.pairwise_insertionSort _ _
      have hnd : (s.map Field.name).Nodup := by
        rw [(hperm.map _).nodup_iff, f1]
        have : (q.map fun x => x.1.toList) = (q.map Prod.fst).map String.toList := by simp [Function.comp_def]
        rw [this]
        exact hqn.map fun a b h => String.toList_inj.1 h
      have hsub : ∀ p : Field → Bool, ((s.filter p).map Field.name).Nodup := fun p => hnd.sublist (List.filter_sublist.map _)
      have hstrict : ∀ (p : Field → Bool) (r : Bool), (∀ f, p f = true → f.required = r) →
          (((s.filter p).map fun f => (f.name, f.type)).map Prod.fst).Pairwise (· < ·) := by
        intro p r hp
        rw [List.map_map]
        exact names_strict (hsub p) (hpw.filter _) r fun f hf => hp f (List.mem_filter.1 hf).2
      refine ⟨(s.filter (·.required)).map fun f => (f.name, f.type), (s.filter (!·.required)).map fun f => (f.name, f.type), ?_, ?_, ?_,
        hstrict _ true fun f hf => hf, hstrict _ false fun f hf => by simpa using hf⟩
      · rw [Option.some.injEq, List.map_map, List.map_map]
        conv_lhs => rw [split_required hpw]
        congr 1
        · conv_lhs => rw [← List.map_id (s.filter (·.required))]
          refine List.map_congr_left fun f hf => ?_
          have := (List.mem_filter.1 hf).2
          cases f; simp_all
        · conv_lhs => rw [← List.map_id (s.filter (!·.required))]
          refine List.map_congr_left fun f hf => ?_
          have := (List.mem_filter.1 hf).2
          cases f; simp_all
      · intro f t
        simp only [List.mem_map, List.mem_filter, hperm.mem_iff, f2, Prod.mk.injEq, hR]
        constructor
        · rintro ⟨_, ⟨⟨k, p, hm, rfl⟩, hr⟩, h1, h2⟩
          simp only at h1 h2 hr
          rw [any_isStr] at hr
          exact ⟨p, hmem f k p hm h1, h2.symm, h1 ▸ hr⟩
        · rintro ⟨p, hp, rfl, hr⟩
          exact ⟨_, ⟨⟨_, p, hmem' f p hp, rfl⟩, by simp only [String.toList_ofList]; exact any_isStr.2 hr⟩, by simp, rfl⟩
      · intro f t
        simp only [List.mem_map, List.mem_filter, hperm.mem_iff, f2, Prod.mk.injEq, hR]
        constructor
        · rintro ⟨_, ⟨⟨k, p, hm, rfl⟩, hr⟩, h1, h2⟩
          simp only [Bool.not_eq_true'] at h1 h2 hr
          exact ⟨p, hmem f k p hm h1, h2.symm, fun hx => by rw [any_isStr.2 (h1 ▸ hx)] at hr; cases hr⟩
        · rintro ⟨p, hp, rfl, hr⟩
          refine ⟨_, ⟨⟨_, p, hmem' f p hp, rfl⟩, ?_⟩, by simp, rfl⟩
          simp only [String.toList_ofList, Bool.not_eq_true']
          rw [Bool.eq_false_iff]
          exact fun hx => hr (any_isStr.1 hx)

end Verif.NodeGen
