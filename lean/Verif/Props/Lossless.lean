import Verif.Props.Equality
import Verif.Props.Serial
import Verif.Spec.Lossless
import Verif.Lemmas.Samples
/-!
# C64: when parsing and serialising gives back the same JSON
-/

namespace Verif.Props
open Verif Verif.Spec

variable {iv : Str → Option Int}

/-- Equal values under the key, or the key in neither. -/
def Agree (iv : Str → Option Int) (d e : List (String × Val)) (k : String) : Prop :=
  Option.Rel (fun v w => Val.eq iv v w = true) (lookupKey d k) (lookupKey e k)

theorem dict_eq_iff {d e : List (String × Val)} (hd : (d.map Prod.fst).Nodup) (he : (e.map Prod.fst).Nodup) :
    (Val.dict d).eq iv (.dict e) = true ↔ ∀ k, Agree iv d e k := by
  constructor
  · intro h k
    unfold Agree
    rcases lookup_eq hd h k with ⟨h1, h2⟩ | ⟨v, w, h1, h2, h3⟩
    · rw [h1, h2]; exact .none
    · rw [h1, h2]; exact .some h3
  · intro h
    simp only [Val.eq, Bool.and_eq_true, beq_iff_eq]
    constructor
    · have hp : (d.map Prod.fst).Perm (e.map Prod.fst) := by
        rw [List.perm_ext_iff_of_nodup hd he]
        intro k
        have := h k
        unfold Agree at this
        rw [← not_iff_not, ← lookup_none_iff, ← lookup_none_iff]
        generalize lookupKey d k = a at *
        generalize lookupKey e k = b at *
        cases this <;> simp
      simpa using hp.length_eq
    · rw [dictSub_iff]
      intro k v hm
      have := h k
      unfold Agree at this
      rw [lookup_of_mem hd hm] at this
      generalize lookupKey e k = b at *
      cases this with
      | some h => exact ⟨_, rfl, h⟩

theorem agree_self {d : List (String × Val)} (hk : UniqueKeys (.dict d)) {e : List (String × Val)} {k : String}
    (h : lookupKey e k = lookupKey d k) : Agree iv d e k := by
  unfold Agree
  rw [h]
  cases hl : lookupKey d k with
  | none => exact .none
  | some v =>
    refine .some (eq_refl v ?_)
    rw [UniqueKeys, uniqueKeysDict_iff] at hk
    exact hk.2 k v (lookupKey_mem hl)

theorem agree_isSome {d e : List (String × Val)} {k : String} (h : Agree iv d e k) :
    (lookupKey d k).isSome = (lookupKey e k).isSome := by
  unfold Agree at h
  generalize lookupKey d k = a at *
  generalize lookupKey e k = b at *
  cases h <;> rfl

theorem agree_some {d e : List (String × Val)} {k : String} {v w : Val} (hv : lookupKey d k = some v)
    (hw : lookupKey e k = some w) : Agree iv d e k ↔ v.eq iv w = true := by
  unfold Agree
  rw [hv, hw]
  simp

/-- One entry kept, the others' keys not there. -/
theorem mark_kept_iff {v : Val} (hk : UniqueKeys v) (hp : plain v = true) {m : Mark} (h : parseMark v = .ok m) :
    v.eq iv m.toDict = true ↔ LosslessMark v := by
  obtain ⟨name, hty, hname, _⟩ := C03_parse_mark_class v m h
  have hmu := mark_toDict_unique (mark_unique hk h)
  obtain ⟨d, t, rfl, ht, hr, hm⟩ := parseMark_ok h
  rw [typeOf, ht, Option.some.injEq] at hty
  subst hty
  have hd0 : plainDict d = true := by simpa [plain] using hp
  obtain ⟨_, h2, h3⟩ := markFromDict_ok hm
  rw [ht, Option.getD_some] at h2
  have hdn : (d.map Prod.fst).Nodup := by rw [UniqueKeys] at hk; exact hk.1
  have hreq := (mark_attrs_required m.cls).1
  have huniq : ∀ {c'}, (name, c') ∈ markTypes → c' = m.cls := by
    intro c' hc'
    have : ∀ a ∈ markTypes, ∀ b ∈ markTypes, a.1 = b.1 → a = b := by decide
    have := this _ hc' _ hname rfl
    exact (Prod.mk.inj this).2
  have kept_iff : LosslessMark (.dict d) ↔
      (∀ k, (lookupKey d k).isSome → k = "type" ∨ (k = "attrs" ∧ (requiredMarkAttrs m.cls).isSome)) ∧
      (∀ ad, lookupKey d "attrs" = some (.dict ad) → ∀ k, (lookupKey ad k).isSome ↔ k ∈ markAttrKeys m.cls) := by
    unfold LosslessMark
    constructor
    · rintro ⟨d', t', c, he, ht', ⟨name', hn', rfl⟩, h1, h2⟩
      cases he
      rw [ht, Option.some.injEq, Val.str.injEq, String.toList_inj] at ht'
      subst ht'
      rw [huniq hn'] at h1 h2
      exact ⟨h1, h2⟩
    · rintro ⟨h1, h2⟩
      exact ⟨d, _, m.cls, rfl, ht, ⟨name, hname, rfl⟩, h1, h2⟩
  rw [kept_iff]
  rcases h3 with ⟨hf, ha⟩ | ⟨fs, ad, a, hf, had, hok, ha⟩
  · have hto : m.toDict = .dict [("type", .str name.toList)] := by
      simp [Mark.toDict, Mark.attrsEntry, ha, removeOptional, h2, Val.isOpt]
    rw [hto, dict_eq_iff hdn (by simp)]
    rw [hf] at hreq
    have hreq : (requiredMarkAttrs m.cls).isSome = false := hreq.symm
    rw [hreq]
    constructor
    · intro hall
      have h1 : ∀ k, (lookupKey d k).isSome → k = "type" := by
        intro k hs
        rw [agree_isSome (hall k)] at hs
        by_contra hne
        simp [lookupKey, Ne.symm hne] at hs
      refine ⟨fun k hs => .inl (h1 k hs), fun ad had => ?_⟩
      have := h1 "attrs" (by rw [had]; rfl)
      simp at this
    · rintro ⟨h1, _⟩ k
      by_cases hkt : k = "type"
      · subst hkt
        exact agree_self hk (by simp [lookupKey, ht])
      · have : lookupKey d k = none := by
          cases hl : lookupKey d k with
          | none => rfl
          | some x =>
            rcases h1 k (by rw [hl]; rfl) with h | ⟨_, h⟩
            · exact absurd h hkt
            · simp at h
        refine agree_self hk ?_
        rw [this]
        simp [lookupKey, Ne.symm hkt]
  · have hto : m.toDict = .dict [("type", .str name.toList), ("attrs", .dict a.fields)] := by
      simp [Mark.toDict, Mark.attrsEntry, ha, removeOptional, h2, Val.isOpt]
    rw [hto] at hmu
    rw [hto, dict_eq_iff hdn (by simp)]
    rw [hf] at hreq
    have hreq : (requiredMarkAttrs m.cls).isSome = true := hreq.symm
    rw [hreq]
    have hau : UniqueKeys (.dict a.fields) := by
      rw [UniqueKeys, uniqueKeysDict_iff] at hmu
      exact hmu.2 "attrs" _ (by simp)
    have hadu : UniqueKeys (.dict ad) := by
      rw [UniqueKeys, uniqueKeysDict_iff] at hk
      exact hk.2 "attrs" _ (lookupKey_mem had)
    have hfields : ∀ k, (k ∈ markAttrKeys m.cls → (lookupKey a.fields k).isSome ∧
        ∀ x, lookupKey ad k = some x → lookupKey a.fields k = some x) ∧
        (k ∉ markAttrKeys m.cls → lookupKey a.fields k = none) := by
      obtain ⟨_, rfl⟩ := attrsFromDict_ok hok
      refine fun k => ⟨fun hk => ?_, fun hk => ?_⟩
      · rw [← markAttrsFields_names _ fs hf] at hk
        obtain ⟨f, hfm, rfl⟩ := List.mem_map.mp hk
        dsimp only
        rw [lookup_map_field _ (markAttrsFields_nodup _ fs hf) hfm]
        refine ⟨rfl, fun x hx => by rw [fieldValue, hx]⟩
      · rw [← markAttrsFields_names _ fs hf] at hk
        exact lookup_map_field_none _ hk
    have hattrs : (Val.dict ad).eq iv (.dict a.fields) = true ↔
        ∀ k, (lookupKey ad k).isSome ↔ k ∈ markAttrKeys m.cls := by
      rw [dict_eq_iff (by rw [UniqueKeys] at hadu; exact hadu.1) (by rw [UniqueKeys] at hau; exact hau.1)]
      constructor
      · intro hall k
        rw [agree_isSome (hall k)]
        constructor
        · intro hs
          by_contra hn
          rw [(hfields k).2 hn] at hs
          simp at hs
        · intro hm
          exact ((hfields k).1 hm).1
      · intro hall k
        refine agree_self hadu ?_
        by_cases hm : k ∈ markAttrKeys m.cls
        · have := (hall k).mpr hm
          cases hl : lookupKey ad k with
          | none => rw [hl] at this; simp at this
          | some x => exact ((hfields k).1 hm).2 x hl
        · rw [(hfields k).2 hm]
          cases hl : lookupKey ad k with
          | none => rfl
          | some x => exact absurd ((hall k).mp (by rw [hl]; rfl)) hm
    constructor
    · intro hall
      refine ⟨fun k hs => ?_, fun ad' had' => ?_⟩
      · rw [agree_isSome (hall k)] at hs
        by_cases hkt : k = "type"
        · exact .inl hkt
        · by_cases hka : k = "attrs"
          · exact .inr ⟨hka, rfl⟩
          · simp [lookupKey, Ne.symm hkt, Ne.symm hka] at hs
      · rw [had, Option.some.injEq, Val.dict.injEq] at had'
        subst had'
        exact hattrs.mp ((agree_some had (by simp [lookupKey])).mp (hall "attrs"))
    · rintro ⟨h1, h2⟩ k
      by_cases hkt : k = "type"
      · subst hkt
        exact agree_self hk (by simp [lookupKey, ht])
      · by_cases hka : k = "attrs"
        · subst hka
          exact (agree_some had (by simp [lookupKey])).mpr (hattrs.mpr (h2 ad had))
        · refine agree_self hk ?_
          have : lookupKey d k = none := by
            cases hl : lookupKey d k with
            | none => rfl
            | some x =>
              rcases h1 k (by rw [hl]; rfl) with h | ⟨h, _⟩
              · exact absurd h hkt
              · exact absurd h hka
          rw [this]
          simp [lookupKey, Ne.symm hkt, Ne.symm hka]

theorem forall2_of_map {α β γ : Type} {f : α → γ} {g : β → γ} {l : List α} {m : List β}
    (h : l.map f = m.map g) : List.Forall₂ (fun a b => f a = g b) l m := by
  induction l generalizing m with
  | nil => cases m with
    | nil => exact .nil
    | cons b m => simp at h
  | cons a l ih => cases m with
    | nil => simp at h
    | cons b m =>
      simp only [List.map_cons, List.cons.injEq] at h
      exact .cons h.1 (ih h.2)

theorem forall2_comp {α β γ : Type} {R : α → β → Prop} {S : β → γ → Prop} {l : List α} {m : List β} {k : List γ}
    (h1 : List.Forall₂ R l m) (h2 : List.Forall₂ S m k) : List.Forall₂ (fun a c => ∃ b ∈ m, R a b ∧ S b c) l k := by
  induction h1 generalizing k with
  | nil => cases h2; exact .nil
  | @cons a b l m hab hlm ih =>
    cases h2 with
    | cons hs hss =>
      refine .cons ⟨_, by simp, hab, hs⟩ ((ih hss).imp ?_)
      rintro x y ⟨z, hz, h⟩
      exact ⟨z, List.mem_cons_of_mem _ hz, h⟩

/-- A list whose supported entries serialise to `vs`. -/
theorem list_kept {K : Val → Prop} {T : Val → Val → Prop} {reg : Val → Bool} {l vs : List Val}
    (ht : List.Forall₂ T (l.filter reg) vs) (hi : ∀ x ∈ l, ∀ y, T x y → (x.eq iv y = true ↔ K x))
    (hr : ∀ x ∈ l, K x → reg x = true) : (Val.list l).eq iv (.list vs) = true ↔ ∀ x ∈ l, K x := by
  simp only [Val.eq]
  rw [listEq_iff]
  by_cases hall : ∀ x ∈ l, reg x = true
  · rw [List.filter_eq_self.mpr hall] at ht
    clear hall hr
    induction ht with
    | nil => simp
    | @cons x y l vs hxy _ ih =>
      rw [List.forall₂_cons, hi x (by simp) y hxy, ih fun z hz => hi z (List.mem_cons_of_mem _ hz)]
      simp
  · refine iff_of_false (fun h => hall ?_) (fun h => hall fun x hx => hr x hx (h x hx))
    have h1 := h.length_eq
    have h2 := ht.length_eq
    rw [← h1] at h2
    rw [← List.filter_eq_self]
    exact List.length_filter_eq_length_iff.mp h2 |> List.filter_eq_self.mpr

theorem kept_registered {v : Val} (h : Lossless v) : registeredNode v = true := by
  cases h with
  | node d name c type known =>
    simp only [registeredNode, typeOf, type, List.any_eq_true]
    exact ⟨_, known, by simp⟩

theorem keptMark_registered {v : Val} (h : LosslessMark v) : registeredMark v = true := by
  obtain ⟨d, t, c, rfl, ht, ⟨name, hn, rfl⟩, _⟩ := h
  simp only [registeredMark, typeOf, ht, List.any_eq_true]
  exact ⟨_, hn, by simp⟩

theorem kept_step {w : Bool} {d : List (String × Val)} {n : Node} {d' : Val} (hk : UniqueKeys (.dict d))
    (hp : plain (.dict d) = true) (h : (parseNode w (.dict d)).out = .ok n) (hconv : Converted n)
    (hto : n.toDict = .ok d')
    (ih : ∀ l, lookupKey d "content" = some (.list l) → ∀ x ∈ l, ∀ k, (parseNode w x).out = .ok k → Converted k →
      ∀ y, k.toDict = .ok y → (x.eq iv y = true ↔ Lossless x)) :
    (Val.dict d).eq iv d' = true ↔ Lossless (.dict d) := by
  obtain ⟨name, hty, hname, _⟩ := C03_parse_node_class w _ n h
  obtain ⟨d0, t, he, ht, hreg, hf⟩ := parseNode_ok h
  cases he
  rw [typeOf] at hty
  have hd'u := toDict_unique (parsed_unique w _ hk n h) hto
  obtain ⟨co, mo, _, _, hdd⟩ := toDict_ok hto
  obtain ⟨e, rfl⟩ : ∃ e, d' = .dict e := ⟨_, hdd⟩
  clear hdd
  obtain ⟨hkeys, hsame, hattrs, hcontent, hmarks, hmissing⟩ := C05_fields w n.cls d e n hp hf hto
  have hdn : (d.map Prod.fst).Nodup := by rw [UniqueKeys] at hk; exact hk.1
  have hen : (e.map Prod.fst).Nodup := by rw [UniqueKeys] at hd'u; exact hd'u.1
  have huniq : ∀ {c'}, (name, c') ∈ nodeTypes → c' = n.cls := by
    intro c' hc'
    have : ∀ a ∈ nodeTypes, ∀ b ∈ nodeTypes, a.1 = b.1 → a = b := by decide
    exact (Prod.mk.inj (this _ hc' _ hname rfl)).2
  have kept_iff : Lossless (.dict d) ↔ (∀ k, (lookupKey d k).isSome → k ∈ nodeKeys n.cls) ∧
      (n.cls = .doc → (lookupKey d "version").isSome) ∧
      (∀ ad, lookupKey d "attrs" = some (.dict ad) → ∀ k, (lookupKey ad k).isSome → k ∈ attrKeys n.cls) ∧
      (∀ l, lookupKey d "marks" = some (.list l) → ∀ m ∈ l, LosslessMark m) ∧
      (∀ l, lookupKey d "content" = some (.list l) → ∀ k ∈ l, Lossless k) := by
    constructor
    · intro hK
      cases hK with
      | node _ name' c type known keys version attrs marks content =>
        rw [hty, Option.some.injEq, Val.str.injEq, String.toList_inj] at type
        subst type
        have hcc := huniq known
        subst hcc
        exact ⟨keys, version, attrs, marks, content⟩
    · rintro ⟨h1, h2, h3, h4, h5⟩
      exact .node d name n.cls hty hname h1 h2 h3 h4 h5
  rw [kept_iff, dict_eq_iff hdn hen]
  -- the value under each key, if the class knows it and it is given
  have hvals : ∀ k v, k ∈ nodeKeys n.cls → lookupKey d k = some v →
      (Agree iv d e k ↔
        (∀ ad, k = "attrs" → v = .dict ad → ∀ k', (lookupKey ad k').isSome → k' ∈ attrKeys n.cls) ∧
        (∀ l, k = "marks" → v = .list l → ∀ m ∈ l, LosslessMark m) ∧
        (∀ l, k = "content" → v = .list l → ∀ x ∈ l, Lossless x)) := by
    intro k v hkn hv
    have hvu : UniqueKeys v := by
      rw [UniqueKeys, uniqueKeysDict_iff] at hk
      exact hk.2 k v (lookupKey_mem hv)
    have hvp : plain v = true := plain_lookup (by simpa [plain] using hp) hv
    have h6 := six_keys n.cls hkn
    simp only [List.mem_cons, List.not_mem_nil, or_false] at h6
    have plainCase : k = "type" ∨ k = "version" ∨ k = "text" → Agree iv d e k := fun hc =>
      agree_self hk (by rw [hsame k v hc hkn hv, hv])
    rcases h6 with rfl | rfl | rfl | rfl | rfl | rfl
    · simpa using plainCase (by simp)
    · simpa using plainCase (by simp)
    · simpa using plainCase (by simp)
    · -- attrs
      obtain ⟨a, k, m, ha, _⟩ := nodeFromDict_ok hf
      rcases attrsStep_ok_cases ha with ⟨_, h1 | h1⟩ | ⟨fs, ad, o, hf', had, rfl, hok⟩
      · rw [hv] at h1; simp at h1
      · rw [attrs_declared, h1] at hkn; simp at hkn
      · rw [hv, Option.some.injEq] at had
        subst had
        obtain ⟨ad', h1, h2⟩ := hattrs ad hkn hv
        rw [agree_some hv h1, dict_eq_iff (by rw [UniqueKeys] at hvu; exact hvu.1)
          (by
            have : UniqueKeys (.dict ad') := by
              rw [UniqueKeys, uniqueKeysDict_iff] at hd'u
              exact hd'u.2 _ _ (lookupKey_mem h1)
            rw [UniqueKeys] at this; exact this.1)]
        simp only [Val.dict.injEq, forall_eq', true_implies, String.reduceEq, false_implies, implies_true,
          and_true]
        constructor
        · intro hall k' hs
          rw [agree_isSome (hall k'), h2] at hs
          by_contra hn
          simp [hn] at hs
        · intro hall k'
          refine agree_self hvu ?_
          rw [h2]
          split
          · rfl
          · next hn =>
            cases hl : lookupKey ad k' with
            | none => rfl
            | some x => exact absurd (hall k' (by rw [hl]; rfl)) hn
    · -- content
      obtain ⟨a, s, m, _, hs, _, _, heq⟩ := nodeFromDict_ok hf
      have hraw := (hconv n .self).1
      rw [heq] at hraw
      simp only [Node.content] at hraw
      rw [slotOf_eq n.cls _ (.inr (.inl rfl)), if_pos hkn] at hraw
      rw [contentStep_eq, hv] at hs
      have hl : ∃ l, v = .list l := by
        cases v with
        | list l => exact ⟨l, rfl⟩
        | opt => simp [plain] at hvp
        | _ =>
          exfalso
          simp only [Res.ok, Except.ok.injEq] at hs
          subst hs
          simp [rawSlot] at hraw
      obtain ⟨l, rfl⟩ := hl
      obtain ⟨kids, vs, h1, h2, h3⟩ := hcontent l hkn hv
      rw [agree_some hv h3]
      have hkids : n.content = .val kids := by
        obtain ⟨ms, hms, hs'⟩ := (content_slot (c := n.cls) (by rw [contentStep_eq, hv]; exact hs) hkn).2 l hv
        have := (parseNodes_registered hms).1
        rw [h1] at this
        have : kids = ms := by
          clear * - this
          induction kids generalizing ms with
          | nil => cases ms <;> simp at this ⊢
          | cons k kids ih => cases ms with
            | nil => simp at this
            | cons m ms => simp at this ⊢; exact ⟨this.1, ih _ (by simpa using this.2)⟩
        rw [heq, this]
        exact hs'
      rw [list_kept (K := Lossless) (reg := registeredNode) (forall2_comp (forall2_of_map h1) (forall2_of_map h2))]
      · simp
      · rintro x hx y ⟨k, hk1, hk2, hk3⟩
        exact ih l hv x hx k hk2 (converted_child hconv hkids hk1) y hk3
      · exact fun x _ => kept_registered
    · -- marks
      obtain ⟨a, s, m, _, _, hm, _, heq⟩ := nodeFromDict_ok hf
      have hraw := (hconv n .self).2
      rw [heq] at hraw
      simp only [Node.hd] at hraw
      rw [slotOf_eq n.cls _ (.inr (.inr rfl)), if_pos hkn] at hraw
      have hm' := hm
      unfold marksStep at hm'
      rw [hv] at hm'
      have hl : ∃ l, v = .list l := by
        cases v with
        | list l => exact ⟨l, rfl⟩
        | opt => simp [plain] at hvp
        | _ =>
          exfalso
          simp only [Res.ok, Except.ok.injEq] at hm'
          subst hm'
          simp [rawSlot] at hraw
      obtain ⟨l, rfl⟩ := hl
      obtain ⟨ms, h1, h3⟩ := hmarks l hkn hv
      rw [agree_some hv h3]
      have h2 : List.Forall₂ (fun (m : Mark) y => m.toDict = y) ms (ms.map Mark.toDict) := by
        clear * -
        induction ms with
        | nil => exact .nil
        | cons m ms ih => exact .cons rfl ih
      rw [list_kept (K := LosslessMark) (reg := registeredMark) (forall2_comp (forall2_of_map h1) h2)]
      · simp
      · rintro x hx y ⟨k, hk1, hk2, rfl⟩
        refine mark_kept_iff ?_ ?_ hk2
        · rw [UniqueKeys, uniqueKeysList_iff] at hvu
          exact hvu x hx
        · rw [plain, plainList_iff] at hvp
          exact hvp x hx
      · exact fun x _ => keptMark_registered
  constructor
  · intro hall
    have hkn : ∀ k, (lookupKey d k).isSome → k ∈ nodeKeys n.cls := fun k hs =>
      hkeys k (by rw [← agree_isSome (hall k)]; exact hs)
    refine ⟨hkn, fun hdoc => ?_, fun ad had => ?_, fun l hl => ?_, fun l hl => ?_⟩
    · rw [agree_isSome (hall "version")]
      have hvn : "version" ∈ nodeKeys n.cls := by rw [hdoc]; decide
      cases hv : lookupKey d "version" with
      | none => rw [(hmissing _ hvn hv).2.1 rfl]; rfl
      | some v => rw [hsame _ v (by simp) hvn hv]; rfl
    · exact ((hvals _ _ (hkn _ (by rw [had]; rfl)) had).mp (hall _)).1 ad rfl rfl
    · exact ((hvals _ _ (hkn _ (by rw [hl]; rfl)) hl).mp (hall _)).2.1 l rfl rfl
    · exact ((hvals _ _ (hkn _ (by rw [hl]; rfl)) hl).mp (hall _)).2.2 l rfl rfl
  · rintro ⟨h1, h2, h3, h4, h5⟩ k
    cases hv : lookupKey d k with
    | some v =>
      rw [hvals k v (h1 k (by rw [hv]; rfl)) hv]
      refine ⟨?_, ?_, ?_⟩
      · rintro ad rfl rfl; exact h3 ad hv
      · rintro l rfl rfl; exact h4 l hv
      · rintro l rfl rfl; exact h5 l hv
    | none =>
      refine agree_self hk ?_
      rw [hv]
      by_cases hkn : k ∈ nodeKeys n.cls
      · obtain ⟨_, _, h8⟩ := hmissing k hkn hv
        refine h8 ?_ ?_
        · rintro rfl; rw [hty] at hv; cases hv
        · rintro rfl
          have := h2 ((version_doc _).mp hkn)
          rw [hv] at this; cases this
      · cases he : lookupKey e k with
        | none => rfl
        | some x => exact absurd (hkeys k (by rw [he]; rfl)) hkn

/-- C64: for every plain JSON value that parses and whose `content` and `marks` are lists: `to_dict` of the
parsed node gives back an equal JSON value (whatever the order of keys) iff `Lossless`: the value and all its
children and marks have only keys that their classes know, supported types, a version in each document, and
all known attributes in each mark. -/
theorem C64_lossless_iff (iv : Str → Option Int) (w : Bool) (v : Val) (hk : UniqueKeys v) (hp : plain v = true)
    (n : Node) (h : (parseNode w v).out = .ok n) (hconv : Converted n) :
    ∃ d', n.toDict = .ok d' ∧ (v.eq iv d' = true ↔ Lossless v) := by
  obtain ⟨d', hto, h4, h5⟩ := C04_parse_node w w v n hp h hconv
  refine ⟨d', hto, ?_⟩
  clear h4 h5
  induction v using Val.contentInduction generalizing n d' with
  | h v ih =>
    obtain ⟨d, t, rfl, _⟩ := parseNode_ok h
    refine kept_step hk hp h hconv hto fun l hl x hx k hpk hck y hy => ?_
    refine ih d l x rfl hl hx ?_ ?_ k hpk hck y hy
    · rw [UniqueKeys, uniqueKeysDict_iff] at hk
      have := hk.2 _ _ (lookupKey_mem hl)
      rw [UniqueKeys, uniqueKeysList_iff] at this
      exact this x hx
    · have := plain_lookup (by simpa [plain] using hp) hl
      rw [plain, plainList_iff] at this
      exact this x hx

/-- C64 for marks. -/
theorem C64_mark_iff (iv : Str → Option Int) (v : Val) (hk : UniqueKeys v) (hp : plain v = true)
    (m : Mark) (h : parseMark v = .ok m) : v.eq iv m.toDict = true ↔ LosslessMark v := mark_kept_iff hk hp h

/-- A document with a title and a bold word, keys not in the order of the fields. -/
def keptExample : Val := .dict
  [("version", .int 1), ("type", Samples.str "doc"), ("content", .list
    [Samples.j "heading" [("content", .list [Samples.j "text" [("text", Samples.str "T")]]),
       ("attrs", .dict [("level", .int 2)])],
     Samples.j "paragraph" [("content", .list [Samples.j "text"
       [("marks", .list [Samples.j "strong" []]), ("text", Samples.str "b")]])]])]

theorem keptExample_unique : UniqueKeys keptExample := by
  simp [keptExample, Samples.j, UniqueKeys, UniqueKeysDict, UniqueKeysList, Samples.str]

/-- It meets the hypotheses, and nothing of it is lost. -/
example : ∃ n, (parseNode true keptExample).out = .ok n ∧ plain keptExample = true ∧ UniqueKeys keptExample ∧
    Converted n ∧ Lossless keptExample := by
  refine ⟨_, rfl, rfl, keptExample_unique, converted_of_noRaw rfl, ?_⟩
  obtain ⟨d', h1, h2⟩ := C64_lossless_iff (fun _ => none) true keptExample keptExample_unique rfl _ rfl
    (converted_of_noRaw rfl)
  exact h2.mp (by cases h1; rfl)

/-- A document without a version is not given back. -/
example : ¬ Lossless (Samples.j "doc" [("content", .list [])]) := by
  intro h
  obtain ⟨d', h1, h2⟩ := C64_lossless_iff (fun _ => none) true (Samples.j "doc" [("content", .list [])])
    (by simp [Samples.j, UniqueKeys, UniqueKeysDict, UniqueKeysList, Samples.str]) rfl _ rfl (converted_of_noRaw rfl)
  have := h2.mpr h
  cases h1
  exact absurd this (by decide)

example := C64_mark_iff (fun _ => none) (Samples.j "link" [("attrs", .dict [("href", Samples.str "u"), ("x", .int 1)])])
  (by simp [Samples.j, UniqueKeys, UniqueKeysDict, Samples.str]) rfl _ rfl

end Verif.Props
