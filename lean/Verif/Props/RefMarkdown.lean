import Verif.Lemmas.RefView
import Verif.Props.Lenient
/-!
# C67: which documents of the reference convert to Markdown in strict mode
-/

namespace Verif.Props
open Verif Verif.Spec Verif.Spec.Ref

/-- A described node with a parsed object and valid children. -/
structure Tree (w : Bool) (t : String) (row : Row) (d : List (String × Val)) (n : Node) : Prop
    extends View w t row d n where
  card : t = "inlineCard" → CardOk d
  kids : ∀ l, lookupKey d "content" = some (.list l) → ∀ k ∈ l, Valid undescribed k

theorem tree_of_valid {w : Bool} {v : Val} {n : Node} (h : Valid undescribed v)
    (hn : (parseNode w v).out = .ok n) : ∃ t row d, v = .dict d ∧ Tree w t row d n := by
  cases h with
  | described t row d known type ok card children =>
    exact ⟨t, row, d, rfl, ⟨known, type, ok, hn⟩, card, children⟩
  | undescribed t v known type =>
    have := registered_of_ok hn
    rw [unregistered_ofType type (undescribed_unknown t known)] at this
    cases this

variable {w : Bool} {t : String} {row : Row} {d : List (String × Val)} {n : Node}

/-- The children of the object. -/
theorem Tree.kid (h : Tree w t row d n) {x : Node} (hx : IsChild x n) :
    ∃ l d' t' row', lookupKey d "content" = some (.list l) ∧ .dict d' ∈ l ∧ t' ∈ row.kids ∧
      Tree w t' row' d' x := by
  obtain ⟨l, k, hl, hk, hp⟩ := (h.child x).mp hx
  obtain ⟨t', row', d', rfl, ht⟩ := tree_of_valid (h.kids l hl k hk) hp
  refine ⟨l, d', t', row', hl, hk, ?_, ht⟩
  obtain ⟨_, he, _, hty⟩ := h.ok.content _ hl
  cases he
  obtain ⟨t2, ht2, hty2⟩ := hty _ hk
  rw [ofType_unique ht.type hty2]
  exact ht2

/-- The described children of the JSON node. -/
theorem Tree.kidOf (h : Tree w t row d n) {l : List Val} {k : Val} (hl : lookupKey d "content" = some (.list l))
    (hk : k ∈ l) : (∃ x t' row' d', k = .dict d' ∧ t' ∈ row.kids ∧ IsChild x n ∧ Tree w t' row' d' x) ∨
      ∃ t ∈ undescribed, OfType t k := by
  rcases valid_parse w undescribed_unknown (h.kids l hl k hk) with ⟨_, _, x, _, _, _, hx⟩ | ⟨t, ht, hty, _⟩
  · obtain ⟨t', row', d', rfl, ht⟩ := tree_of_valid (h.kids l hl k hk) hx
    refine .inl ⟨x, t', row', d', rfl, ?_, (h.child x).mpr ⟨l, _, hl, hk, hx⟩, ht⟩
    obtain ⟨_, he, _, hty⟩ := h.ok.content _ hl
    cases he
    obtain ⟨t2, ht2, hty2⟩ := hty _ hk
    rw [ofType_unique ht.type hty2]
    exact ht2
  · exact .inr ⟨t, ht, hty⟩

/-- A required attribute. -/
theorem View.given (h : View w t row d n) (hn : row.needsAttrs = true) {f : Fld} (hf : f ∈ row.attrs)
    (hr : f.required = true) : ∃ ad v, lookupKey d "attrs" = some (.dict ad) ∧ lookupKey ad f.name = some v ∧
      f.ty.Fits v := by
  obtain ⟨a, ha⟩ := Option.isSome_iff_exists.mp (h.ok.attrsGiven hn)
  obtain ⟨ad, rfl, hok⟩ := h.ok.attrs a ha
  obtain ⟨v, hv⟩ := Option.isSome_iff_exists.mp ((hok f hf).1 hr)
  exact ⟨ad, v, ha, hv, (hok f hf).2 v hv⟩

/-- The level a node is converted at, by the nodes around it. -/
def LevelOk (g p : Option String) (n : Node) (l : Option Int) : Prop :=
  LevelFits n l ∧ 0 ≤ l.getD 0 ∧
    (n.cls = .orderedList → (l.getD 0 = 0 ↔ ¬ (g = some "orderedList" ∧ p = some "listItem")))

theorem marks_never (env : Env) {ts : List String} {l : List Val} {ms : List Mark} (hl : ∀ v ∈ l, MarkOk ts v)
    (h : List.Forall₂ (fun v m => parseMark v = .ok m) l ms) (hc : "code" ∉ ts) (s : Str) :
    ∃ t, ms.foldlM (fun md m => m.toMarkdown env md) (.str s) = .ok (.str t) := by
  by_contra hn
  have hn : ∀ t, ¬ ms.foldlM (fun md m => m.toMarkdown env md) (.str s) = .ok (.str t) := fun t h => hn ⟨t, h⟩
  rw [marks_newline env hl h s s Iff.rfl] at hn
  obtain ⟨pre, m, post, rfl, hcode, _⟩ := hn
  obtain ⟨t, ht, _, _, hty, _⟩ := hl m (by simp)
  cases ofType_unique hcode hty
  exact hc ht

theorem rows_filled : ∀ e ∈ rows, e.1 = "listItem" ∨ e.1 = "tableRow" → e.2.kids.isEmpty = false ∧
    e.2.needsContent = true ∧ 1 ≤ e.2.atLeast := by decide

theorem Tree.itemIterates (h : Tree w t row d n) (hk : ∀ t ∈ row.kids, t = "listItem") {i : Node}
    (hi : IsChild i n) : Iterates i := by
  obtain ⟨_, d', t', row', _, _, ht', hi'⟩ := h.kid hi
  cases hk _ ht'
  obtain ⟨h1, h2, _⟩ := rows_filled _ hi'.known (.inl rfl)
  exact hi'.iterates (by simpa using h1) h2

theorem tableRow_kids : ∀ e ∈ rows, e.1 = "tableRow" → ∀ t ∈ e.2.kids, t ∉ undescribed := by decide

theorem Tree.rowFilled {row : Row} (h : Tree w "tableRow" row d n) : ∃ c, IsChild c n := by
  obtain ⟨h1, h2, h3⟩ := rows_filled _ h.known (.inr rfl)
  obtain ⟨c, hc⟩ := Option.isSome_iff_exists.mp (h.ok.contentGiven h2)
  obtain ⟨l, rfl, hlen, hty⟩ := h.ok.content c hc
  cases l with
  | nil => simp at hlen h3; omega
  | cons k l =>
    rcases h.kidOf hc (List.mem_cons_self ..) with ⟨x, _, _, _, _, _, hx, _⟩ | ⟨t, ht, hk⟩
    · exact ⟨x, hx⟩
    · obtain ⟨t2, ht2, hk2⟩ := hty k (List.mem_cons_self ..)
      cases ofType_unique hk hk2
      exact absurd ht (tableRow_kids _ h.known rfl _ ht2)

theorem View.attrSome (h : View w t row d n) {ad : List (String × Val)} {k : String} {v : Val}
    (had : lookupKey d "attrs" = some (.dict ad)) (hv : lookupKey ad k = some v)
    (hd : "attrs" ∈ nodeKeys n.cls) (hk : k ∈ attrKeys n.cls) : Spec.attr n k = some v := by
  rw [h.attr had hd hk, hv]; rfl

/-- Faults of the object are reasons in the JSON node, and the other way round. -/
theorem Tree.fault (env : Env) (h : Tree w t row d n) {g p : Option String} {l : Option Int}
    (hlev : LevelOk g p n l) : Fault env n l ↔ Blocks env g p d := by
  have hT : ∀ x, OfType x (.dict d) ↔ t = x := fun x =>
    ⟨fun hx => ofType_unique h.type hx, fun hx => hx ▸ h.type⟩
  have hc := h.toView.cls.1
  unfold Blocks
  simp only [hT]
  have hk := h.known
  simp only [rows, List.mem_cons, Prod.mk.injEq, List.not_mem_nil, or_false] at hk
  rcases hk with hk | hk | hk | hk | hk | hk | hk | hk | hk | hk | hk | hk | hk | hk | hk | hk | hk | hk | hk | hk | hk | hk | hk | hk | hk | hk | hk
  all_goals
    obtain ⟨rfl, rfl⟩ := hk
    simp [nodeTypes] at hc
    simp only [Fault, hc, String.reduceEq, false_and, or_false, false_or, true_and]
  all_goals first
    | exact iff_of_false (h.notBad (by simp [topLevel, inCell])) id
    | exact iff_of_false id id
    | exact iff_of_false (not_not.mpr (h.iterates (by simp) rfl)) id
    | skip
  case inr.inr.inl =>
    refine iff_of_false ?_ id
    rintro (hi | ⟨i, hi, _, hni⟩)
    · exact hi (h.iterates (by simp) rfl)
    · exact hni (h.itemIterates (by simp) hi)
  case inr.inr.inr.inr.inl =>
    obtain ⟨ad, v, had, hv, _⟩ := h.given rfl (f := req "timestamp" .string) (by simp) rfl
    have := h.attrSome had hv (by rw [hc]; decide) (by rw [hc]; decide)
    simp only [req] at hv this
    simp [this, had, hv]
  case inr.inr.inr.inr.inr.inl =>
    obtain ⟨ad, v, had, hv, s, rfl⟩ := h.given rfl (f := req "shortName" .string) (by simp) rfl
    exact iff_of_false (fun hf => hf.2 s (h.attrSome had hv (by rw [hc]; decide) (by rw [hc]; decide))) id
  case inr.inr.inr.inr.inr.inr.inr.inr.inl =>
    obtain ⟨ad, v, had, hv, i, rfl, _⟩ := h.given rfl (f := req "level" (.intBetween 1 6)) (by simp) rfl
    have := h.attrSome had hv (by rw [hc]; decide) (by rw [hc]; decide)
    simp only [req] at this
    refine iff_of_false ?_ id
    rintro (hb | ⟨v, h1, h2⟩)
    · exact h.notBad (by simp [Ref.inline]) hb
    · rw [this] at h1; cases h1; exact h2 (.inl ⟨i, rfl⟩)
  case inr.inr.inr.inr.inr.inr.inr.inr.inr.inl =>
    obtain ⟨a, ha⟩ := Option.isSome_iff_exists.mp (h.ok.attrsGiven rfl)
    obtain ⟨ad, rfl, hok⟩ := h.ok.attrs a ha
    have hattr := h.attr ha (by rw [hc]; decide) (k := "url") (by rw [hc]; decide)
    simp only [ha, Option.some.injEq, Val.dict.injEq, exists_eq_left', StrAttr, hattr]
    cases hu : lookupKey ad "url" with
    | none => simp
    | some v =>
      obtain ⟨s, rfl, _⟩ := (hok (opt "url" .uri) (by simp)).2 v hu
      simp
  case inr.inr.inr.inr.inr.inr.inr.inr.inr.inr.inr.inl =>
    refine iff_of_false ?_ id
    rintro ⟨hl, hf⟩
    obtain ⟨ad, v, had, hv, s, hs, rfl⟩ := h.given rfl (f := req "type" (.oneOf ["file", "link"])) (by simp) rfl
    have hty := h.attrSome had hv (by rw [hc]; decide) (by rw [hc]; decide)
    obtain ⟨ad', v, had', hv, id', rfl⟩ := h.given rfl (f := req "id" .string) (by simp) rfl
    have hid := h.attrSome had' hv (by rw [hc]; decide) (by rw [hc]; decide)
    simp only [req] at hty hid
    simp only [List.mem_cons, List.not_mem_nil, or_false] at hs
    rcases hs with rfl | rfl
    · rcases hf with hf | ⟨s, _, hf⟩
      · by_cases ha : ∃ a, StrAttr n "alt" a
        · obtain ⟨a, ha⟩ := ha
          exact hf _ ⟨a, _, rfl, .inl ha, .inr ⟨hty, _, hid, rfl⟩⟩
        · exact hf _ ⟨_, _, rfl, .inr ⟨fun a h => ha ⟨a, h⟩, rfl⟩, .inr ⟨hty, _, hid, rfl⟩⟩
      · unfold MarksFail Styled at hf
        rcases h.marks (by rw [hc]; decide) with ⟨l, ms, _, hm, hok, hall⟩ | ⟨_, hm⟩
        · rw [hm] at hf
          obtain ⟨t, ht⟩ := marks_never env hok hall (by simp) s
          exact hf t ht
        · rw [hm] at hf
          exact hf s rfl
    · exact hl hty
  case inr.inr.inr.inr.inr.inr.inr.inr.inr.inr.inr.inr.inr.inr.inr.inr.inr.inl =>
    rw [h.noAttrs hc, hlev.2.2 hc]
    constructor
    · rintro (hi | ⟨i, hi, _, hni⟩ | h)
      · exact absurd (h.iterates (by simp) rfl) hi
      · exact absurd (h.itemIterates (by simp) hi) hni
      · exact ⟨h.2, h.1⟩
    · exact fun h => .inr (.inr ⟨h.2, h.1⟩)
  case inr.inr.inr.inr.inr.inr.inr.inr.inr.inr.inr.inr.inr.inr.inr.inr.inr.inr.inl =>
    obtain ⟨ad, v, had, hv, s, _, rfl⟩ := h.given rfl
      (f := req "panelType" (.oneOf ["info", "note", "warning", "success", "error"])) (by simp) rfl
    refine iff_of_false ?_ id
    rintro (hb | hs)
    · exact h.notBad (by simp) hb
    · exact hs _ (h.attrSome had hv (by rw [hc]; decide) (by rw [hc]; decide))
  case inr.inr.inr.inr.inr.inr.inr.inr.inr.inr.inr.inr.inr.inr.inr.inr.inr.inr.inr.inl =>
    refine iff_of_false ?_ id
    rintro (hb | ⟨s, _, hf⟩)
    · exact h.notBad (by simp [Ref.inline]) hb
    · unfold MarksFail Styled at hf
      rcases h.marks (by rw [hc]; decide) with ⟨l, ms, _, hm, hok, hall⟩ | ⟨_, hm⟩
      · rw [hm] at hf
        obtain ⟨t, ht⟩ := marks_never env hok hall (by simp) s
        exact hf t ht
      · rw [hm] at hf
        exact hf s rfl
  case inr.inr.inr.inr.inr.inr.inr.inr.inr.inr.inr.inr.inr.inr.inr.inr.inr.inr.inr.inr.inr.inr.inl =>
    refine iff_of_false ?_ id
    rintro (hi | ⟨r, hr, hno⟩)
    · exact hi (h.iterates (by simp) rfl)
    · obtain ⟨_, d', t', row', _, _, ht', hr'⟩ := h.kid hr
      simp only [List.mem_cons, List.not_mem_nil, or_false] at ht'
      subst ht'
      obtain ⟨c, hc⟩ := hr'.rowFilled
      exact hno c hc
  case inr.inr.inr.inr.inr.inr.inr.inr.inr.inr.inr.inr.inr.inr.inr.inr.inr.inr.inr.inr.inr.inr.inr.inr.inr.inr =>
    obtain ⟨s, h1, h2⟩ := h.text
    simp only [h2, Option.some.injEq, Val.str.injEq, exists_eq_left', ne_eq, h1, MarksFail, Styled]
    have : ¬ ∀ s', ¬ s = s' := fun h => h s rfl
    simp only [this, false_and, or_false]
    rcases h.marks (by rw [hc]; decide) with ⟨l, ms, hl, hm, hok, hall⟩ | ⟨hl, hm⟩
    · rw [hm]
      simp only [hl, Option.some.injEq, Val.list.injEq, marks_newline env hok hall s s Iff.rfl]
      exact ⟨fun h => ⟨s, l, rfl, rfl, h⟩, fun ⟨_, _, h1, h2, h3⟩ => h1 ▸ h2 ▸ h3⟩
    · rw [hm]
      simp [hl]

theorem undescribed_not_blocked (env : Env) {g p : Option String} {t : String} {v : Val} (ht : t ∈ undescribed)
    (hv : OfType t v) : ¬ Blocked env g p v := by
  intro h
  have hne : ∀ t ∈ undescribed, t ≠ "orderedList" ∧ t ≠ "inlineCard" ∧ t ≠ "date" ∧ t ≠ "text" := by decide
  obtain ⟨h1, h2, h3, h4⟩ := hne t ht
  cases h with
  | here _ _ d h =>
    rcases h with h | h | h | h
    · exact h1 (ofType_unique hv h.1)
    · exact h2 (ofType_unique hv h.1)
    · exact h3 (ofType_unique hv h.1)
    · exact h4 (ofType_unique hv h.1)
  | child _ _ d t' row l k type known hl hk h =>
    cases ofType_unique hv type
    obtain ⟨c, hc, _⟩ := rows_required _ known
    exact undescribed_unknown t ht c hc

theorem Tree.blocked (env : Env) (h : Tree w t row d n) (g p : Option String) :
    ¬ Blocked env g p (.dict d) ↔ ¬ Blocks env g p d ∧
      ∀ l k, lookupKey d "content" = some (.list l) → k ∈ l → ¬ Blocked env p (some t) k := by
  constructor
  · intro hb
    exact ⟨fun hh => hb (.here _ _ _ hh), fun l k hl hk hh => hb (.child _ _ _ t row l k h.type h.known hl hk hh)⟩
  · rintro ⟨h1, h2⟩ hb
    cases hb with
    | here _ _ _ hh => exact h1 hh
    | child _ _ _ t' row' l k type known hl hk hh =>
      cases ofType_unique h.type type
      exact h2 l k hl hk hh

/-- The classes that convert all their children. -/
def convertAll : List NodeCls := [.doc, .blockquote, .panel, .expand, .nestedExpand, .paragraph, .heading,
  .codeBlock, .tableCell, .tableHeader, .mediaSingle, .table, .tableRow]

theorem calls_all {n : Node} (h : n.cls ∈ convertAll) (l l' : Option Int) (c : Node) :
    Calls n l c l' ↔ IsChild c n ∧ l' = none := by
  simp only [convertAll, List.mem_cons, List.not_mem_nil, or_false] at h
  rcases h with h | h | h | h | h | h | h | h | h | h | h | h | h <;> simp only [Calls, h]

/-- The kinds of rows. -/
theorem row_kinds : ∀ e ∈ rows, ∀ x ∈ nodeTypes, x.1 = e.1 →
    (e.2.kids.isEmpty = true) ∨ e.1 = "listItem" ∨
    (x.2 ∈ convertAll ∧ "listItem" ∉ e.2.kids) ∨ (x.2 = .mediaGroup ∧ ∀ t ∈ e.2.kids, t = "media") ∨
    ((x.2 = .bulletList ∧ e.1 = "bulletList" ∨ x.2 = .orderedList ∧ e.1 = "orderedList") ∧
      ∀ t ∈ e.2.kids, t = "listItem") := by decide

theorem leaf_classes : ∀ e ∈ rows, ∀ x ∈ nodeTypes, x.1 = e.1 → e.2.kids.isEmpty = true →
    x.2 ∈ [NodeCls.date, .emoji, .hardBreak, .inlineCard, .media, .mediaInline, .mention, .rule, .status, .text] := by
  decide

theorem row_item : ∀ e ∈ rows, e.1 = "listItem" → "listItem" ∉ e.2.kids := by decide

theorem row_media : ∀ e ∈ rows, e.1 = "media" → e.2.kids.isEmpty = true := by decide

theorem item_cls : ∀ e ∈ nodeTypes, e.1 = "listItem" → e.2 = .listItem := by decide

/-- Conversion of the node at a place. -/
def Conv (env : Env) (w : Bool) (v : Val) : Prop :=
  ∀ g p t row d n l, v = .dict d → Tree w t row d n → t ≠ "listItem" → LevelOk g p n l →
    (Gives env l n ↔ ¬ Blocked env g p v)

theorem Tree.item_blocked (env : Env) {row : Row} (h : Tree w "listItem" row d n) (g p : Option String) :
    ¬ Blocked env g p (.dict d) ↔
      ∀ l k, lookupKey d "content" = some (.list l) → k ∈ l → ¬ Blocked env p (some "listItem") k := by
  rw [h.blocked]
  refine and_iff_right ?_
  have hT : ∀ x, OfType x (.dict d) ↔ "listItem" = x := fun x =>
    ⟨fun hx => ofType_unique h.type hx, fun hx => hx ▸ h.type⟩
  unfold Blocks
  simp [hT]

theorem conv (env : Env) (w : Bool) (v : Val) : Conv env w v ∧
    ∀ d l k, v = .dict d → lookupKey d "content" = some (.list l) → k ∈ l → Conv env w k := by
  induction v using Val.contentInduction with
  | h v ih =>
    refine ⟨?_, fun d l k hv hl hk => (ih d l k hv hl hk).1⟩
    rintro g p t row d n l rfl h hnt hlev
    rw [gives_iff env n h.parsed l hlev.1, h.fault env hlev, h.blocked]
    refine and_congr_right fun _ => ?_
    have hc := h.toView.cls.1
    rcases row_kinds _ h.known _ hc rfl with hk | hk | ⟨hk, hni⟩ | ⟨hk, hm⟩ | ⟨hk, hi⟩
    · -- no children
      have hno : ∀ l k, lookupKey d "content" = some (.list l) → k ∉ l := by
        intro l k hl hkl
        obtain ⟨_, he, _, ht⟩ := h.ok.content _ hl
        cases he
        obtain ⟨t', ht', _⟩ := ht k hkl
        rw [List.isEmpty_iff] at hk
        simp only at hk
        rw [hk] at ht'; cases ht'
      refine iff_of_true ?_ fun l k hl hkl => absurd hkl (hno l k hl)
      intro c l' hcalls
      have := leaf_classes _ h.known _ hc rfl hk
      simp only [List.mem_cons, List.not_mem_nil, or_false] at this
      rcases this with h | h | h | h | h | h | h | h | h | h <;> simp [Calls, h] at hcalls
    · exact absurd hk hnt
    · -- all children are converted
      have hlev' : ∀ x, LevelOk p (some t) x none := fun x =>
        ⟨.inl rfl, le_refl _, fun _ => iff_of_true rfl (by simp only [Option.some.injEq]; exact fun h => hnt h.2)⟩
      constructor
      · intro hg l' k hl' hkl
        rcases h.kidOf hl' hkl with ⟨x, t', row', d', rfl, ht', hx, hx'⟩ | ⟨t', ht', hty⟩
        · have hne : t' ≠ "listItem" := by rintro rfl; exact hni ht'
          rw [← (ih d l' _ rfl hl' hkl).1 p (some t) t' row' d' x none rfl hx' hne (hlev' x)]
          exact hg x none ((calls_all hk l none x).mpr ⟨hx, rfl⟩)
        · exact undescribed_not_blocked env ht' hty
      · intro hb c l' hcalls
        obtain ⟨hx, rfl⟩ := (calls_all hk l l' c).mp hcalls
        obtain ⟨l', d', t', row', hl', hkl, ht', hx'⟩ := h.kid hx
        have hne : t' ≠ "listItem" := by rintro rfl; exact hni ht'
        rw [(ih d l' _ rfl hl' hkl).1 p (some t) t' row' d' c none rfl hx' hne (hlev' c)]
        exact hb l' _ hl' hkl
    · -- media groups convert nothing
      simp only at hk
      refine iff_of_true (fun c l' hcalls => by simp [Calls, hk] at hcalls) ?_
      intro l' k hl' hkl
      rcases h.kidOf hl' hkl with ⟨x, t', row', d', rfl, ht', hx, hx'⟩ | ⟨t', ht', hty⟩
      · cases hm _ ht'
        have hne : ("media" : String) ≠ "listItem" := by decide
        have hlv : LevelOk p (some t) x none := ⟨.inl rfl, le_refl _, fun hx0 => by
          have := hx'.toView.cls.1
          rw [hx0] at this
          exact absurd this (by decide)⟩
        rw [← (ih d l' _ rfl hl' hkl).1 p (some t) "media" row' d' x none rfl hx' hne hlv,
          gives_iff env x hx'.parsed none (.inl rfl), hx'.fault env hlv]
        have hT : ∀ x, OfType x (.dict d') ↔ "media" = x := fun x =>
          ⟨fun hx => ofType_unique hx'.type hx, fun hx => hx ▸ hx'.type⟩
        have hcx := hx'.toView.cls.1
        simp [nodeTypes] at hcx
        exact ⟨by unfold Blocks; simp [hT], fun c l' hcalls => by simp [Calls, hcx] at hcalls⟩
      · exact undescribed_not_blocked env ht' hty
    · -- lists convert the children of their items
      have hcalls : ∀ c l', Calls n l c l' ↔ ∃ i, IsChild i n ∧ i.cls = .listItem ∧ IsChild c i ∧
          l' = if c.cls = n.cls then some (l.getD 0 + 1) else none := by
        intro c l'
        rcases hk with ⟨hk, _⟩ | ⟨hk, _⟩ <;> simp only at hk <;> simp only [Calls, hk]
      have hordered : n.cls = .orderedList ↔ t = "orderedList" := by
        rcases hk with ⟨hk, rfl⟩ | ⟨hk, rfl⟩ <;> simp only at hk <;> simp [hk]
      have hlist : n.cls = .bulletList ∨ n.cls = .orderedList := hk.imp And.left And.left
      have hlev' : ∀ x, LevelOk (some t) (some "listItem") x (if x.cls = n.cls then some (l.getD 0 + 1) else none) := by
        intro x
        have h0 := hlev.2.1
        by_cases hx : x.cls = n.cls
        · rw [if_pos hx]
          refine ⟨.inr ?_, ?_, fun hxo => ?_⟩
          · rw [hx]; exact hlist.imp id .inl
          · simp only [Option.getD_some]; omega
          · refine iff_of_false ?_ ?_
            · simp only [Option.getD_some]; omega
            · rw [hx, hordered] at hxo
              simp [hxo]
        · rw [if_neg hx]
          refine ⟨.inl rfl, le_refl _, fun hxo => iff_of_true rfl ?_⟩
          rintro ⟨h1, _⟩
          cases h1
          exact hx (hxo.trans (hordered.mpr rfl).symm)
      constructor
      · intro hg l' k hl' hkl
        rcases h.kidOf hl' hkl with ⟨i, t', row', d', rfl, ht', hi', hit⟩ | ⟨t', ht', hty⟩
        · cases hi _ ht'
          rw [hit.item_blocked]
          intro l2 k2 hl2 hk2
          rcases hit.kidOf hl2 hk2 with ⟨x, t2, row2, d2, rfl, ht2, hx, hxt⟩ | ⟨t2, ht2, hty2⟩
          · have hne : t2 ≠ "listItem" := by rintro rfl; exact row_item _ hit.known rfl ht2
            rw [← (ih d l' _ rfl hl' hkl).2 d' l2 _ rfl hl2 hk2 (some t) (some "listItem") t2 row2 d2 x _ rfl hxt hne
              (hlev' x)]
            exact hg x _ ((hcalls x _).mpr ⟨i, hi', item_cls _ hit.toView.cls.1 rfl, hx, rfl⟩)
          · exact undescribed_not_blocked env ht2 hty2
        · exact undescribed_not_blocked env ht' hty
      · intro hb c l' hcl
        obtain ⟨i, hi', _, hci, rfl⟩ := (hcalls c l').mp hcl
        obtain ⟨l1, d', t', row', hl1, hkl, ht', hit⟩ := h.kid hi'
        cases hi _ ht'
        obtain ⟨l2, d2, t2, row2, hl2, hk2, ht2, hxt⟩ := hit.kid hci
        have hne : t2 ≠ "listItem" := by rintro rfl; exact row_item _ hit.known rfl ht2
        rw [(ih d l1 _ rfl hl1 hkl).2 d' l2 _ rfl hl2 hk2 (some t) (some "listItem") t2 row2 d2 c _ rfl hxt hne
          (hlev' c)]
        exact (hit.item_blocked env p (some t)).mp (hb l1 _ hl1 hkl) l2 _ hl2 hk2

/-- C67 (partial: four exceptions): a document that follows the reference converts in strict mode iff it has
no numbered list without `attrs` (outside the items of numbered lists), no card without `url`, no timestamp
without a date and no inline code over a newline. -/
theorem C67_partial (env : Env) (w : Bool) (v : Val) (h : ValidDoc v) :
    ∃ n, (parseNode w v).out = .ok n ∧ ((∃ s, Md env n s) ↔ ¬ Blocked env none none v) := by
  obtain ⟨n, hn, hcls, _⟩ := C65_parses w v h
  refine ⟨n, hn, ?_⟩
  obtain ⟨t, row, d, rfl, ht⟩ := tree_of_valid h.1 hn
  cases ofType_unique ht.type h.2
  exact (conv env w (.dict d)).1 none none "doc" row d n none rfl ht (by decide)
    ⟨.inl rfl, le_refl _, fun ho => by rw [hcls] at ho; cases ho⟩

theorem text_type : ∀ e ∈ nodeTypes, e.2 = .text → e.1 = "text" := by decide

theorem doc_row : ∀ e ∈ rows, e.1 = "doc" → "text" ∉ e.2.kids ∧ e.2.kids.isEmpty = false ∧ e.2.needsContent = true := by
  decide

/-- C67: in lenient mode every document that follows the reference converts, to the blocks that convert in
strict mode. -/
theorem C67_lenient (env : Env) (w : Bool) (v : Val) (h : ValidDoc v) :
    ∃ n kids ss, (parseNode w v).out = .ok n ∧ n.content = .val kids ∧
      MdAll env (kids.filter (converts env)) ss ∧
      n.toMarkdown env true = .ok (.str (docText (kids.filter (converts env)) ss)) := by
  obtain ⟨n, hn, hcls, _⟩ := C65_parses w v h
  obtain ⟨t, row, d, rfl, ht⟩ := tree_of_valid h.1 hn
  cases ofType_unique ht.type h.2
  obtain ⟨h1, h2, h3⟩ := doc_row _ ht.known rfl
  have hk : ∃ kids, n.content = .val kids := by
    rcases ht.content with ⟨_, ns, _, hc, _⟩ | ⟨hc, _⟩ | ⟨hc, _⟩
    · exact ⟨ns, hc⟩
    · have := ht.ok.contentGiven h3; rw [hc] at this; cases this
    · simp only at h2; rw [hc] at h2; cases h2
  obtain ⟨kids, hk⟩ := hk
  obtain ⟨ss, h4, h5⟩ := C20_partial env n kids hcls hk
    (fun k hkk => parsed_hasType (isChild_parsed ht.parsed ⟨kids, hk, hkk⟩)) (fun k hkk hkt => by
      obtain ⟨_, d', t', row', _, _, ht', hk'⟩ := ht.kid ⟨kids, hk, hkk⟩
      have hc := hk'.toView.cls.1
      have := text_type _ hc hkt
      simp only at this
      subst this
      exact absurd ht' h1)
  exact ⟨n, kids, ss, hn, hk, h4, h5⟩

/-- A document of these blocks. -/
def refDoc (l : List Val) : Val := .dict [("version", .int 1), ("type", Samples.str "doc"), ("content", .list l)]

/-- A paragraph of these nodes. -/
def refPara (l : List Val) : Val := Samples.j "paragraph" [("content", .list l)]

/-- A numbered list with one item. -/
def refNumbered (l : List Val) : Val :=
  Samples.j "orderedList" [("content", .list [Samples.j "listItem" [("content", .list l)]])]

/-- A document that follows the reference and makes strict conversion raise. -/
def Raises (v : Val) : Prop :=
  DescribedDoc v ∧ ∃ n e, (parseNode true v).out = .ok n ∧ n.toMarkdown Samples.env false = .error e

/-- C67 is false of the code: a numbered list without attrs, a card with data, a timestamp that is no
number, inline code over two lines. -/
theorem C67_false :
    Raises (refDoc [refNumbered [refPara []]]) ∧
    Raises (refDoc [refPara [Samples.j "inlineCard" [("attrs", .dict [("data", .dict [])])]]]) ∧
    Raises (refDoc [refPara [Samples.j "date" [("attrs", .dict [("timestamp", Samples.str "today")])]]]) ∧
    Raises (refDoc [refPara [Samples.j "text" [("text", Samples.str "a\nb"),
      ("marks", .list [Samples.j "code" []])]]]) :=
  ⟨⟨⟨validB_sound 6 (by decide), rfl⟩, _, _, rfl, rfl⟩, ⟨⟨validB_sound 6 (by decide), rfl⟩, _, _, rfl, rfl⟩,
    ⟨⟨validB_sound 6 (by decide), rfl⟩, _, _, rfl, rfl⟩, ⟨⟨validB_sound 6 (by decide), rfl⟩, _, _, rfl, rfl⟩⟩

/-- A document that converts: a numbered list without attrs inside an item of a numbered list. -/
example : ∃ v, ValidDoc v ∧ ¬ Blocked Samples.env none none v := by
  let v := refDoc [Samples.j "orderedList" [("attrs", .dict [("order", .int 1)]), ("content", .list
    [Samples.j "listItem" [("content", .list [refPara [Samples.j "text" [("text", Samples.str "a")]],
      refNumbered [refPara [Samples.j "emoji" [("attrs", .dict [("shortName", Samples.str ":a:")])]]]])]])]]
  have hv : ValidDoc v := ⟨validB_sound 9 (by decide), rfl⟩
  obtain ⟨n, hn, h⟩ := C67_partial Samples.env true v hv
  refine ⟨v, hv, h.mp ?_⟩
  cases hn
  exact ⟨_, rfl⟩

/-- The title of a link hides the newline of the text. -/
example : label [Samples.j "link" [("attrs", .dict [("href", Samples.str "u"), ("title", Samples.str "t")])]]
    "a\nb".toList = "t".toList := rfl

example := C67_lenient Samples.env true (refDoc [refNumbered [refPara []], refPara [Samples.j "text" [("text", Samples.str "a")]]])
  ⟨validB_sound 9 (by decide), rfl⟩

end Verif.Props
