import Verif.Spec.Reference
import Verif.Props.Required
import Verif.Lemmas.Serial
/-!
# Lemmas about documents that follow the ADF reference
-/

namespace Verif.Props
open Verif Verif.Spec Verif.Spec.Ref

theorem parse_cls' {w : Bool} {c : NodeCls} {d : List (String × Val)} {n : Node}
    (h : (c.fromDict w (.dict d)).out = .ok n) : n.cls = c := by
  obtain ⟨a, k, m, _, _, _, _, rfl⟩ := nodeFromDict_ok h
  rfl

/-- Keys that are there in every object that follows the row. -/
def givenKeys (row : Row) : List String :=
  ((row.own.filter (·.required)).map (·.name)) ++ (if row.needsAttrs then ["attrs"] else []) ++
    (if row.needsContent then ["content"] else [])

/-- Attributes that are there in every object that follows the row. -/
def givenAttrs (fs : List Fld) : List String := (fs.filter (·.required)).map (·.name)

/-- The library requires no more than the reference does. -/
theorem rows_required : ∀ e ∈ rows, ∃ c, (e.1, c) ∈ nodeTypes ∧
    (∀ k ∈ requiredKeys c, k ∈ givenKeys e.2) ∧
    ∀ k ∈ (requiredAttrs c).getD [], k ∈ givenAttrs e.2.attrs := by
  have : ∀ e ∈ rows, ∃ x ∈ nodeTypes, x.1 = e.1 ∧ (∀ k ∈ requiredKeys x.2, k ∈ givenKeys e.2) ∧
      ∀ k ∈ (requiredAttrs x.2).getD [], k ∈ givenAttrs e.2.attrs := by decide
  intro e he
  obtain ⟨⟨t, c⟩, hx, h1, h2, h3⟩ := this e he
  exact ⟨c, by rw [← h1]; exact hx, h2, h3⟩

theorem markRows_required : ∀ e ∈ markRows, ∃ c, (e.1, c) ∈ Spec.markTypes ∧
    ∀ ks, requiredMarkAttrs c = some ks → e.2 ≠ [] ∧ ∀ k ∈ ks, k ∈ givenAttrs e.2 := by
  have : ∀ e ∈ markRows, ∃ x ∈ Spec.markTypes, x.1 = e.1 ∧ 
      ((requiredMarkAttrs x.2).isSome = true → e.2.isEmpty = false) ∧
      ∀ k ∈ (requiredMarkAttrs x.2).getD [], k ∈ givenAttrs e.2 := by decide
  intro e he
  obtain ⟨⟨t, c⟩, hx, h1, h2, h3⟩ := this e he
  refine ⟨c, by rw [← h1]; exact hx, fun ks hks => ⟨?_, ?_⟩⟩
  · have := h2 (by rw [hks]; rfl)
    rintro h; rw [h] at this; simp at this
  · rw [hks] at h3; exact h3

theorem nodeTypes_unique {t : String} {c c' : NodeCls} (h : (t, c) ∈ nodeTypes) (h' : (t, c') ∈ nodeTypes) :
    c = c' := by
  have : ∀ a ∈ nodeTypes, ∀ b ∈ nodeTypes, a.1 = b.1 → a = b := by decide
  exact (Prod.mk.inj (this _ h _ h' rfl)).2

theorem markTypes_unique {t : String} {c c' : MarkCls} (h : (t, c) ∈ Spec.markTypes)
    (h' : (t, c') ∈ Spec.markTypes) : c = c' := by
  have : ∀ a ∈ Spec.markTypes, ∀ b ∈ Spec.markTypes, a.1 = b.1 → a = b := by decide
  exact (Prod.mk.inj (this _ h _ h' rfl)).2

theorem str_toList_inj {a b : String} (h : Val.str a.toList = .str b.toList) : a = b := by
  rw [Val.str.injEq, String.toList_inj] at h
  exact h

/-- `parse_node` uses the class of the type. -/
theorem parseNode_of_type (w : Bool) {d : List (String × Val)} {t : String} {c : NodeCls}
    (ht : OfType t (.dict d)) (hc : (t, c) ∈ nodeTypes) : parseNode w (.dict d) = c.fromDict w (.dict d) := by
  have ht' : lookupKey d "type" = some (.str t.toList) := ht
  rw [parseNode_dict, ht']
  obtain ⟨te, hv, hm⟩ := nodeTypes_enum hc
  cases hl : registryLookup nodeRegistry (.str t.toList) with
  | error e => exact absurd (registryLookup_error hl).2 (by simp [Val.hashable])
  | ok o =>
    cases o with
    | none => exact absurd (by rw [hv]) ((registryLookup_none.mp hl).2 te c hm)
    | some c' =>
      obtain ⟨te', hm', he⟩ := registryLookup_some hl
      have := str_toList_inj he
      rw [nodeRegistry_spec, ← this] at hm'
      rw [nodeTypes_unique hc hm']
      simp only [hl]; rfl

/-- `parse_mark` uses the class of the type. -/
theorem parseMark_of_type {d : List (String × Val)} {t : String} {c : MarkCls}
    (ht : OfType t (.dict d)) (hc : (t, c) ∈ Spec.markTypes) : parseMark (.dict d) = c.fromDict (.dict d) := by
  have ht' : lookupKey d "type" = some (.str t.toList) := ht
  rw [parseMark, ht']
  obtain ⟨te, hv, hm⟩ := markTypes_enum hc
  cases hl : registryLookup markRegistry (.str t.toList) with
  | error e => exact absurd (registryLookup_error hl).2 (by simp [Val.hashable])
  | ok o =>
    cases o with
    | none => exact absurd (by rw [hv]) ((registryLookup_none.mp hl).2 te c hm)
    | some c' =>
      obtain ⟨te', hm', he⟩ := registryLookup_some hl
      have := str_toList_inj he
      rw [markRegistry_spec, ← this] at hm'
      rw [markTypes_unique hc hm']
      simp only [hl]; rfl

theorem givenAttrs_ok {fs : List Fld} {ad : List (String × Val)} (h : ∀ f ∈ fs, f.Ok ad) {k : String}
    (hk : k ∈ givenAttrs fs) : (lookupKey ad k).isSome := by
  obtain ⟨f, hf, rfl⟩ := List.mem_map.mp hk
  obtain ⟨hf, hr⟩ := List.mem_filter.mp hf
  exact (h f hf).1 hr

theorem givenKeys_ok {row : Row} {d : List (String × Val)} (h : row.Ok d) {k : String}
    (hk : k ∈ givenKeys row) : (lookupKey d k).isSome := by
  unfold givenKeys at hk
  simp only [List.mem_append] at hk
  rcases hk with (hk | hk) | hk
  · exact givenAttrs_ok h.own hk
  · split at hk
    · next hn => simp at hk; subst hk; exact h.attrsGiven hn
    · simp at hk
  · split at hk
    · next hn => simp at hk; subst hk; exact h.contentGiven hn
    · simp at hk

/-- A mark that follows the reference parses. -/
theorem markOk_parse {ts : List String} {v : Val} (h : MarkOk ts v) :
    ∃ t ∈ ts, ∃ fs c m, (t, fs) ∈ markRows ∧ (t, c) ∈ Spec.markTypes ∧ OfType t v ∧ parseMark v = .ok m ∧
      m.cls = c := by
  obtain ⟨t, ht, fs, hfs, hty, hattrs⟩ := h
  obtain ⟨c, hc, hreq⟩ := markRows_required _ hfs
  cases v with
  | dict d =>
    have hp : parseMark (.dict d) = c.fromDict (.dict d) := parseMark_of_type hty hc
    obtain ⟨m, hm⟩ := (C07_mark_iff c d).mpr (by
      intro ks hks
      obtain ⟨hne, hks'⟩ := hreq ks hks
      obtain ⟨d', ad, he, had, hok⟩ := hattrs hne
      cases he
      exact ⟨ad, had, fun k hk => givenAttrs_ok hok (hks' k hk)⟩)
    exact ⟨t, ht, fs, c, m, hfs, hc, hty, by rw [hp, hm], (markFromDict_ok hm).1⟩
  | _ => simp [OfType, typeOf] at hty

/-- A node that follows the reference parses, if its type is described. -/
theorem valid_parse (w : Bool) {u : List String} (hu : ∀ t ∈ u, ∀ c, (t, c) ∉ nodeTypes) {v : Val}
    (h : Valid u v) :
    (∃ t row n, (t, row) ∈ rows ∧ (t, n.cls) ∈ nodeTypes ∧ OfType t v ∧ (parseNode w v).out = .ok n) ∨
    ∃ t ∈ u, OfType t v ∧ (parseNode w v).out = .error (.unimplementedType (.str t.toList) "node") := by
  induction h with
  | undescribed t v known type =>
    refine .inr ⟨t, known, type, ?_⟩
    rw [C10_unimplemented_iff]
    exact ⟨type, by simp, fun name c hc he => hu t known c (by rw [str_toList_inj he]; exact hc), rfl⟩
  | described t row d known type ok card children ih =>
    left
    obtain ⟨c, hc, hk, ha⟩ := rows_required _ known
    rw [parseNode_of_type w type hc]
    obtain ⟨n, hn⟩ := (C07_from_dict_iff w c d).mpr ⟨fun k hkk => givenKeys_ok ok (hk k hkk), by
        intro ks hks a hla
        obtain ⟨ad, rfl, hok⟩ := ok.attrs a hla
        rw [hks] at ha
        exact ⟨ad, rfl, fun k hkk => givenAttrs_ok hok (ha k hkk)⟩, by
        intro l hl k hkl
        rcases ih l hl k hkl with ⟨_, _, n, _, _, _, hn⟩ | ⟨t, _, _, hn⟩
        · exact .inl ⟨n, hn⟩
        · exact .inr ⟨_, _, hn⟩, by
        intro l hl k hkl
        obtain ⟨l', he, hm⟩ := ok.marks _ hl
        cases he
        obtain ⟨_, _, _, _, m, _, _, _, hm, _⟩ := markOk_parse (hm k hkl)
        exact .inl ⟨m, hm⟩⟩
    exact ⟨t, row, n, known, by rw [parse_cls' hn]; exact hc, type, hn⟩

theorem undescribed_unknown : ∀ t ∈ undescribed, ∀ c, (t, c) ∉ nodeTypes := by
  have : ∀ t ∈ undescribed, ∀ e ∈ nodeTypes, e.1 ≠ t := by decide
  exact fun t ht c hc => this t ht _ hc rfl

end Verif.Props
