import Verif.Spec.Reference
import Verif.Lemmas.Serial
/-!
# A checker for the examples: documents that follow the reference

`validB` decides (up to a depth) a sufficient condition for `Ref.Valid`.
-/

namespace Verif.Props
open Verif Verif.Spec Verif.Spec.Ref

def fitsB : Ty → Val → Bool
  | .string, .str _ => true
  | .nonEmpty, .str s => !s.isEmpty
  | .uri, .str s => !s.contains '\n'
  | .bool, .bool _ => true
  | .number, .int _ => true
  | .number, .float _ => true
  | .object, .dict _ => true
  | .intFrom lo, .int i => decide (lo ≤ i)
  | .intBetween lo hi, .int i => decide (lo ≤ i ∧ i ≤ hi)
  | .widths, .list l => l.all fun x => match x with | .int i => decide (0 ≤ i) | _ => false
  | .oneOf l, .str s => l.any fun x => x.toList == s
  | _, _ => false

theorem fitsB_sound {t : Ty} {v : Val} (h : fitsB t v = true) : t.Fits v := by
  unfold fitsB at h
  split at h <;> simp [Ty.Fits] at h ⊢
  all_goals first | exact h | skip
  · intro x hx
    have := h x hx
    split at this
    · exact ⟨_, rfl, by simpa using this⟩
    · cases this
  · obtain ⟨x, hx, rfl⟩ := h
    exact ⟨x, hx, rfl⟩

def fldB (d : List (String × Val)) (f : Fld) : Bool :=
  match lookupKey d f.name with
  | none => !f.required
  | some v => fitsB f.ty v

theorem fldB_sound {d : List (String × Val)} {f : Fld} (h : fldB d f = true) : f.Ok d := by
  unfold fldB at h
  split at h
  · next hl => exact ⟨fun hr => by simp [hr] at h, fun v hv => by rw [hl] at hv; cases hv⟩
  · next v hl =>
    exact ⟨fun _ => by rw [hl]; rfl, fun v' hv => by rw [hl] at hv; cases hv; exact fitsB_sound h⟩

/-- The type, as a string. -/
def typeB (v : Val) : Option Str := match typeOf v with | some (.str s) => some s | _ => none

theorem typeB_sound {v : Val} {t : String} (h : typeB v = some t.toList) : OfType t v := by
  unfold typeB at h
  split at h
  · next s hs => cases h; exact hs
  · cases h

def markB (ts : List String) (v : Val) : Bool :=
  markRows.any fun e => ts.contains e.1 && decide (typeB v = some e.1.toList) && (e.2.isEmpty || (match v with
    | .dict d => match lookupKey d "attrs" with
      | some (.dict ad) => e.2.all (fldB ad)
      | _ => false
    | _ => false))

theorem markB_sound {ts : List String} {v : Val} (h : markB ts v = true) : MarkOk ts v := by
  obtain ⟨⟨t, fs⟩, he, h⟩ := List.any_eq_true.mp h
  simp only [Bool.and_eq_true, List.contains_eq_mem, decide_eq_true_eq, Bool.or_eq_true] at h
  obtain ⟨⟨h1, h2⟩, h3⟩ := h
  refine ⟨t, h1, fs, he, typeB_sound h2, fun hne => ?_⟩
  rcases h3 with h3 | h3
  · exact absurd (List.isEmpty_iff.mp h3) hne
  · split at h3
    · next d =>
      split at h3
      · next ad had => exact ⟨d, ad, rfl, had, fun f hf => fldB_sound (List.all_eq_true.mp h3 f hf)⟩
      · cases h3
    · cases h3

def rowB (row : Row) (d : List (String × Val)) : Bool :=
  row.own.all (fldB d) &&
  (match lookupKey d "attrs" with
   | none => !row.needsAttrs
   | some (.dict ad) => row.attrs.all (fldB ad)
   | _ => false) &&
  (match lookupKey d "content" with
   | none => !row.needsContent
   | some (.list l) => decide (row.atLeast ≤ l.length) && l.all fun k => row.kids.any fun t =>
      decide (typeB k = some t.toList)
   | _ => false) &&
  (match lookupKey d "marks" with
   | none => true
   | some (.list l) => l.all (markB row.marks)
   | _ => false)

theorem rowB_sound {row : Row} {d : List (String × Val)} (h : rowB row d = true) : row.Ok d := by
  unfold rowB at h
  simp only [Bool.and_eq_true] at h
  obtain ⟨⟨⟨h1, h2⟩, h3⟩, h4⟩ := h
  refine ⟨fun f hf => fldB_sound (List.all_eq_true.mp h1 f hf), ?_, ?_, ?_, ?_, ?_⟩
  · intro hn; split at h2 <;> simp_all
  · intro a ha
    rw [ha] at h2
    split at h2
    · next hl => cases hl
    · next ad hl => cases hl; exact ⟨ad, rfl, fun f hf => fldB_sound (List.all_eq_true.mp h2 f hf)⟩
    · cases h2
  · intro hn; split at h3 <;> simp_all
  · intro c hc
    rw [hc] at h3
    split at h3
    · next hl => cases hl
    · next l hl =>
      cases hl
      simp only [Bool.and_eq_true, decide_eq_true_eq] at h3
      refine ⟨l, rfl, h3.1, fun k hk => ?_⟩
      obtain ⟨t, ht, h⟩ := List.any_eq_true.mp (List.all_eq_true.mp h3.2 k hk)
      exact ⟨t, ht, typeB_sound (by simpa using h)⟩
    · cases h3
  · intro m hm
    rw [hm] at h4
    split at h4
    · next hl => cases hl
    · next l hl => cases hl; exact ⟨l, rfl, fun k hk => markB_sound (List.all_eq_true.mp h4 k hk)⟩
    · cases h4

def cardB (d : List (String × Val)) : Bool :=
  match lookupKey d "attrs" with
  | some (.dict ad) => ((lookupKey ad "data").isSome && (lookupKey ad "url").isNone) ||
      ((lookupKey ad "data").isNone && (lookupKey ad "url").isSome)
  | _ => true

/-- Checked up to a depth. -/
def validB (u : List String) : Nat → Val → Bool
  | 0, _ => false
  | k + 1, v =>
    (u.any fun t => decide (typeB v = some t.toList)) ||
    (match v with
     | .dict d => (rows.any fun e => decide (typeB v = some e.1.toList) && rowB e.2 d &&
          (!(e.1 == "inlineCard") || cardB d)) &&
        (match lookupKey d "content" with
         | some (.list l) => l.all (validB u k)
         | _ => true)
     | _ => false)

theorem validB_sound {u : List String} (k : Nat) {v : Val} (h : validB u k v = true) : Valid u v := by
  induction k generalizing v with
  | zero => cases h
  | succ k ih =>
    unfold validB at h
    rw [Bool.or_eq_true] at h
    rcases h with h | h
    · obtain ⟨t, ht, h⟩ := List.any_eq_true.mp h
      exact .undescribed t v ht (typeB_sound (by simpa using h))
    · split at h
      · next d =>
        rw [Bool.and_eq_true] at h
        obtain ⟨h, hk⟩ := h
        obtain ⟨⟨t, row⟩, he, h⟩ := List.any_eq_true.mp h
        simp only [Bool.and_eq_true, decide_eq_true_eq, Bool.or_eq_true] at h
        refine .described t row d he (typeB_sound h.1.1) (rowB_sound h.1.2) ?_ ?_
        · rintro rfl
          have := h.2
          simp only [beq_self_eq_true, Bool.not_true, Bool.false_eq_true, false_or] at this
          intro ad had
          unfold cardB at this
          rw [had] at this
          simpa using this
        · intro l hl k' hk'
          rw [hl] at hk
          exact ih (List.all_eq_true.mp hk k' hk')
      · cases h

/-! ## Described fields only -/

/-- All keys are among these. -/
def keysB (ks : List String) (d : List (String × Val)) : Bool := d.all fun e => ks.contains e.1

theorem keysB_sound {ks : List String} {d : List (String × Val)} (h : keysB ks d = true) {k : String}
    (hk : (lookupKey d k).isSome) : k ∈ ks := by
  obtain ⟨v, hv⟩ := Option.isSome_iff_exists.mp hk
  have := List.all_eq_true.mp h _ (lookupKey_mem hv)
  simpa using this

def attrsB (fs : List Fld) (d : List (String × Val)) : Bool :=
  match lookupKey d "attrs" with
  | some (.dict ad) => keysB (fieldNames fs) ad
  | _ => true

theorem attrsB_sound {fs : List Fld} {d : List (String × Val)} (h : attrsB fs d = true) :
    ∀ ad, lookupKey d "attrs" = some (.dict ad) → ∀ k, (lookupKey ad k).isSome → k ∈ fieldNames fs := by
  intro ad had k hk
  unfold attrsB at h
  rw [had] at h
  exact keysB_sound h hk

def strictMarkB : Val → Bool
  | .dict d => markRows.any fun e => decide (typeB (.dict d) = some e.1.toList) &&
      keysB ("type" :: (if e.2.isEmpty then [] else ["attrs"])) d && attrsB e.2 d
  | _ => false

theorem strictMarkB_sound {v : Val} (h : strictMarkB v = true) : StrictMark v := by
  unfold strictMarkB at h
  split at h
  · next d =>
    obtain ⟨⟨t, fs⟩, he, h⟩ := List.any_eq_true.mp h
    simp only [Bool.and_eq_true, decide_eq_true_eq] at h
    obtain ⟨⟨h1, h2⟩, h3⟩ := h
    refine ⟨t, fs, d, he, typeB_sound h1, rfl, fun k hk => ?_, attrsB_sound h3⟩
    have := keysB_sound h2 hk
    cases fs <;> simp at this ⊢ <;> exact this
  · cases h

/-- Checked up to a depth. -/
def strictB : Nat → Val → Bool
  | 0, _ => false
  | k + 1, v => match v with
    | .dict d => (rows.any fun e => decide (typeB (.dict d) = some e.1.toList) && keysB e.2.keys d &&
        attrsB e.2.attrs d) &&
      (match lookupKey d "marks" with
       | some (.list l) => l.all strictMarkB
       | _ => true) &&
      (match lookupKey d "content" with
       | some (.list l) => l.all (strictB k)
       | _ => true)
    | _ => false

theorem strictB_sound (k : Nat) {v : Val} (h : strictB k v = true) : Strict v := by
  induction k generalizing v with
  | zero => cases h
  | succ k ih =>
    unfold strictB at h
    split at h
    · next d =>
      simp only [Bool.and_eq_true] at h
      obtain ⟨⟨h, hm⟩, hk⟩ := h
      obtain ⟨⟨t, row⟩, he, h⟩ := List.any_eq_true.mp h
      simp only [Bool.and_eq_true, decide_eq_true_eq] at h
      refine .node t row d he (typeB_sound h.1.1) (fun k hk => keysB_sound h.1.2 hk) (attrsB_sound h.2) ?_ ?_
      · intro l hl m hml
        rw [hl] at hm
        exact strictMarkB_sound (List.all_eq_true.mp hm m hml)
      · intro l hl k' hk'
        rw [hl] at hk
        exact ih (List.all_eq_true.mp hk k' hk')
    · cases h

end Verif.Props
