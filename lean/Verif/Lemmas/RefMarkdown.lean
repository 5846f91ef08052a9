import Verif.Spec.RefMarkdown
import Verif.Props.RefRoundTrip
import Verif.Props.Failure
import Verif.Lemmas.Attrs
/-!
# Lemmas about converting documents that follow the ADF reference
-/

namespace Verif.Props
open Verif Verif.Spec Verif.Spec.Ref

/-! ## marks -/

/-- The label after one mark. -/
def labelStep (m : Val) (s : Str) : Str := label [m] s

theorem label_cons (m : Val) (ms : List Val) (s : Str) : label (m :: ms) s = label ms (labelStep m s) := by
  unfold labelStep
  cases m with
  | dict d =>
    simp only [label]
    split
    · split <;> rfl
    · rfl
  | _ => simp only [label]

theorem codeOverNewline_nil (s : Str) : ¬ CodeOverNewline [] s := by
  rintro ⟨pre, m, post, h, _⟩
  simp at h

theorem codeOverNewline_cons (m : Val) (ms : List Val) (s : Str) :
    CodeOverNewline (m :: ms) s ↔ (OfType "code" m ∧ '\n' ∈ s) ∨ CodeOverNewline ms (labelStep m s) := by
  constructor
  · rintro ⟨pre, m', post, h, hc, hn⟩
    cases pre with
    | nil => cases h; exact .inl ⟨hc, hn⟩
    | cons a pre =>
      cases h
      rw [label_cons] at hn
      exact .inr ⟨pre, m', post, rfl, hc, hn⟩
  · rintro (⟨hc, hn⟩ | ⟨pre, m', post, rfl, hc, hn⟩)
    · exact ⟨[], m, ms, rfl, hc, hn⟩
    · exact ⟨m :: pre, m', post, rfl, hc, by rw [label_cons]; exact hn⟩

theorem wrap_newline {pre post s t : Str} (h : wrapNonBlank pre post (.str s) = .ok (.str t))
    (h1 : '\n' ∉ pre) (h2 : '\n' ∉ post) : '\n' ∈ t ↔ '\n' ∈ s := by
  simp only [wrapNonBlank] at h
  split at h
  · cases h; rfl
  · cases h; simp [h1, h2]

theorem markCls_ref : ∀ e ∈ markRows, ∀ x ∈ Spec.markTypes, x.1 = e.1 →
    x.2 ≠ .indentation ∧ (x.2 = .code ↔ e.1 = "code") ∧ (x.2 = .link ↔ e.1 = "link") := by decide

theorem link_row : ∀ e ∈ markRows, e.1 = "link" → e.2.isEmpty = false ∧
    (∃ f ∈ e.2, f.name = "href" ∧ f.required = true ∧ f.ty = .uri) ∧ ∀ f ∈ e.2, f.name = "title" → f.ty = .string := by
  intro e he h
  simp only [markRows, List.mem_cons, List.not_mem_nil, or_false] at he
  rcases he with rfl | rfl | rfl | rfl | rfl | rfl | rfl | rfl | rfl | rfl | rfl <;> simp [req, opt] at h ⊢

/-- What a mark of the reference does to the newlines of a text. -/
theorem mark_newline (env : Env) {ts : List String} {v : Val} {m : Mark} (hv : MarkOk ts v)
    (hm : parseMark v = .ok m) (s s0 : Str) (hs : '\n' ∈ s ↔ '\n' ∈ s0) :
    (OfType "code" v ∧ '\n' ∈ s ∧ ∃ e, m.toMarkdown env (.str s) = .error e) ∨
    (¬ (OfType "code" v ∧ '\n' ∈ s) ∧ ∃ t, m.toMarkdown env (.str s) = .ok (.str t) ∧
      ('\n' ∈ t ↔ '\n' ∈ labelStep v s0)) := by
  obtain ⟨t, _, fs, c, m', hrow, hc, hty, hm', hcls⟩ := markOk_parse hv
  rw [hm] at hm'; cases hm'
  obtain ⟨t', _, fs', hrow', hty', hattrs⟩ := hv
  cases ofType_unique hty hty'
  have hfs : fs' = fs := by
    have hnd : (markRows.map Prod.fst).Nodup := by decide
    exact (Prod.mk.inj (List.inj_on_of_nodup_map hnd hrow' hrow rfl)).2
  subst hfs
  obtain ⟨h1, h2, h3⟩ := markCls_ref _ hrow _ hc rfl
  simp only at h1 h2 h3
  have hf := C63_mark env m s ⟨v, hm⟩
  have hcode : OfType "code" v ↔ m.cls = .code := by
    rw [hcls, h2]
    exact ⟨fun h => ofType_unique hty h, fun h => h ▸ hty⟩
  unfold MarkFails at hf
  rw [hcls] at hf
  simp only [h1, false_and, or_false] at hf
  by_cases hcn : m.cls = .code ∧ '\n' ∈ s
  · left
    exact ⟨hcode.mpr hcn.1, hcn.2, hf.mpr ⟨hcls ▸ hcn.1, hcn.2⟩⟩
  · right
    refine ⟨by rw [hcode]; exact hcn, ?_⟩
    rw [hcls] at hcn
    cases hmd : m.toMarkdown env (.str s) with
    | error e => exact absurd (hf.mp ⟨e, hmd⟩) hcn
    | ok x =>
      obtain ⟨s1, rfl⟩ := markMd_str env m s x hmd
      refine ⟨s1, rfl, ?_⟩
      obtain ⟨d, rfl, htd⟩ := ofType_dict hty
      have hlab : c ≠ .link → labelStep (.dict d) s0 = s0 := by
        intro hne
        have ht : t ≠ "link" := fun h => hne (h3.mpr h)
        have ht' : t.toList ≠ "link".toList := fun h => ht (String.toList_inj.mp h)
        unfold labelStep
        simp only [label, htd]
        split
        · next t' ad h1 h2 =>
          cases h1
          split
          · rw [if_neg ht']
          · rfl
        · rfl
      unfold Mark.toMarkdown at hmd
      rw [hcls] at hmd
      cases c
      case link =>
        clear hlab
        cases h3.mp rfl
        obtain ⟨he, ⟨fh, hfh, hn1, hn2, hn3⟩, hft⟩ := link_row _ hrow rfl
        obtain ⟨_, ad, hd, had, hok⟩ := hattrs (by simpa using he)
        cases hd
        obtain ⟨_, _, ha⟩ := markFromDict_ok (show markFromDict .link d = .ok m from by
          rw [← hm, parseMark_of_type hty hc]; rfl)
        rcases ha with ⟨hf', _⟩ | ⟨fs, ad', a, hf', had', hok', ha⟩
        · rw [MarkCls.attrsFields] at hf'; cases hf'
        rw [had] at had'
        cases had'
        simp only [MarkCls.attrsFields, Option.some.injEq] at hf'
        subst hf'
        obtain ⟨_, rfl⟩ := attrsFromDict_ok hok'
        obtain ⟨href, hhref⟩ := Option.isSome_iff_exists.mp ((hok fh hfh).1 hn2)
        have hfit := (hok fh hfh).2 _ hhref
        rw [hn3] at hfit
        obtain ⟨sh, rfl, hnl⟩ := hfit
        rw [hn1] at hhref
        simp only [ha, getAttr, reqFields, optFields, List.map_cons, List.map_nil, List.cons_append,
          List.nil_append, lookupKey, fieldValue, hhref, String.reduceEq, if_true, if_false, Except.ok.injEq,
          Val.str.injEq] at hmd
        subst hmd
        unfold labelStep
        simp only [label, htd, had]
        cases htl : lookupKey ad "title" with
        | none => simp [Val.asStr?, Val.pyStr, hnl, hs]
        | some x =>
          cases x <;> simp [Val.asStr?, Val.pyStr, hnl, hs]
      all_goals rw [hlab (by simp), ← hs]
      all_goals first
        | exact wrap_newline hmd (by decide) (by decide)
        | (simp only [Except.ok.injEq, Val.str.injEq] at hmd; rw [hmd])
        | skip
      case code =>
        dsimp only at hmd
        split at hmd
        · cases hmd
        · cases hmd
        · exact wrap_newline hmd (by decide) (by decide)
      case indentation => exact absurd rfl h1

/-- The marks of a node of the reference fail iff inline code goes over a newline. -/
theorem marks_newline (env : Env) {ts : List String} {l : List Val} {ms : List Mark} (hl : ∀ v ∈ l, MarkOk ts v)
    (h : List.Forall₂ (fun v m => parseMark v = .ok m) l ms) (s s0 : Str) (hs : '\n' ∈ s ↔ '\n' ∈ s0) :
    (∀ t, ¬ ms.foldlM (fun md m => m.toMarkdown env md) (.str s) = .ok (.str t)) ↔ CodeOverNewline l s0 := by
  induction h generalizing s s0 with
  | nil => exact iff_of_false (fun h => h s rfl) (codeOverNewline_nil s0)
  | @cons v m l ms hm _ ih =>
    rw [List.foldlM_cons, codeOverNewline_cons]
    rcases mark_newline env (hl v (by simp)) hm s s0 hs with ⟨h1, h2, e, he⟩ | ⟨h1, t, ht, hn⟩
    · rw [he]
      exact iff_of_true (fun t h => by cases h) (.inl ⟨h1, hs.mp h2⟩)
    · rw [ht]
      have h1' : ¬ (OfType "code" v ∧ '\n' ∈ s0) := fun h => h1 ⟨h.1, hs.mpr h.2⟩
      simp only [h1', false_or]
      exact ih (fun v hv => hl v (by simp [hv])) t _ hn

end Verif.Props
