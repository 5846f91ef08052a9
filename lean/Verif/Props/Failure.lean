import Verif.Lemmas.Failure
/-!
# C63: strict conversion fails exactly at a faulty part
-/

namespace Verif.Props
open Verif

/-- C63: a parsed node converts to a string iff none of the parts that are converted with it has one of
the faults of `Spec.Fault`. -/
theorem C63_string (env : Env) (n : Node) (hp : Spec.Parsed n) :
    (∃ s, Spec.Md env n s) ↔ ∀ x l, Spec.Reaches n none x l → ¬ Spec.Fault env x l :=
  gives_all env n hp none (.inl rfl)

/-- C63: strict conversion raises iff a part has a fault (a text node alone may also convert to its
non-string text: `C63_string`). -/
theorem C63_raises_iff (env : Env) (n : Node) (hp : Spec.Parsed n) (hn : n.cls ≠ .text) :
    (∃ e, n.toMarkdown env false = .error e) ↔ ∃ x l, Spec.Reaches n none x l ∧ Spec.Fault env x l := by
  have h := C63_string env n hp
  have hs : (∃ e, n.toMarkdown env false = .error e) ↔ ¬ ∃ s, Spec.Md env n s := by
    unfold Spec.Md
    cases hm : n.toMarkdown env false with
    | error e => simp
    | ok v =>
      obtain ⟨s, rfl⟩ := toMarkdownAt_str env n (fun ht => absurd ht hn) none false v hm
      simp
  rw [hs, h]
  simp only [not_forall, not_not, exists_prop]

/-- C63: a fault makes the part itself fail. -/
theorem C63_fault_fails (env : Env) (n : Node) (hp : Spec.Parsed n) (l : Option Int) (hl : Spec.LevelFits n l)
    (hf : Spec.Fault env n l) : ¬ Spec.Gives env l n := fun h =>
  ((gives_iff env n hp l hl).mp h).1 hf

/-- C63: the parts are converted without `level` or, lists in lists of the same kind, with a level of at
least one. -/
theorem C63_levels {n x : Node} {l : Option Int} (h : Spec.Reaches n none x l) :
    l = none ∨ ∃ k : Int, l = some k ∧ 1 ≤ k := by
  have : ∀ (n x : Node) (l0 l : Option Int), Spec.Reaches n l0 x l → (l0 = none ∨ ∃ k : Int, l0 = some k ∧ 1 ≤ k) →
      (l = none ∨ ∃ k : Int, l = some k ∧ 1 ≤ k) := by
    intro n x l0 l h
    induction h with
    | here => exact id
    | @step n c x l l' l'' hc _ ih =>
      intro h0
      refine ih ?_
      have h0' : 0 ≤ l.getD 0 := by
        rcases h0 with rfl | ⟨k, rfl, hk⟩ <;> simp; omega
      unfold Spec.Calls at hc
      split at hc
      all_goals first
        | exact .inl hc.2
        | exact .inl hc.2.2
        | skip
      · obtain ⟨i, _, _, _, rfl⟩ := hc
        split
        · exact .inr ⟨_, rfl, by omega⟩
        · exact .inl rfl
      · obtain ⟨i, _, _, _, rfl⟩ := hc
        split
        · exact .inr ⟨_, rfl, by omega⟩
        · exact .inl rfl
      · rcases hc with ⟨i, _, _, _, rfl⟩ | ⟨_, _, rfl⟩
        · exact .inl rfl
        · exact .inr ⟨_, rfl, by omega⟩
      · exact hc.elim
  exact this n x none l h (.inl rfl)

/-- A mark that cannot be applied to `s`: inline code on a text with a newline, or an indentation whose
level is no integer. -/
def _root_.Verif.Spec.MarkFails (m : Mark) (s : Str) : Prop :=
  (m.cls = .code ∧ '\n' ∈ s) ∨
  (m.cls = .indentation ∧ ∃ a v, m.attrs = .val a ∧ lookupKey a.fields "level" = some v ∧ ¬ Spec.IsInt v)

theorem asInt_iff (v : Val) : v.asInt? = none ↔ ¬ Spec.IsInt v := by
  unfold Spec.IsInt
  cases v <;> simp [Val.asInt?]

/-- C63: only these marks fail. -/
theorem C63_mark (env : Env) (m : Mark) (s : Str) (hm : ∃ v, parseMark v = .ok m) :
    (∃ e, m.toMarkdown env (.str s) = .error e) ↔ Spec.MarkFails m s := by
  have hw : ∀ pre post, ¬ ∃ e, wrapNonBlank pre post (.str s) = .error e := by
    rintro pre post ⟨e, h⟩
    simp only [wrapNonBlank] at h
    split at h <;> simp at h
  obtain ⟨v, hp⟩ := hm
  obtain ⟨d, t, rfl, ht, hr, hm⟩ := parseMark_ok hp
  obtain ⟨_, _, h3⟩ := markFromDict_ok hm
  unfold Mark.toMarkdown Spec.MarkFails
  cases hc : m.cls <;> simp only [reduceCtorEq, false_and, or_false, true_and, false_or]
  case code =>
    simp only [newlineIn]
    by_cases h : '\n' ∈ s
    · simp [h]
    · have : s.contains Str.nl = false := by simpa using h
      rw [this]
      exact iff_of_false (hw _ _) h
  case em => exact iff_of_false (hw _ _) id
  case strike => exact iff_of_false (hw _ _) id
  case strong => exact iff_of_false (hw _ _) id
  case link =>
    rcases h3 with ⟨hf, _⟩ | ⟨fs, ad, a, hf, had, hok, ha⟩
    · rw [hc] at hf; simp [MarkCls.attrsFields] at hf
    · rw [hc] at hf
      simp only [MarkCls.attrsFields, Option.some.injEq] at hf
      subst hf
      obtain ⟨_, rfl⟩ := attrsFromDict_ok hok
      simp [ha, getAttr, reqFields, optFields, lookupKey]
  case indentation =>
    rcases h3 with ⟨hf, _⟩ | ⟨fs, ad, a, hf, had, hok, ha⟩
    · rw [hc] at hf; simp [MarkCls.attrsFields] at hf
    · rw [hc] at hf
      simp only [MarkCls.attrsFields, Option.some.injEq] at hf
      subst hf
      obtain ⟨_, rfl⟩ := attrsFromDict_ok hok
      simp only [ha, getAttr, reqFields, List.map_cons, List.map_nil, lookupKey, if_true,
        Slot.val.injEq, exists_and_left, exists_eq_left', Option.some.injEq, ← asInt_iff]
      split <;> simp_all
  all_goals simp

/-- C63: the marks of a node cannot be applied to a text iff, applying them one after the other, one of
them fails. -/
theorem C63_marks (env : Env) (n : Node) (hp : Spec.MarksParsed n) (s : Str) :
    Spec.MarksFail env n s ↔ ∃ pre m post s', n.hd.marks = .val (pre ++ m :: post) ∧
      pre.foldlM (fun md m => m.toMarkdown env md) (.str s) = .ok (.str s') ∧ Spec.MarkFails m s' := by
  have key : ∀ (ms : List Mark) (s : Str), (∀ m ∈ ms, ∃ v, parseMark v = .ok m) →
      ((∀ t, ¬ ms.foldlM (fun md m => m.toMarkdown env md) (.str s) = .ok (.str t)) ↔
      ∃ pre m post s', ms = pre ++ m :: post ∧
        pre.foldlM (fun md m => m.toMarkdown env md) (.str s) = .ok (.str s') ∧ Spec.MarkFails m s') := by
    intro ms
    induction ms with
    | nil =>
      intro s _
      refine iff_of_false (fun h => h s rfl) ?_
      rintro ⟨pre, m, post, s', h, _⟩
      simp at h
    | cons m ms ih =>
      intro s hms
      rw [List.foldlM_cons]
      cases hmd : m.toMarkdown env (.str s) with
      | error e =>
        refine iff_of_true (fun t h => by cases h) ?_
        exact ⟨[], m, ms, s, rfl, rfl, (C63_mark env m s (hms m (by simp))).mp ⟨e, hmd⟩⟩
      | ok v =>
        obtain ⟨s1, rfl⟩ := markMd_str env m s v hmd
        have := ih s1 fun m' h => hms m' (by simp [h])
        refine Iff.trans this ?_
        constructor
        · rintro ⟨pre, m', post, s', rfl, h1, h2⟩
          refine ⟨m :: pre, m', post, s', rfl, ?_, h2⟩
          rw [List.foldlM_cons, hmd]
          exact h1
        · rintro ⟨pre, m', post, s', h0, h1, h2⟩
          cases pre with
          | nil =>
            rw [List.nil_append, List.cons.injEq] at h0
            obtain ⟨rfl, rfl⟩ := h0
            simp only [List.foldlM_nil, pure, Except.pure, Except.ok.injEq, Val.str.injEq] at h1
            subst h1
            obtain ⟨e, he⟩ := (C63_mark env m s (hms m (by simp))).mpr h2
            rw [hmd] at he; cases he
          | cons m0 pre =>
            rw [List.cons_append, List.cons.injEq] at h0
            obtain ⟨rfl, rfl⟩ := h0
            refine ⟨pre, m', post, s', rfl, ?_, h2⟩
            rw [List.foldlM_cons, hmd] at h1
            exact h1
  unfold Spec.MarksFail Spec.Styled
  cases hm : n.hd.marks with
  | val ms =>
    dsimp only
    rw [key ms s (hp ms hm)]
    simp only [Slot.val.injEq]
  | _ => simp

/-- A document with a numbered list without attrs inside a quote. -/
def faulty : Node := Samples.doc [Samples.quote [Samples.ordered .opt [Samples.item [Samples.para [Samples.text "a"]]]]]

theorem faulty_parsed : Spec.Parsed faulty :=
  ⟨true, Samples.j "doc" [("version", .int 1), ("content", .list [Samples.j "blockquote" [("content", .list
    [Samples.j "orderedList" [("content", .list [Samples.j "listItem" [("content", .list
      [Samples.j "paragraph" [("content", .list [Samples.j "text" [("text", Samples.str "a")]])]])]])]])]])], rfl⟩

example : ∃ x l, Spec.Reaches faulty none x l ∧ Spec.Fault Samples.env x l :=
  ⟨Samples.ordered .opt [Samples.item [Samples.para [Samples.text "a"]]], none,
    .step (c := Samples.quote [Samples.ordered .opt [Samples.item [Samples.para [Samples.text "a"]]]]) (l' := none)
      ⟨⟨_, rfl, by simp⟩, rfl⟩
      (.step (c := Samples.ordered .opt [Samples.item [Samples.para [Samples.text "a"]]]) (l' := none)
        ⟨⟨_, rfl, by simp⟩, rfl⟩ (.here _ _)), .inr (.inr ⟨rfl, rfl⟩)⟩

example : ∃ e, faulty.toMarkdown Samples.env false = .error e := ⟨_, rfl⟩

example : Spec.MarksFail Samples.env (Samples.textM "a\nb" [Samples.mark .strong, Samples.mark .code]) "a\nb".toList :=
  (C63_marks Samples.env _ (C62_parsed_marks _ ⟨true, Samples.j "text" [("text", Samples.str "a\nb"),
    ("marks", .list [Samples.j "strong" [], Samples.j "code" []])], rfl⟩) _).mpr
    ⟨[Samples.mark .strong], Samples.mark .code, [], "**a\nb**".toList, rfl, rfl, .inl ⟨rfl, by decide⟩⟩

example := C63_string Samples.env faulty faulty_parsed

example := C63_raises_iff Samples.env faulty faulty_parsed (by decide)

example := C63_fault_fails Samples.env (Samples.ordered .opt [Samples.item []])
  ⟨true, Samples.j "orderedList" [("content", .list [Samples.j "listItem" [("content", .list [])]])], rfl⟩ none
  (.inl rfl) (.inr (.inr ⟨rfl, rfl⟩))

example := C63_levels (n := Samples.bullets [Samples.item [Samples.bullets []]]) (l := some 1)
  (.step (c := Samples.bullets []) (l' := some 1)
    ⟨Samples.item [Samples.bullets []], ⟨_, rfl, by simp⟩, rfl, ⟨_, rfl, by simp⟩, rfl⟩ (.here _ _))

example := C63_mark Samples.env (Samples.mark .code) "a\nb".toList ⟨Samples.j "code" [], rfl⟩

end Verif.Props
