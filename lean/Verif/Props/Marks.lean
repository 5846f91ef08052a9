import Verif.Lemmas.Md
import Verif.Lemmas.Samples
import Verif.Props.Parsing
import Verif.Spec.Marks
/-!
# C23, C24: marks
-/

namespace Verif.Props
open Verif

/-! ## What `strip()` decides -/

theorem rstrip_nil_iff (s : Str) : Str.rstrip s = [] ↔ ∀ c ∈ s, Spec.blank c = true := by
  unfold Str.rstrip
  rw [isSpace_fun]
  rw [List.reverse_eq_nil_iff]
  have : ∀ l : Str, l.dropWhile Spec.blank = [] ↔ ∀ c ∈ l, Spec.blank c = true := by
    intro l
    induction l with
    | nil => simp
    | cons a l ih =>
      by_cases ha : Spec.blank a = true
      · rw [List.dropWhile_cons_of_pos ha, ih]; simp [ha]
      · rw [List.dropWhile_cons_of_neg ha]; simp [ha]
  rw [this]
  simp

theorem strip_nil_iff (s : Str) : Str.strip s = [] ↔ ∀ c ∈ s, Spec.blank c = true := by
  unfold Str.strip
  rw [rstrip_nil_iff]
  unfold Str.lstrip
  rw [isSpace_fun]
  constructor
  · intro h c hc
    rw [← List.takeWhile_append_dropWhile (p := Spec.blank) (l := s)] at hc
    rcases List.mem_append.mp hc with h1 | h1
    · have : ∀ (l : Str), ∀ c ∈ l.takeWhile Spec.blank, Spec.blank c = true := by
        intro l
        induction l with
        | nil => simp
        | cons a l ih =>
          intro c hc
          by_cases ha : Spec.blank a = true
          · rw [List.takeWhile_cons_of_pos ha] at hc
            rcases List.mem_cons.mp hc with rfl | h
            · exact ha
            · exact ih c h
          · rw [List.takeWhile_cons_of_neg ha] at hc; simp at hc
      exact this s c h1
    · exact h c h1
  · intro h c hc
    exact h c ((List.dropWhile_sublist _).subset hc)

theorem wrap_nonblank {pre post s : Str} (h : ∃ c ∈ s, Spec.blank c = false) :
    wrapNonBlank pre post (.str s) = .ok (.str (pre ++ s ++ post)) := by
  obtain ⟨c, hc, hs⟩ := h
  simp only [wrapNonBlank]
  rw [if_neg]
  rw [List.isEmpty_iff, strip_nil_iff]
  intro h
  rw [h c hc] at hs
  simp at hs

theorem wrap_blank {pre post s : Str} (h : ∀ c ∈ s, Spec.blank c = true) :
    wrapNonBlank pre post (.str s) = .ok (.str s) := by
  simp only [wrapNonBlank]
  rw [if_pos]
  rw [List.isEmpty_iff, strip_nil_iff]
  exact h

/-! ## C23 -/

/-- Every mark class is a delimiter mark, code, link, indentation or plain. -/
theorem C23_all_marks (c : MarkCls) : (Spec.delimiter c).isSome ∨ c = .code ∨ c = .link ∨
    c = .indentation ∨ c ∈ Spec.plainMarks := by
  cases c <;> decide

/-- C23: strong / em / strike put their delimiter on both sides of a text that is not blank. -/
theorem C23_wraps (env : Env) (m : Mark) (d s : Str) (hd : Spec.delimiter m.cls = some d)
    (h : ∃ c ∈ s, Spec.blank c = false) : m.toMarkdown env (.str s) = .ok (.str (d ++ s ++ d)) := by
  unfold Mark.toMarkdown
  cases hc : m.cls <;> rw [hc] at hd <;> simp [Spec.delimiter] at hd <;> subst hd <;>
    exact wrap_nonblank h

/-- C23: … and leave a blank text alone. -/
theorem C23_blank (env : Env) (m : Mark) (d s : Str) (hd : Spec.delimiter m.cls = some d)
    (h : ∀ c ∈ s, Spec.blank c = true) : m.toMarkdown env (.str s) = .ok (.str s) := by
  unfold Mark.toMarkdown
  cases hc : m.cls <;> rw [hc] at hd <;> simp [Spec.delimiter] at hd <;> subst hd <;>
    exact wrap_blank h

/-- C23: a link mark with string `href` gives `[label](href)`; the label is the title if that is a
string, else the text. -/
theorem C23_link (env : Env) (m : Mark) (a : AttrsObj) (s href : Str) (title : Val)
    (hc : m.cls = .link) (ha : m.attrs = .val a)
    (hh : lookupKey a.fields "href" = some (.str href))
    (ht : lookupKey a.fields "title" = some title) :
    m.toMarkdown env (.str s) = .ok (.str ("[".toList ++
      (match title with | .str t => t | _ => s) ++ "](".toList ++ href ++ ")".toList)) := by
  unfold Mark.toMarkdown
  simp only [hc, ha, getAttr, hh, ht]
  cases title <;> rfl

/-- C23: the marks without Markdown form return the text unchanged. -/
theorem C23_plain (env : Env) (m : Mark) (v : Val) (h : m.cls ∈ Spec.plainMarks) :
    m.toMarkdown env v = .ok v := by
  unfold Mark.toMarkdown
  simp only [Spec.plainMarks, List.mem_cons, List.not_mem_nil, or_false] at h
  rcases h with h | h | h | h | h | h | h | h | h | h <;> simp only [h]

/-- Indentation replaces the text by `level` tabs (the code does not use the text). -/
theorem C23_indentation (env : Env) (m : Mark) (a : AttrsObj) (v : Val) (k : Nat)
    (hc : m.cls = .indentation) (ha : m.attrs = .val a)
    (hl : lookupKey a.fields "level" = some (.int k)) :
    m.toMarkdown env v = .ok (.str (List.replicate k '\t')) := by
  unfold Mark.toMarkdown
  simp only [hc, ha, getAttr, hl, Val.asInt?, Str.rep]
  have : (List.replicate (k : Int).toNat ['\t']).flatten = List.replicate k '\t' := by
    rw [Int.toNat_natCast]
    clear hl
    induction k with
    | zero => rfl
    | succ k ih => rw [List.replicate_succ, List.flatten_cons, ih, List.replicate_succ]; rfl
  rw [this]

/-- A parsed mark never raises AttributeError on a string. -/
theorem parsed_mark_noAttrErr (env : Env) (m : Mark) (v : Val) (hp : parseMark v = .ok m)
    (s : Str) : m.toMarkdown env (.str s) ≠ .error .attributeError := by
  have hw : ∀ pre post, wrapNonBlank pre post (.str s) ≠ .error .attributeError := by
    intro pre post h
    simp only [wrapNonBlank] at h
    split at h <;> simp at h
  obtain ⟨d, t, rfl, ht, hr, hm⟩ := parseMark_ok hp
  obtain ⟨_, _, h3⟩ := markFromDict_ok hm
  unfold Mark.toMarkdown
  cases hc : m.cls <;> simp only
  case code =>
    simp only [newlineIn]
    split
    · next h => simp at h
    · simp
    · exact hw _ _
  case em => exact hw _ _
  case strike => exact hw _ _
  case strong => exact hw _ _
  case link =>
    rcases h3 with ⟨hf, _⟩ | ⟨fs, ad, a, hf, had, hok, ha⟩
    · rw [hc] at hf; simp [MarkCls.attrsFields] at hf
    · rw [hc] at hf
      simp only [MarkCls.attrsFields, Option.some.injEq] at hf
      subst hf
      obtain ⟨_, rfl⟩ := attrsFromDict_ok hok
      simp [ha, getAttr, reqFields, optFields, lookupKey]
  case indentation =>
    rcases h3 with ⟨hf, _⟩ | ⟨fs, ad, a, hf, had, hok, ha⟩
    · rw [hc] at hf; simp [MarkCls.attrsFields] at hf
    · rw [hc] at hf
      simp only [MarkCls.attrsFields, Option.some.injEq] at hf
      subst hf
      obtain ⟨_, rfl⟩ := attrsFromDict_ok hok
      simp only [ha, getAttr, reqFields, List.map_cons, List.map_nil, lookupKey, if_true]
      split <;> simp
  all_goals simp

/-- C23: a text node's Markdown is the left fold of its marks over its text: the first mark is
applied to the text, the second to the result, and so on; an exception of a mark is raised. -/
theorem C23_fold (env : Env) (n : Node) (s : Str) (ms : List Mark) (ig : Bool) (hn : n.cls = .text)
    (ht : n.hd.text = some (.str s)) (hm : n.hd.marks = .val ms)
    (hp : ∀ m ∈ ms, ∃ v, parseMark v = .ok m) :
    n.toMarkdown env ig = ms.foldlM (fun md m => m.toMarkdown env md) (.str s) := by
  rw [toMarkdown_eq]
  have hn' : n.hd.cls = .text := hn
  unfold dispatch
  simp only [hn', ht, hm, textMd, addStyle, Option.isSome_none, Bool.false_and, Bool.false_eq_true,
    if_false]
  clear ht hm hn hn'
  induction ms generalizing s with
  | nil => rfl
  | cons m ms ih =>
    rw [applyMarks, List.foldlM_cons]
    obtain ⟨v, hv⟩ := hp m (by simp)
    cases hmd : m.toMarkdown env (.str s) with
    | ok v' =>
      obtain ⟨s', rfl⟩ := markMd_str env m s v' hmd
      exact ih s' (fun m' hm' => hp m' (by simp [hm']))
    | error e =>
      have := parsed_mark_noAttrErr env m v hv s
      rw [hmd] at this
      cases e <;> first | rfl | exact absurd rfl this

/-- C23 from the input on: a text dict with a list of marks that parses gives the left fold, in the order of
the input, of the registered marks over the text. -/
theorem C23_input (env : Env) (w ig : Bool) (d : List (String × Val)) (s : Str) (vs : List Val) (n : Node)
    (ht : lookupKey d "text" = some (.str s)) (hm : lookupKey d "marks" = some (.list vs))
    (hn : (NodeCls.text.fromDict w (.dict d)).out = .ok n) :
    ∃ ms : List Mark, (vs.filter Spec.registeredMark).map parseMark = ms.map .ok ∧
      n.toMarkdown env ig = ms.foldlM (fun md m => m.toMarkdown env md) (.str s) := by
  obtain ⟨ms, h1, h2, _⟩ := C01_marks w .text d vs n hm (by decide) hn
  refine ⟨ms, h2, ?_⟩
  obtain ⟨a, k, m, _, _, _, _, rfl⟩ := nodeFromDict_ok hn
  refine C23_fold env _ s ms ig rfl ?_ h1 ?_
  · simp [Node.hd, valOf, NodeCls.fields, NodeCls.ownFields, fieldValue, ht]
  · intro m hm
    have : (.ok m : Except PyErr Mark) ∈ ms.map .ok := List.mem_map_of_mem hm
    rw [← h2] at this
    obtain ⟨v, _, hv⟩ := List.mem_map.mp this
    exact ⟨v, hv⟩

/-- C23: without marks, a text node is its text. -/
theorem C23_no_marks (env : Env) (n : Node) (v : Val) (ig : Bool) (hn : n.cls = .text)
    (ht : n.hd.text = some v) (hm : n.hd.marks = .opt) : n.toMarkdown env ig = .ok v := by
  rw [toMarkdown_eq]
  have hn' : n.hd.cls = .text := hn
  unfold dispatch
  simp only [hn', ht, hm, textMd, addStyle]
  rfl

example : (Samples.textM "a b" [Samples.mark .strong, Samples.mark .underline, Samples.mark .em]).toMarkdown
    Samples.env false = .ok (.str "***a b***".toList) := rfl
example : ∃ v, parseMark v = .ok (Samples.mark .strong) := ⟨Samples.j "strong" [], rfl⟩
example : (Samples.textM "x" [Samples.mark .strike, Samples.mark .code]).toMarkdown
    Samples.env false = .ok (.str "`` ~~x~~ ``".toList) := rfl

theorem applyMarks_append (env : Env) (pre post : List Mark) (v w : Val)
    (h : pre.foldlM (fun md m => m.toMarkdown env md) v = .ok w) :
    applyMarks env v (pre ++ post) = applyMarks env w post := by
  induction pre generalizing v with
  | nil => cases h; rfl
  | cons m ms ih =>
    rw [List.foldlM_cons] at h
    rw [List.cons_append, applyMarks]
    cases hm : m.toMarkdown env v with
    | error e => rw [hm] at h; cases h
    | ok v' => rw [hm] at h; exact ih v' h

/-- C23: whatever the text and the marks are: if every mark applies, the result is the fold; if a mark
raises AttributeError, the result is the fold of the marks before it (the rest is not applied); if a
mark raises another exception, the conversion raises it. -/
theorem C23_any_text (env : Env) (n : Node) (v w : Val) (pre post : List Mark) (ig : Bool)
    (hn : n.cls = .text) (ht : n.hd.text = some v) (hm : n.hd.marks = .val (pre ++ post))
    (h : pre.foldlM (fun md m => m.toMarkdown env md) v = .ok w) :
    (post = [] → n.toMarkdown env ig = .ok w) ∧
    (∀ m rest, post = m :: rest → m.toMarkdown env w = .error .attributeError →
      n.toMarkdown env ig = .ok w) ∧
    (∀ m rest e, post = m :: rest → m.toMarkdown env w = .error e → e ≠ .attributeError →
      n.toMarkdown env ig = .error e) := by
  have hn' : n.hd.cls = .text := hn
  have e : n.toMarkdown env ig = applyMarks env w post := by
    rw [toMarkdown_eq]
    unfold dispatch
    simp only [hn', ht, hm, textMd, addStyle, Option.isSome_none, Bool.false_and, Bool.false_eq_true,
      if_false]
    exact applyMarks_append env pre post v w h
  rw [e]
  refine ⟨?_, ?_, ?_⟩
  · rintro rfl; rfl
  · rintro m rest rfl h'; rw [applyMarks, h']
  · rintro m rest e' rfl h' he
    rw [applyMarks, h']
    cases e' <;> first | rfl | exact absurd rfl he

-- a number as text: bold does not apply to it, and the marks after it are not applied either
example : (Node.mk ⟨.text, Samples.str "text", none, some (.int 5), .absent,
    .val [Samples.mark .underline, Samples.mark .strong, Samples.mark .code]⟩ .absent).toMarkdown
      Samples.env false = .ok (.int 5) :=
  (C23_any_text Samples.env _ (.int 5) (.int 5) [Samples.mark .underline]
    [Samples.mark .strong, Samples.mark .code] false rfl rfl rfl rfl).2.1 _ _ rfl rfl

/-! ## C24 -/

/-- C24: inline code raises ValueError exactly when the text contains a newline. -/
theorem C24_raises_iff (env : Env) (m : Mark) (s : Str) (hc : m.cls = .code) :
    m.toMarkdown env (.str s) = .error .valueError ↔ '\n' ∈ s := by
  unfold Mark.toMarkdown
  simp only [hc, newlineIn]
  by_cases h : '\n' ∈ s
  · simp [h]
  · simp only [h, iff_false]
    have : s.contains Str.nl = false := by simpa using h
    rw [this]
    simp only [wrapNonBlank]
    split <;> simp

/-- C24: otherwise the result is the text if it is blank, and the text between double back ticks and
spaces if not. -/
theorem C24_result (env : Env) (m : Mark) (s : Str) (hc : m.cls = .code) (h : '\n' ∉ s) :
    ((∀ c ∈ s, Spec.blank c = true) → m.toMarkdown env (.str s) = .ok (.str s)) ∧
    ((∃ c ∈ s, Spec.blank c = false) →
      m.toMarkdown env (.str s) = .ok (.str ("`` ".toList ++ s ++ " ``".toList))) := by
  have hn : s.contains Str.nl = false := by simpa using h
  unfold Mark.toMarkdown
  simp only [hc, newlineIn, hn]
  exact ⟨wrap_blank, wrap_nonblank⟩

/-- C24: the result never contains a newline. -/
theorem C24_single_line (env : Env) (m : Mark) (s s' : Str) (hc : m.cls = .code)
    (h : m.toMarkdown env (.str s) = .ok (.str s')) : '\n' ∉ s' := by
  have hn : '\n' ∉ s := by
    intro hin
    rw [(C24_raises_iff env m s hc).mpr hin] at h
    simp at h
  obtain ⟨h1, h2⟩ := C24_result env m s hc hn
  by_cases hb : ∀ c ∈ s, Spec.blank c = true
  · rw [h1 hb] at h
    simp only [Except.ok.injEq, Val.str.injEq] at h
    rwa [← h]
  · have : ∃ c ∈ s, Spec.blank c = false := by
      simp only [not_forall, Bool.not_eq_true] at hb
      obtain ⟨c, hc, hs⟩ := hb
      exact ⟨c, hc, hs⟩
    rw [h2 this] at h
    simp only [Except.ok.injEq, Val.str.injEq] at h
    rw [← h]
    simp [hn]

example : (Samples.mark .code).toMarkdown Samples.env (Samples.str "a") =
    .ok (Samples.str "`` a ``") := rfl

/-! ### The theorems on samples -/

example := C23_wraps Samples.env (Samples.mark .em) "*".toList "a ".toList rfl ⟨'a', by decide, by decide⟩

example := C23_blank Samples.env (Samples.mark .strike) "~~".toList " \t".toList rfl (by decide)

example := C23_link Samples.env (Samples.parseM (Samples.j "link" [("attrs", .dict [("href", Samples.str "u"), ("title", Samples.str "t")])]))
  _ "a".toList "u".toList (Samples.str "t") rfl rfl rfl rfl

example := C23_plain Samples.env (Samples.mark .underline) (Samples.str "a") (by decide)

example := C23_indentation Samples.env (Samples.parseM (Samples.j "indentation" [("attrs", .dict [("level", .int 3)])]))
  _ (Samples.str "a") 3 rfl rfl rfl

example := C23_fold Samples.env (Samples.textM "a" [Samples.mark .strong, Samples.mark .em]) "a".toList
  [Samples.mark .strong, Samples.mark .em] false rfl rfl rfl
  (by simp only [List.forall_mem_cons]; exact ⟨⟨Samples.j "strong" [], rfl⟩, ⟨Samples.j "em" [], rfl⟩, by simp⟩)

example := C23_input Samples.env true false [("type", Samples.str "text"), ("text", Samples.str "a"),
  ("marks", .list [Samples.j "em" [], Samples.j "blink" []])] "a".toList [Samples.j "em" [], Samples.j "blink" []]
  (Samples.textM "a" [Samples.mark .em]) rfl rfl rfl

example := C23_no_marks Samples.env (Samples.text "a") _ false rfl rfl rfl

example := C24_raises_iff Samples.env (Samples.mark .code) "a\nb".toList rfl

example := C24_result Samples.env (Samples.mark .code) "a".toList rfl (by decide)

example := C24_single_line Samples.env (Samples.mark .code) "a".toList "`` a ``".toList rfl rfl

end Verif.Props
