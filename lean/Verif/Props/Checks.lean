import Verif.Lemmas.Checks
import Verif.Lemmas.Page
import Verif.Lemmas.ReadItems
import Verif.Props.Chunks
import Verif.Props.Equality
import Verif.Props.RefRoundTrip
/-!
# C93, C94: what a passing test says
-/

namespace Verif.Props
open Verif Verif.Spec

/-! ## C93: `check_seder` -/

/-- What `to_dict` gives has lists for `content` and `marks`, so reading it gives nothing unconverted. -/
theorem toDict_converted (w : Bool) (n : Node) (d : Val) (h : n.toDict = .ok d) (c : NodeCls) (n' : Node)
    (h' : (c.fromDict w d).out = .ok n') : Converted n' := by
  induction n using Node.induction generalizing d c n' with
  | h hd ct ih =>
    rw [Node.toDict] at h
    split at h
    · cases h
    next ce hce =>
    split at h
    · cases h
    next me hme =>
    simp only [Except.ok.injEq] at h
    subst h
    have hnd := entry_keys (hd := hd) (contentEntry_keys hce) (marksEntry_keys hme)
    generalize hD : ("type", hd.type) :: (plainEntry "version" hd.version ++ plainEntry "text" hd.text ++
      nodeAttrsEntry hd.attrs ++ ce ++ me) = D at h' hnd
    have hlc : ∀ v, lookupKey (removeOptional D) "content" = some v → ∃ l, v = .list l ∧
        ∀ x ∈ l, ∃ ns k, ct = .val ns ∧ k ∈ ns ∧ k.toDict = .ok x := by
      intro v hv
      have hm : ("content", v) ∈ D := (List.mem_filter.mp (lookupKey_mem hv)).1
      have hno : v ≠ .opt := by
        rintro rfl
        have := (List.mem_filter.mp (lookupKey_mem hv)).2
        simp [Val.isOpt] at this
      have hm' : ("content", v) ∈ ce := by
        rw [← hD] at hm
        simp only [List.mem_cons, List.mem_append, Prod.mk.injEq, String.reduceEq, false_and, false_or] at hm
        rcases hm with (((hm | hm) | hm) | hm) | hm
        · cases hv : hd.version <;> rw [hv] at hm <;> simp [plainEntry] at hm
        · cases hv : hd.text <;> rw [hv] at hm <;> simp [plainEntry] at hm
        · cases hv : hd.attrs <;> rw [hv] at hm <;> simp [nodeAttrsEntry] at hm
        · exact hm
        · have := (marksEntry_keys hme).subset (List.mem_map.mpr ⟨_, hm, rfl⟩)
          simp at this
      cases ct with
      | absent => simp [contentEntry] at hce; subst hce; simp at hm'
      | opt => simp [contentEntry] at hce; subst hce; simp at hm'; exact absurd hm' hno
      | raw r =>
        simp only [contentEntry] at hce
        rcases rawToDict_cases r with h | h | h <;> rw [h] at hce <;> simp at hce
        subst hce; simp at hm'; subst hm'
        exact ⟨[], rfl, by simp⟩
      | val l =>
        simp only [contentEntry] at hce
        split at hce
        · cases hce
        next vs hvs =>
        simp at hce
        subst hce; simp at hm'; subst hm'
        refine ⟨vs, rfl, ?_⟩
        intro x hx
        obtain ⟨k, hk, he⟩ := (listToDict_mem hvs).2 x hx
        exact ⟨l, k, rfl, hk, he⟩
    have hlm : ∀ v, lookupKey (removeOptional D) "marks" = some v → ∃ l, v = .list l := by
      intro v hv
      have hm : ("marks", v) ∈ D := (List.mem_filter.mp (lookupKey_mem hv)).1
      have hno : v ≠ .opt := by
        rintro rfl
        have := (List.mem_filter.mp (lookupKey_mem hv)).2
        simp [Val.isOpt] at this
      have hm' : ("marks", v) ∈ me := by
        rw [← hD] at hm
        simp only [List.mem_cons, List.mem_append, Prod.mk.injEq, String.reduceEq, false_and, false_or] at hm
        rcases hm with (((hm | hm) | hm) | hm) | hm
        · cases hv : hd.version <;> rw [hv] at hm <;> simp [plainEntry] at hm
        · cases hv : hd.text <;> rw [hv] at hm <;> simp [plainEntry] at hm
        · cases hv : hd.attrs <;> rw [hv] at hm <;> simp [nodeAttrsEntry] at hm
        · have := (contentEntry_keys hce).subset (List.mem_map.mpr ⟨_, hm, rfl⟩)
          simp at this
        · exact hm
      cases hmk : hd.marks with
      | absent => rw [hmk] at hme; simp [marksEntry] at hme; subst hme; simp at hm'
      | opt => rw [hmk] at hme; simp [marksEntry] at hme; subst hme; simp at hm'; exact absurd hm' hno
      | raw r =>
        rw [hmk] at hme
        simp only [marksEntry] at hme
        rcases rawToDict_cases r with h | h | h <;> rw [h] at hme <;> simp at hme
        subst hme; simp at hm'; subst hm'
        exact ⟨[], rfl⟩
      | val l => rw [hmk] at hme; simp [marksEntry] at hme; subst hme; simp at hm'; exact ⟨_, hm'⟩
    generalize removeOptional D = d at *
    obtain ⟨a, s, m, _, hs, hm, _, rfl⟩ := nodeFromDict_ok h'
    rw [contentStep_eq] at hs
    unfold marksStep at hm
    intro x hx
    rcases within_cases hx with rfl | ⟨l, y, hl, hy, hyx⟩
    · simp only [Node.content, Node.hd]
      rw [slotOf_eq c _ (.inr (.inl rfl)), slotOf_eq c _ (.inr (.inr rfl))]
      constructor
      · intro r hr
        split at hr
        · cases hl : lookupKey d "content" with
          | none => rw [hl] at hs; cases hs; cases hr
          | some v =>
            obtain ⟨l, rfl, _⟩ := hlc v hl
            rw [hl] at hs
            simp only [Res.map_out] at hs
            split at hs <;> cases hs
            cases hr
        · cases hr
      · intro r hr
        split at hr
        · cases hl : lookupKey d "marks" with
          | none => rw [hl] at hm; cases hm; cases hr
          | some v =>
            obtain ⟨l, rfl⟩ := hlm v hl
            rw [hl] at hm
            simp only [Res.map_out] at hm
            split at hm <;> cases hm
            cases hr
        · cases hr
    · simp only [Node.content] at hl
      rw [slotOf_eq c _ (.inr (.inl rfl))] at hl
      split at hl
      · cases hl' : lookupKey d "content" with
        | none => rw [hl'] at hs; cases hs; cases hl
        | some v =>
          obtain ⟨l', rfl, hc'⟩ := hlc v hl'
          rw [hl'] at hs
          simp only [Res.map_out] at hs
          split at hs <;> cases hs
          next hns =>
          cases hl
          rw [((parseNodes_ok_iff w l' _).mp hns).2, List.mem_filterMap] at hy
          obtain ⟨z, hz, hzy⟩ := hy
          split at hzy
          · next n' hn' =>
            cases hzy
            obtain ⟨ns', k, rfl, hk, he⟩ := hc' z hz
            obtain ⟨dz, t, rfl, _, _, hf⟩ := parseNode_ok hn'
            exact ih ns' k rfl hk _ he _ _ hf x hyx
          · cases hzy
      · cases hl

/-- A node that is equal to one with nothing unconverted has nothing unconverted. -/
theorem converted_of_eq {iv : Str → Option Int} {n n' : Node} (h : n.eq iv n' = true) (hc : Converted n) :
    Converted n' := by
  induction n using Node.induction generalizing n' with
  | h hd c ih =>
    obtain ⟨hd', c'⟩ := n'
    simp only [Node.eq, Node.hd, Node.content, Bool.and_eq_true, contentEq_slotEq, Hd.eq] at h
    obtain ⟨⟨_, h6⟩, h7⟩ := h
    have h0 := hc _ .self
    simp only [Node.hd, Node.content] at h0
    intro x hx
    rcases within_cases hx with rfl | ⟨l, y, hl, hy, hyx⟩
    · constructor
      · rintro v hv
        simp only [Node.content] at hv
        subst hv
        cases c <;> simp only [slotEq, Bool.false_eq_true] at h7
        exact h0.1 _ rfl
      · rintro v hv
        simp only [Node.hd] at hv
        rw [hv] at h6
        cases hm : hd.marks <;> rw [hm] at h6 <;> simp only [slotEq, Bool.false_eq_true] at h6
        exact h0.2 _ hm
    · simp only [Node.content] at hl
      subst hl
      cases c <;> simp only [slotEq, Bool.false_eq_true] at h7
      next l0 =>
      rw [nodesEq_iff] at h7
      obtain ⟨k, hk, hky⟩ := mem_forall₂_right h7 hy
      exact ih l0 k rfl hk hky (converted_child hc rfl hk) x hyx

/-- C93: `check_seder(inst)` passes exactly if `inst.from_dict(inst.to_dict())` is equal to `inst` (no dict in `inst` has a
key twice, as in Python). -/
theorem C93_meaning (iv : Str → Option Int) (w : Bool) (n : Node) (hu : ObjUnique n) :
    checkSeder iv w (some n) = .ok () ↔
      ∃ d n', n.toDict = .ok d ∧ (n.cls.fromDict w d).out = .ok n' ∧ n'.eq iv n = true := by
  simp only [checkSeder]
  constructor
  · intro h
    split at h
    · cases h
    next d hd =>
    split at h
    · cases h
    next n' hn' =>
    split at h
    · next he => exact ⟨d, n', hd, hn', he⟩
    · cases h
  · rintro ⟨d, n', hd, hn', he⟩
    have hud := toDict_unique hu hd
    have hun := fromDict_unique w _ d hud n' hn'
    have hs := toDict_eq hun he
    rw [hd] at hs
    obtain ⟨d1, hd1⟩ : ∃ d1, n'.toDict = .ok d1 := by
      cases hs' : n'.toDict with
      | ok d1 => exact ⟨d1, rfl⟩
      | error e => rw [hs'] at hs; cases hs
    rw [hd]
    simp only [hn', he, if_true, hd1]
    rw [if_pos (eq_refl d1 (toDict_unique hun hd1))]

/-- C93: the second comparison of `check_seder` never fails: it compares what `to_dict` of the same object gives. -/
theorem C93_second_comparison (iv : Str → Option Int) (w : Bool) (n : Node) (hu : ObjUnique n) :
    checkSeder iv w (some n) ≠ .error .differsAgain := by
  simp only [checkSeder]
  intro h
  split at h
  · cases h
  next d hd =>
  split at h
  · cases h
  next n' hn' =>
  split at h
  · split at h
    · cases h
    next d1 hd1 =>
    split at h
    · cases h
    next d2 hd2 =>
    have e : d2 = d1 := by cases hd2; rfl
    subst e
    rw [if_pos (eq_refl d2 (toDict_unique (fromDict_unique w _ d (toDict_unique hu hd) n' hn') hd1))] at h
    cases h
  · cases h

/-- C93: of a node read from JSON, `check_seder` passes exactly if every `content` and `marks` in it was a list. -/
theorem C93_from_dict (iv : Str → Option Int) (w w' : Bool) (c : NodeCls) (v : Val) (n : Node) (hk : UniqueKeys v)
    (hp : plain v = true) (h : (c.fromDict w v).out = .ok n) :
    checkSeder iv w' (some n) = .ok () ↔ Converted n := by
  have hu := fromDict_unique w c v hk n h
  rw [C93_meaning iv w' n hu]
  have hcls : n.cls = c := by
    cases v with
    | dict d =>
      obtain ⟨_, _, _, _, _, _, _, rfl⟩ := nodeFromDict_ok (show (nodeFromDict w c d (contentStep w d)).out = .ok n from h)
      rfl
    | _ => cases h
  constructor
  · rintro ⟨d, n', hd, hn', he⟩
    exact converted_of_eq he (toDict_converted w' n d hd _ n' hn')
  · intro hc
    obtain ⟨d, hd, hf, _⟩ := C04_from_dict w w' c v n hp h hc
    refine ⟨d, n, hd, ?_, ?_⟩
    · rw [hcls, hf]
    · cases v with
      | dict dv =>
        have := C59_from_dict iv w c dv dv hk (eq_refl _ hk)
        rw [h] at this
        cases this with
        | ok h => exact h
      | _ => cases h

/-- C93: of a mark read from JSON, `check_seder` always passes. -/
theorem C93_mark (iv : Str → Option Int) (v : Val) (m : Mark) (hk : UniqueKeys v) (hp : plain v = true)
    (h : parseMark v = .ok m) : checkSederMark iv m = .ok () := by
  have hu := mark_unique hk h
  have he : m.eq iv m = true := by
    have := C59_parse_mark iv v v hk (eq_refl v hk)
    rw [h] at this
    cases this with
    | ok h => exact h
  unfold checkSederMark
  rw [(C04_mark v m hp h).2]
  simp only [he, if_true]
  rw [if_pos (eq_refl _ (mark_toDict_unique hu))]

/-- C93: `check_seder(None)` passes. -/
theorem C93_none (iv : Str → Option Int) (w : Bool) : checkSeder iv w none = .ok () := rfl

/-! ## C94: `check_markdown` -/

/-- C94: `check_markdown(node, expected)` passes exactly if the Markdown of `node` and `expected` without its common
indentation are the same up to white space at both ends; otherwise, if the node has a Markdown, it fails. -/
theorem C94_meaning (env : Env) (n : Node) (expected : Str) :
    (checkMarkdown env n expected = .ok () ↔ ∃ s out, Md env n s ∧ Dedented expected out ∧ trim s = trim out) ∧
    (checkMarkdown env n expected = .error .differs ↔
      ∃ s out, Md env n s ∧ Dedented expected out ∧ trim s ≠ trim out) := by
  have hd := dedent_dedented expected
  have hu : ∀ out, Dedented expected out → out = dedent expected := fun out h => dedented_unique h hd
  unfold checkMarkdown Md
  constructor
  · constructor
    · intro h
      split at h
      · cases h
      · next s hs =>
        split at h
        · next he => exact ⟨s, _, hs, hd, by rw [← strip_trim, ← strip_trim]; exact he⟩
        · cases h
      · cases h
    · rintro ⟨s, out, hs, ho, he⟩
      rw [hs, hu out ho] at *
      simp only [strip_trim, he, if_true]
  · constructor
    · intro h
      split at h
      · cases h
      · next s hs =>
        split at h
        · cases h
        · next he => exact ⟨s, _, hs, hd, by rw [← strip_trim, ← strip_trim]; exact he⟩
      · cases h
    · rintro ⟨s, out, hs, ho, he⟩
      rw [hs, hu out ho] at *
      simp only [strip_trim, he, if_false]

/-- C94: how far `expected` is indented in the source of the test does not matter. -/
theorem C94_shifted (env : Env) (n : Node) (pre expected expected' : Str) (hp : EmptyLine pre)
    (hs : Shifted pre (expected.splitOn '\n') (expected'.splitOn '\n')) :
    checkMarkdown env n expected' = checkMarkdown env n expected := by
  unfold checkMarkdown
  rw [(dedent_iff expected' _).mpr (shifted_dedented hp hs (dedent_dedented expected))]

theorem trim_cases (s : Str) : trim s = [] ∨
    ((∃ c r, trim s = c :: r ∧ blank c = false) ∧ ∃ r c, trim s = r ++ [c] ∧ blank c = false) := by
  unfold trim
  rcases trimEnd_last (s.dropWhile blank) with h | h
  · exact .inl h
  · refine .inr ⟨?_, h⟩
    cases hd : s.dropWhile blank with
    | nil => rw [hd] at h; obtain ⟨t, c, h, _⟩ := h; simp [trimEnd] at h
    | cons c r =>
      have hc : blank c = false := by
        have := List.head?_dropWhile_not blank s
        rw [hd] at this
        simpa using this
      refine ⟨c, trimEnd r, ?_, hc⟩
      rw [trimEnd, if_neg (by simp [hc])]

theorem trim_part (s : Str) : ∃ a b, s = a ++ trim s ++ b := by
  have h : ∀ s : Str, ∃ b, s = trimEnd s ++ b := by
    intro s
    induction s with
    | nil => exact ⟨[], rfl⟩
    | cons c s ih =>
      rw [trimEnd]
      split
      · exact ⟨c :: s, rfl⟩
      · obtain ⟨b, hb⟩ := ih
        exact ⟨b, by rw [List.cons_append, ← hb]⟩
  obtain ⟨b, hb⟩ := h (s.dropWhile blank)
  exact ⟨s.takeWhile blank, b, by rw [List.append_assoc]; unfold trim; rw [← hb, List.takeWhile_append_dropWhile]⟩

theorem trim_idem (s : Str) : trim (trim s) = trim s := by
  rcases trim_cases s with h | ⟨⟨c, r, h1, hc⟩, r', c', h2, hc'⟩
  · rw [h]; rfl
  · generalize trim s = t at *
    subst h1
    unfold trim
    rw [List.dropWhile_cons_of_neg (by simp [hc])]
    refine Lemmas.trimEnd_of_last ?_
    intro x hx
    rw [h2] at hx
    simp at hx
    subst hx
    exact hc'

theorem emptyLine_blank {c : Char} (h : c = ' ' ∨ c = '\t') : blank c = true := by
  rcases h with rfl | rfl <;> decide

theorem dedented_noBlank {text out : Str} (h : Dedented text out) : NoBlankLine out := by
  obtain ⟨p, outs, hp, hf, rfl, _⟩ := h
  have hno : ∀ o ∈ outs, '\n' ∉ o := by
    intro o ho
    obtain ⟨l, hl, hr⟩ := mem_forall₂_right hf ho
    rcases hr with ⟨_, rfl⟩ | ⟨_, e⟩
    · simp
    · rw [splitOn_nl] at hl
      intro hn
      exact splitNL_noNL text l hl (by rw [e]; exact List.mem_append_right _ hn)
  have hne : outs ≠ [] := by
    rintro rfl
    have := hf.length_eq
    rw [splitOn_nl] at this
    exact splitNL_ne_nil text (List.length_eq_zero_iff.mp this)
  intro o ho hn he
  rw [splitOn_nl, lines, lines_eq, splitNL_join hne hno] at ho
  obtain ⟨l, hl, hr⟩ := mem_forall₂_right hf ho
  rcases hr with ⟨_, rfl⟩ | ⟨h, rfl⟩
  · exact hn rfl
  · refine h fun c hc => ?_
    rcases List.mem_append.mp hc with h | h
    · exact hp c h
    · exact he c h

theorem trim_noBlank {s : Str} (h : NoBlankLine s) : NoBlankLine (trim s) := by
  intro l hl hne he
  rw [splitOn_nl, ← isLineOf_iff] at hl
  obtain ⟨hn, p, q, e, hp, hq⟩ := hl
  rcases trim_cases s with h0 | ⟨⟨c, r, h1, hc⟩, r', c', h2, hc'⟩
  · rw [h0] at e
    have := congrArg List.length e
    simp only [List.length_nil, List.length_append] at this
    exact hne (List.length_eq_zero_iff.mp (by omega))
  rcases hp with rfl | ⟨p, rfl⟩
  · cases l with
    | nil => exact hne rfl
    | cons x l =>
      rw [h1] at e
      simp only [List.nil_append, List.cons_append, List.cons.injEq] at e
      rw [e.1, emptyLine_blank (he x List.mem_cons_self)] at hc
      cases hc
  rcases hq with rfl | ⟨q, rfl⟩
  · obtain ⟨l0, x, rfl⟩ := List.eq_nil_or_concat l |>.resolve_left hne
    rw [h2, List.append_nil, List.concat_eq_append, ← List.append_assoc] at e
    have hx := (List.append_inj' e rfl).2
    simp only [List.cons.injEq, and_true] at hx
    rw [hx, emptyLine_blank (he x (by simp))] at hc'
    cases hc'
  obtain ⟨a, b, hs⟩ := trim_part s
  refine h l ?_ hne he
  rw [splitOn_nl, ← isLineOf_iff]
  refine ⟨hn, a ++ (p ++ ['\n']), '\n' :: q ++ b, ?_, .inr ⟨a ++ p, by simp⟩, .inr ⟨q ++ b, rfl⟩⟩
  rw [hs, e]
  simp

theorem noBlank_dedented {s : Str} (h : NoBlankLine (trim s)) : Dedented (trim s) (trim s) := by
  refine ⟨[], (trim s).splitOn '\n', by simp [EmptyLine], ?_, ?_, ?_⟩
  · rw [List.forall₂_same]
    intro l hl
    by_cases hne : l = []
    · subst hne; exact .inl ⟨by simp [EmptyLine], rfl⟩
    · exact .inr ⟨h l hl hne, rfl⟩
  · rw [splitOn_nl, lines, lines_eq, join_splitNL]
  · rintro c hc ⟨o, ho, hne⟩
    rcases trim_cases s with h0 | ⟨⟨x, r, h1, hx⟩, _⟩
    · rw [h0] at ho
      exact absurd (List.mem_singleton.mp (show o ∈ [[]] from ho)) hne
    · by_cases hxn : x = '\n'
      · subst hxn; exact absurd hx (by decide)
      obtain ⟨t, ts, hts⟩ := splitNL_cons r
      refine ⟨x :: t, ?_, by simp, ?_⟩
      · rw [splitOn_nl, h1, Str.splitNL, if_neg hxn, hts]
        exact List.mem_cons_self
      · intro hh
        simp only [List.head?_cons, Option.some.injEq] at hh
        subst hh
        rw [emptyLine_blank hc] at hx
        cases hx

/-- C94, which Markdown can be expected: some text in a test matches the Markdown exactly if this has, between its first
and last visible character, no line with only spaces and tabs; then the Markdown itself, without the white space at both
ends, does. -/
theorem C94_writable_partial (env : Env) (n : Node) (s : Str) (hs : Md env n s) :
    ((∃ expected, checkMarkdown env n expected = .ok ()) ↔ NoBlankLine (trim s)) ∧
    (NoBlankLine (trim s) → checkMarkdown env n (trim s) = .ok ()) := by
  have h2 : NoBlankLine (trim s) → checkMarkdown env n (trim s) = .ok () := fun h =>
    ((C94_meaning env n _).1).mpr ⟨s, trim s, hs, noBlank_dedented h, (trim_idem s).symm⟩
  refine ⟨⟨?_, fun h => ⟨_, h2 h⟩⟩, h2⟩
  rintro ⟨expected, h⟩
  obtain ⟨s', out, hs', ho, he⟩ := (C94_meaning env n _).1.mp h
  have : s' = s := by unfold Md at hs hs'; rw [hs] at hs'; cases hs'; rfl
  subst this
  rw [he]
  exact trim_noBlank (dedented_noBlank ho)

/-- A code block with a line of spaces between two lines of code. -/
def spacesJson : Val :=
  Samples.j "codeBlock" [("content", .list [Samples.j "text" [("text", Samples.str "a\n  \nb")]])]

theorem spaces_parsed : ∃ n, (parseNode true spacesJson).out = .ok n ∧
    Md Samples.env n "```\na\n  \nb\n```".toList := ⟨_, rfl, rfl⟩

/-- C94, not true in general: no text in a test matches the Markdown of this code block. -/
theorem C94_false : ∃ n s, (parseNode true spacesJson).out = .ok n ∧ Md Samples.env n s ∧
    ∀ expected, checkMarkdown Samples.env n expected = .error .differs := by
  obtain ⟨n, h1, h2⟩ := spaces_parsed
  refine ⟨n, _, h1, h2, fun expected => ?_⟩
  have hno : ¬ NoBlankLine (trim "```\na\n  \nb\n```".toList) := by
    intro h
    exact h "  ".toList (by decide) (by decide) (by simp [EmptyLine])
  have hn := fun h => hno ((C94_writable_partial _ n _ h2).1.mp h)
  refine (C94_meaning _ n expected).2.mpr ⟨_, _, h2, dedent_dedented expected, fun he => hn ⟨expected, ?_⟩⟩
  exact (C94_meaning _ n expected).1.mpr ⟨_, _, h2, dedent_dedented expected, he⟩

/-! ## Examples -/

/-- The expectation of a test as it is written in its source: indented, with lines before and after. -/
def sourceText : Str := "\n        - a\n\n          b\n    ".toList

/-- The same further to the left, with tabs in the empty line. -/
def sourceText' : Str := "\n    - a\n\t\n      b\n".toList

example : Dedented sourceText "\n- a\n\n  b\n".toList := (dedent_iff _ _).mp (by decide)

example : Shifted "    ".toList (sourceText'.splitOn '\n') (sourceText.splitOn '\n') := by
  have h1 : sourceText.splitOn '\n' = ["".toList, "        - a".toList, "".toList, "          b".toList, "    ".toList] := by
    decide
  have h2 : sourceText'.splitOn '\n' = ["".toList, "    - a".toList, "\t".toList, "      b".toList, "".toList] := by decide
  rw [h1, h2]
  refine .cons (.inl ?_) (.cons (.inr rfl) (.cons (.inl ?_) (.cons (.inr rfl) (.cons (.inl ?_) .nil)))) <;>
    constructor <;> simp [EmptyLine]

example : ∃ n, (NodeCls.doc.fromDict true rtExample).out = .ok n ∧ Converted n ∧ plain rtExample = true ∧
    checkSeder (fun _ => none) true (some n) = .ok () := by
  obtain ⟨n, hn, hc⟩ : ∃ n, (NodeCls.doc.fromDict true rtExample).out = .ok n ∧ Converted n :=
    ⟨_, rfl, converted_of_noRaw rfl⟩
  refine ⟨n, hn, hc, rfl, (C93_from_dict _ true true _ _ n ?_ rfl hn).mpr hc⟩
  simp only [rtExample, UniqueKeys, UniqueKeysDict, UniqueKeysList]
  decide

/-- The content of a paragraph is a word, not a list: the check fails. -/
example : ∃ n, (NodeCls.paragraph.fromDict true (Samples.j "paragraph" [("content", Samples.str "x")])).out = .ok n ∧
    ¬ Converted n ∧ checkSeder (fun _ => none) true (some n) = .error (.raised .attributeError) :=
  ⟨_, rfl, fun h => (h _ .self).1 _ rfl, rfl⟩

/-- A list in a test, expected with indentation and surrounding lines. -/
example : ∃ n, (parseNode true (Samples.j "bulletList" [("content", .list [Samples.j "listItem" [("content", .list
      [Samples.j "paragraph" [("content", .list [Samples.j "text" [("text", Samples.str "a")]])]])]])])).out = .ok n ∧
    checkMarkdown Samples.env n "\n        - a\n        ".toList = .ok () ∧
    checkMarkdown Samples.env n "\n        - b\n        ".toList = .error .differs := ⟨_, rfl, rfl, rfl⟩

/-- A mark with attributes. -/
example : ∃ m, parseMark (Samples.j "link" [("attrs", .dict [("href", Samples.str "u")])]) = .ok m ∧
    checkSederMark (fun _ => none) m = .ok () := ⟨_, rfl, rfl⟩

end Verif.Props
