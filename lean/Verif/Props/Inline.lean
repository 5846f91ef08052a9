import Verif.Spec.Inline
import Verif.Props.Marks
/-!
# C56–C58: can inline code, links and emphasis be read back?
-/

namespace Verif.Props
open Verif Spec
set_option linter.unusedSimpArgs false

/-! ## C56: code spans -/

theorem ticks_head {n : Nat} (s : Str) (h : 0 < n) : (ticks n ++ s).head? = some '`' := by
  cases n with
  | zero => omega
  | succ n => rfl

theorem ticks_last {n : Nat} (s : Str) (h : 0 < n) : (s ++ ticks n).getLast? = some '`' := by
  cases n with
  | zero => omega
  | succ n => simp [ticks, List.replicate_succ']

/-- A leading run is as long as it is. -/
theorem ticks_inj {n m : Nat} {s t : Str} (h : ticks n ++ s = ticks m ++ t) (hs : s.head? ≠ some '`')
    (ht : t.head? ≠ some '`') : n = m ∧ s = t := by
  induction n generalizing m with
  | zero =>
    cases m with
    | zero => exact ⟨rfl, h⟩
    | succ m => exact absurd (by rw [show s = _ from h]; rfl) hs
  | succ n ih =>
    cases m with
    | zero => exact absurd (by rw [← show _ = t from h]; rfl) ht
    | succ m =>
      simp only [ticks, List.replicate_succ, List.cons_append, List.cons.injEq, true_and] at h
      obtain ⟨h1, h2⟩ := ih h
      exact ⟨by omega, h2⟩

/-- Two places where runs of the same length end the text before them: the later text contains the
earlier run. -/
theorem run_inside {n : Nat} {i j r q : Str} (hn : 0 < n) (h : i ++ ticks n ++ r = j ++ ticks n ++ q)
    (hi : i.getLast? ≠ some '`') (hj : j.getLast? ≠ some '`') (hr : r.head? ≠ some '`')
    (hlt : i.length < j.length) : ∃ a b, RunAt n j a b := by
  rw [List.append_assoc, List.append_assoc] at h
  rcases List.append_eq_append_iff.mp h with ⟨a, rfl, h2⟩ | ⟨c, rfl, _⟩
  · rcases List.append_eq_append_iff.mp h2 with ⟨b, rfl, h4⟩ | ⟨c, h3, h4⟩
    · refine ⟨i, b, by rw [List.append_assoc], hi, ?_⟩
      cases b with
      | nil => exact absurd (by rw [List.append_nil]; exact ticks_last _ hn) hj
      | cons x b => rw [h4] at hr; exact hr
    · -- `a` is a piece of the run
      exfalso
      have ha : a ≠ [] := by rintro rfl; simp at hlt
      apply hj
      have hall : ∀ x ∈ a, x = '`' := by
        intro x hx
        have : x ∈ ticks n := by rw [h3]; exact List.mem_append_left _ hx
        exact List.eq_of_mem_replicate this
      rw [List.getLast?_append_of_ne_nil _ ha, List.getLast?_eq_getLast_of_ne_nil ha]
      rw [hall _ (List.getLast_mem ha)]
  · simp at hlt; omega

/-- The reading of a code span is unique. -/
theorem reads_unique {s b r b' r' : Str} (h : ReadsAsCode s b r) (h' : ReadsAsCode s b' r') :
    b = b' ∧ r = r' := by
  obtain ⟨n, i, hn, ⟨h1, _, h2⟩, ⟨_, h3, h4⟩, h5, h6⟩ := h
  obtain ⟨m, j, hm, ⟨g1, _, g2⟩, ⟨_, g3, g4⟩, g5, g6⟩ := h'
  simp only [List.nil_append] at h1 g1
  obtain ⟨rfl, e⟩ := ticks_inj (h1.symm.trans g1) h2 g2
  have hij : i.length = j.length := by
    rcases Nat.lt_trichotomy i.length j.length with h | h | h
    · obtain ⟨a, b, hr⟩ := run_inside hn e h3 g3 h4 h
      exact absurd hr (g5 a b)
    · exact h
    · obtain ⟨a, b, hr⟩ := run_inside hn e.symm g3 h3 g4 h
      exact absurd hr (h5 a b)
  rw [List.append_assoc, List.append_assoc] at e
  obtain ⟨rfl, e⟩ := List.append_inj e hij
  refine ⟨?_, List.append_cancel_left (List.append_cancel_left e)⟩
  unfold Unpadded at h6 g6
  split at h6
  · next hc =>
    rw [if_pos hc] at g6
    have := h6.symm.trans g6
    simpa using this
  · next hc =>
    rw [if_neg hc] at g6
    exact h6.symm.trans g6

theorem run_pad {n : Nat} {s : Str} (hn : 0 < n) :
    (∃ a b, RunAt n ([' '] ++ s ++ [' ']) a b) ↔ ∃ a b, RunAt n s a b := by
  constructor
  · rintro ⟨a, b, h, h1, h2⟩
    cases a with
    | nil =>
      have := congrArg List.head? h
      rw [List.nil_append, ticks_head _ hn] at this
      simp at this
    | cons x a =>
      simp only [List.cons_append, List.nil_append, List.cons.injEq] at h
      obtain ⟨rfl, h⟩ := h
      rcases List.eq_nil_or_concat b with rfl | ⟨b', y, rfl⟩
      · have := congrArg List.getLast? h
        rw [List.append_nil, ticks_last _ hn] at this
        simp at this
      · rw [List.concat_eq_append, ← List.append_assoc] at h
        obtain ⟨rfl, hy⟩ := List.append_inj' h rfl
        refine ⟨a, b', rfl, ?_, ?_⟩
        · intro ha
          apply h1
          cases a with
          | nil => simp at ha
          | cons z a => simpa using ha
        · intro hb
          apply h2
          cases b' with
          | nil => simp at hb
          | cons z b => simpa using hb
  · rintro ⟨a, b, rfl, h1, h2⟩
    refine ⟨' ' :: a, b ++ [' '], by simp, ?_, ?_⟩
    · cases a with
      | nil => simp
      | cons z a => simpa using h1
    · cases b with
      | nil => simp
      | cons z b => simpa using h2

/-- C56: inline code can be read back, whatever text follows, exactly if it contains no run of
exactly two back ticks. (The reading is unique: `reads_unique`.) -/
theorem C56_partial (env : Env) (n : Node) (m : Mark) (s rest : Str) (ig : Bool) (hn : n.cls = .text)
    (ht : n.hd.text = some (.str s)) (hm : n.hd.marks = .val [m]) (hc : m.cls = .code)
    (hnl : '\n' ∉ s) (hs : ∃ c ∈ s, Spec.blank c = false) (hr : rest.head? ≠ some '`') :
    ∃ md, n.toMarkdown env ig = .ok (.str md) ∧
      (ReadsAsCode (md ++ rest) s rest ↔ ¬ ∃ a b, RunAt 2 s a b) := by
  refine ⟨"`` ".toList ++ s ++ " ``".toList, ?_, ?_⟩
  · have := (C24_result env m s hc hnl).2 hs
    rw [toMarkdown_eq]
    unfold dispatch
    simp only [show n.hd.cls = _ from hn, ht, hm, textMd, addStyle, applyMarks, this, Option.isSome_none,
      Bool.false_and, Bool.false_eq_true, if_false]
  · have hmd : "`` ".toList ++ s ++ " ``".toList ++ rest = ticks 2 ++ (([' '] ++ s ++ [' ']) ++ ticks 2 ++ rest) := by
      simp [ticks, List.replicate]
    rw [hmd]
    have hlast : ([' '] ++ s ++ [' ']).getLast? ≠ some '`' := by rw [List.getLast?_concat]; decide
    have hhead : (([' '] ++ s ++ [' ']) ++ ticks 2 ++ rest).head? ≠ some '`' := by simp
    constructor
    · rintro ⟨n', i, hn', ⟨h1, _, h2⟩, ⟨_, h3, h4⟩, h5, h6⟩ hrun
      simp only [List.nil_append] at h1
      obtain ⟨rfl, e⟩ := ticks_inj h1 hhead h2
      have e' : [' '] ++ s ++ [' '] = i := by
        rw [List.append_assoc _ (ticks 2), List.append_assoc i] at e
        exact List.append_cancel_right e
      subst e'
      obtain ⟨a, b, h⟩ := (run_pad (by omega)).mpr hrun
      exact h5 a b h
    · intro hno
      refine ⟨2, [' '] ++ s ++ [' '], by omega, ⟨rfl, by simp, hhead⟩, ⟨rfl, hlast, hr⟩, ?_, ?_⟩
      · intro a b h
        exact hno ((run_pad (by omega)).mp ⟨a, b, h⟩)
      · unfold Unpadded
        rw [if_pos]
        refine ⟨by simp, by rw [List.getLast?_concat], ?_⟩
        obtain ⟨c, h1, h2⟩ := hs
        refine ⟨c, by simp [h1], ?_⟩
        rintro rfl
        exact absurd h2 (by decide)

example : ReadsAsCode "`` a`b ``, c".toList "a`b".toList ", c".toList := by
  obtain ⟨md, h1, h2⟩ := C56_partial Samples.env (Samples.textM "a`b" [Samples.mark .code]) (Samples.mark .code)
    "a`b".toList ", c".toList false rfl rfl rfl rfl (by decide) ⟨'a', by decide, by decide⟩ (by decide)
  have : (Samples.textM "a`b" [Samples.mark .code]).toMarkdown Samples.env false = .ok (.str "`` a`b ``".toList) := rfl
  rw [this] at h1
  cases h1
  apply h2.mpr
  rintro ⟨a, b, h, _⟩
  have := congrArg (List.count '`') h
  simp only [List.count_append, ticks, List.count_replicate] at this
  have h1 : List.count '`' "a`b".toList = 1 := by decide
  rw [h1] at this
  simp at this
  omega

/-- C56 is false of the code: parsed inline code whose Markdown is read as something else. -/
theorem C56_false : ∃ (n : Node) (s md : Str), Parsed n ∧ n.cls = .text ∧ n.hd.text = some (.str s) ∧
    (∃ m, n.hd.marks = .val [m] ∧ m.cls = .code) ∧ n.toMarkdown Samples.env false = .ok (.str md) ∧
    ¬ ∃ rest, rest.head? ≠ some '`' ∧ ReadsAsCode (md ++ rest) s rest := by
  refine ⟨Samples.textM "a``b" [Samples.mark .code], "a``b".toList, "`` a``b ``".toList,
    ⟨true, Samples.j "text" [("text", Samples.str "a``b"), ("marks", .list [Samples.j "code" []])], rfl⟩,
    rfl, rfl, ⟨_, rfl, rfl⟩, rfl, ?_⟩
  rintro ⟨rest, hr, h⟩
  obtain ⟨md, h1, h2⟩ := C56_partial Samples.env (Samples.textM "a``b" [Samples.mark .code]) (Samples.mark .code)
    "a``b".toList rest false rfl rfl rfl rfl (by decide) ⟨'a', by decide, by decide⟩ hr
  have : (Samples.textM "a``b" [Samples.mark .code]).toMarkdown Samples.env false = .ok (.str "`` a``b ``".toList) := rfl
  rw [this] at h1
  cases h1
  exact h2.mp h ⟨['a'], ['b'], rfl, by decide, by decide⟩

/-! ## C57: links -/

/-- `Balanced` with `d` open brackets before. -/
def balFrom (o c : Char) : Nat → Str → Bool
  | d, [] => d == 0
  | d, x :: s =>
    if x = c then
      if d = 0 then false else balFrom o c (d - 1) s
    else balFrom o c (if x = o then d + 1 else d) s

theorem balFrom_iff {o c : Char} (hoc : o ≠ c) (d : Nat) (s : Str) : balFrom o c d s = true ↔
    d + s.count o = s.count c ∧ ∀ a b, s = a ++ b → a.count c ≤ d + a.count o := by
  induction s generalizing d with
  | nil =>
    simp only [balFrom, beq_iff_eq, List.count_nil]
    constructor
    · rintro rfl
      refine ⟨rfl, fun a b h => ?_⟩
      obtain ⟨rfl, rfl⟩ := List.append_eq_nil_iff.mp h.symm
      simp
    · rintro ⟨h, _⟩; omega
  | cons x s ih =>
    rw [balFrom]
    by_cases hx : x = c
    · subst hx
      rw [if_pos rfl]
      cases d with
      | zero =>
        simp only [if_true, Bool.false_eq_true, false_iff, not_and, not_forall]
        intro _
        refine ⟨[x], s, rfl, ?_⟩
        simp [List.count_cons, hoc.symm]
      | succ d =>
        rw [if_neg (by omega), Nat.add_sub_cancel, ih]
        have hxo : ¬ x = o := fun h => hoc h.symm
        simp only [List.count_cons, beq_self_eq_true, if_true, beq_iff_eq, hxo, if_false]
        constructor
        · rintro ⟨h1, h2⟩
          refine ⟨by omega, fun a b h => ?_⟩
          cases a with
          | nil => simp
          | cons y a =>
            simp only [List.cons_append, List.cons.injEq] at h
            obtain ⟨rfl, h⟩ := h
            have := h2 a b h
            simp [List.count_cons, hxo]; omega
        · rintro ⟨h1, h2⟩
          refine ⟨by omega, fun a b h => ?_⟩
          have := h2 (x :: a) b (by rw [h]; rfl)
          simp [List.count_cons, hxo] at this; omega
    · rw [if_neg hx, ih]
      by_cases ho : x = o
      · subst ho
        simp only [if_true, List.count_cons, beq_self_eq_true, beq_iff_eq, hx, if_false]
        constructor
        · rintro ⟨h1, h2⟩
          refine ⟨by omega, fun a b h => ?_⟩
          cases a with
          | nil => simp
          | cons y a =>
            simp only [List.cons_append, List.cons.injEq] at h
            obtain ⟨rfl, h⟩ := h
            have := h2 a b h
            simp [List.count_cons, hx]; omega
        · rintro ⟨h1, h2⟩
          refine ⟨by omega, fun a b h => ?_⟩
          have := h2 (x :: a) b (by rw [h]; rfl)
          simp [List.count_cons, hx] at this; omega
      · simp only [ho, if_false, List.count_cons, beq_iff_eq, hx]
        constructor
        · rintro ⟨h1, h2⟩
          refine ⟨by omega, fun a b h => ?_⟩
          cases a with
          | nil => simp
          | cons y a =>
            simp only [List.cons_append, List.cons.injEq] at h
            obtain ⟨rfl, h⟩ := h
            have := h2 a b h
            simp [List.count_cons, hx, ho]; omega
        · rintro ⟨h1, h2⟩
          refine ⟨by omega, fun a b h => ?_⟩
          have := h2 (x :: a) b (by rw [h]; rfl)
          simp [List.count_cons, hx, ho] at this; omega

theorem balanced_iff {o c : Char} (hoc : o ≠ c) (s : Str) : balFrom o c 0 s = true ↔ Balanced o c s := by
  rw [balFrom_iff hoc]
  simp [Balanced]

theorem readUntil_iff {o c : Char} (d : Nat) (s t : Str) :
    readUntil o c d (s ++ c :: t) = some (s, t) ↔ balFrom o c d s = true := by
  induction s generalizing d with
  | nil =>
    simp only [List.nil_append, readUntil, balFrom, if_true]
    cases d <;> simp
  | cons x s ih =>
    rw [List.cons_append, readUntil, balFrom]
    have hmap : ∀ p : Option (Str × Str), p.map (fun p => (x :: p.1, p.2)) = some (x :: s, t) ↔ p = some (s, t) := by
      intro p
      cases p with
      | none => simp
      | some p => obtain ⟨a, b⟩ := p; simp
    by_cases hx : x = c
    · rw [if_pos hx, if_pos hx]
      cases d with
      | zero => simp
      | succ d => rw [if_neg (by omega), if_neg (by omega), Nat.add_sub_cancel, hmap]; exact ih d
    · rw [if_neg hx, if_neg hx, hmap]
      exact ih _

theorem readUntil_eq {o c : Char} {d : Nat} {u s t : Str} (h : readUntil o c d u = some (s, t)) :
    u = s ++ c :: t := by
  induction u generalizing d s with
  | nil => simp [readUntil] at h
  | cons x u ih =>
    rw [readUntil] at h
    by_cases hx : x = c
    · rw [if_pos hx] at h
      cases d with
      | zero =>
        simp only [if_true, Option.some.injEq, Prod.mk.injEq] at h
        obtain ⟨rfl, rfl⟩ := h
        rw [hx]; rfl
      | succ d =>
        simp only [if_neg (Nat.succ_ne_zero d), Option.map_eq_some_iff] at h
        obtain ⟨⟨a, b⟩, h1, h2⟩ := h
        simp only [Prod.mk.injEq] at h2
        obtain ⟨rfl, rfl⟩ := h2
        rw [ih h1]; rfl
    · rw [if_neg hx, Option.map_eq_some_iff] at h
      obtain ⟨⟨a, b⟩, h1, h2⟩ := h
      simp only [Prod.mk.injEq] at h2
      obtain ⟨rfl, rfl⟩ := h2
      rw [ih h1]; rfl

theorem readLink_iff (label href rest : Str) :
    readLink ("[".toList ++ label ++ "](".toList ++ href ++ ")".toList ++ rest) = some (label, href, rest) ↔
      Balanced '[' ']' label ∧ Balanced '(' ')' href ∧ ∀ c ∈ href, Spec.blank c = false := by
  rw [← balanced_iff (by decide), ← balanced_iff (by decide)]
  have e : "[".toList ++ label ++ "](".toList ++ href ++ ")".toList ++ rest =
      '[' :: (label ++ ']' :: '(' :: (href ++ ')' :: rest)) := by simp
  rw [e]
  unfold readLink
  simp only
  constructor
  · intro h
    split at h
    · next l t h1 =>
      split at h
      · next d r h2 =>
        split at h
        · simp at h
        · next hs =>
          simp only [Option.some.injEq, Prod.mk.injEq] at h
          obtain ⟨rfl, rfl, rfl⟩ := h
          have e1 := readUntil_eq h1
          have : '(' :: (d ++ ')' :: r) = '(' :: t := by
            have := List.append_cancel_left e1
            simpa using this
          simp only [List.cons.injEq, true_and] at this
          subst this
          refine ⟨(readUntil_iff 0 _ _).mp h1, (readUntil_iff 0 _ _).mp h2, ?_⟩
          simpa using hs
      · simp at h
    · simp at h
  · rintro ⟨h1, h2, h3⟩
    rw [(readUntil_iff 0 label _).mpr h1]
    simp only
    rw [(readUntil_iff 0 href _).mpr h2]
    simp only
    rw [if_neg]
    simpa using h3

/-- C57: a link can be read back, whatever follows, exactly if the brackets of its label are balanced,
the parentheses of its address are balanced and the address has no white space. -/
theorem C57_partial (env : Env) (m : Mark) (a : AttrsObj) (s href label rest : Str) (title : Val)
    (hc : m.cls = .link) (ha : m.attrs = .val a)
    (hh : lookupKey a.fields "href" = some (.str href))
    (ht : lookupKey a.fields "title" = some title)
    (hl : title = .str label ∨ (∀ t, title ≠ .str t) ∧ label = s) :
    ∃ md, m.toMarkdown env (.str s) = .ok (.str md) ∧
      (readLink (md ++ rest) = some (label, href, rest) ↔
        Balanced '[' ']' label ∧ Balanced '(' ')' href ∧ ∀ c ∈ href, Spec.blank c = false) := by
  have key := C23_link env m a s href title hc ha hh ht
  rcases hl with rfl | ⟨hl, rfl⟩
  · exact ⟨_, key, readLink_iff label href rest⟩
  · cases title with
    | str t => exact absurd rfl (hl t)
    | _ => exact ⟨_, key, readLink_iff label href rest⟩

/-- A link mark. -/
def linkMark (href : String) : Mark :=
  ⟨.link, Samples.str "link", Samples.attrs [("href", Samples.str href), ("title", .opt), ("id", .opt),
    ("collection", .opt), ("occurrenceKey", .opt)]⟩

example : readLink "[a [b]](u(v)), c".toList = some ("a [b]".toList, "u(v)".toList, ", c".toList) := by decide

/-- C57 is false of the code: links of parsed texts that are read as something else. -/
theorem C57_false :
    (∃ md, (Samples.textM "a]b" [linkMark "u"]).toMarkdown Samples.env false = .ok (.str md) ∧
      readLink md ≠ some ("a]b".toList, "u".toList, [])) ∧
    (∃ md, (Samples.textM "a" [linkMark "u)"]).toMarkdown Samples.env false = .ok (.str md) ∧
      readLink md ≠ some ("a".toList, "u)".toList, [])) ∧
    Parsed (Samples.textM "a]b" [linkMark "u"]) ∧ Parsed (Samples.textM "a" [linkMark "u)"]) := by
  refine ⟨⟨"[a]b](u)".toList, rfl, by decide⟩, ⟨"[a](u))".toList, rfl, by decide⟩,
    ⟨true, Samples.j "text" [("text", Samples.str "a]b"), ("marks", .list [Samples.j "link" [("attrs",
      .dict [("href", Samples.str "u")])]])], rfl⟩,
    ⟨true, Samples.j "text" [("text", Samples.str "a"), ("marks", .list [Samples.j "link" [("attrs",
      .dict [("href", Samples.str "u)")])]])], rfl⟩⟩

/-! ## C58: emphasis -/

theorem strip_id_iff {s : Str} (hs : ∃ c ∈ s, Spec.blank c = false) : Str.strip s = s ↔
    ∃ a z, s.head? = some a ∧ s.getLast? = some z ∧ Spec.blank a = false ∧ Spec.blank z = false := by
  have hl : ∀ s : Str, s.dropWhile Spec.blank = s ↔ ∀ a, s.head? = some a → Spec.blank a = false := by
    intro s
    cases s with
    | nil => simp
    | cons x s =>
      simp only [List.head?_cons, Option.some.injEq, forall_eq']
      cases hx : Spec.blank x with
      | false => simp [List.dropWhile, hx]
      | true =>
        simp only [List.dropWhile, hx, Bool.true_eq_false, iff_false]
        intro h
        have := congrArg List.length h
        have h2 := (List.dropWhile_suffix Spec.blank (l := s)).length_le
        simp at this
        omega
  have hne : s ≠ [] := by rintro rfl; simp at hs
  constructor
  · intro h
    have h1 : s.dropWhile Spec.blank = s := by
      have h2 : (Str.strip s).length ≤ (Str.lstrip s).length := by
        unfold Str.strip Str.rstrip
        rw [List.length_reverse, ← List.length_reverse (as := Str.lstrip s)]
        exact (List.dropWhile_suffix _).length_le
      rw [h, Str.lstrip, isSpace_fun] at h2
      exact (List.dropWhile_suffix Spec.blank).eq_of_length_le h2
    have h3 : s.reverse.dropWhile Spec.blank = s.reverse := by
      unfold Str.strip Str.lstrip Str.rstrip at h
      rw [isSpace_fun, h1] at h
      have := congrArg List.reverse h
      rwa [List.reverse_reverse] at this
    refine ⟨s.head hne, s.getLast hne, List.head?_eq_some_head hne, List.getLast?_eq_some_getLast hne, ?_, ?_⟩
    · exact (hl s).mp h1 _ (List.head?_eq_some_head hne)
    · exact (hl s.reverse).mp h3 _ (by rw [List.head?_reverse]; exact List.getLast?_eq_some_getLast hne)
  · rintro ⟨a, z, h1, h2, h3, h4⟩
    have h5 : s.dropWhile Spec.blank = s := (hl s).mpr (by intro b hb; rw [h1] at hb; cases hb; exact h3)
    have h6 : s.reverse.dropWhile Spec.blank = s.reverse :=
      (hl s.reverse).mpr (by intro b hb; rw [List.head?_reverse, h2] at hb; cases hb; exact h4)
    unfold Str.strip Str.lstrip Str.rstrip
    rw [isSpace_fun, h5, h6, List.reverse_reverse]

/-- C58: strong, em and strike text can be read as emphasised exactly if `strip()` would leave the text
unchanged. -/
theorem C58_partial (env : Env) (m : Mark) (d s : Str) (hd : Spec.delimiter m.cls = some d)
    (hs : ∃ c ∈ s, Spec.blank c = false) :
    ∃ md, m.toMarkdown env (.str s) = .ok (.str md) ∧ (ReadsAsEmphasis d md s ↔ Spec.trim s = s) := by
  refine ⟨d ++ s ++ d, C23_wraps env m d s hd hs, ?_⟩
  rw [← strip_trim, strip_id_iff hs]
  simp [ReadsAsEmphasis]

example := C58_partial Samples.env (Samples.mark .strong) "**".toList "a b".toList rfl ⟨'a', by decide, by decide⟩

example : ReadsAsEmphasis "**".toList "**a b**".toList "a b".toList :=
  ⟨rfl, 'a', 'b', by decide, by decide, by decide, by decide⟩

/-- C58 is false of the code: bold text with a space at its end, as editors produce it. -/
theorem C58_false : Parsed (Samples.textM "a " [Samples.mark .strong]) ∧
    ∃ md, (Samples.textM "a " [Samples.mark .strong]).toMarkdown Samples.env false = .ok (.str md) ∧
      ¬ ∃ t, ReadsAsEmphasis "**".toList md t := by
  refine ⟨⟨true, Samples.j "text" [("text", Samples.str "a "), ("marks", .list [Samples.j "strong" []])], rfl⟩,
    "**a **".toList, rfl, ?_⟩
  rintro ⟨t, h, a, z, h1, h2, h3, h4⟩
  have ht : t = "a ".toList := by
    have : "**".toList ++ "a ".toList ++ "**".toList = "**".toList ++ t ++ "**".toList := h
    rw [List.append_assoc, List.append_assoc] at this
    exact (List.append_cancel_right (List.append_cancel_left this)).symm
  subst ht
  have : z = ' ' := by
    have h : "a ".toList.getLast? = some ' ' := by decide
    rw [h] at h2; cases h2; rfl
  subst this
  exact absurd h4 (by decide)

example := C57_partial Samples.env (linkMark "u(v)") _ "a [b]".toList "u(v)".toList "a [b]".toList ", c".toList .opt rfl rfl
  rfl rfl (.inr ⟨nofun, rfl⟩)

end Verif.Props
