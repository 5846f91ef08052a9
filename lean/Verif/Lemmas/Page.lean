import Verif.Spec.Page
import Verif.Props.Reading
import Verif.Props.Words
/-!
# Lemmas about pages: inline content, cells, check boxes
-/

namespace Verif.Lemmas
open Verif Spec Props

/-! ## Inline content -/

theorem fine_ne (uni : Char → CharClass) (L : List Layer) (t : Str) : ∀ (prev next : Option Char),
    fine uni prev L t next = true → t ≠ [] := by
  induction L with
  | nil =>
    intro prev next h
    simp only [fine, Bool.and_eq_true] at h
    simpa using h.1
  | cons l L ih =>
    intro prev next h
    cases l <;> simp only [fine, Bool.and_eq_true] at h
    case wrap => exact ih _ _ h.2
    case link => exact ih _ _ h.2
    case code =>
      rintro rfl
      simp at h
    case tick => simpa using h.1.1.2

theorem calm_first (uni : Char → CharClass) {t : Str} {next : Option Char} (h : calm uni none t next = true) :
    ∀ c ∈ t.head?, gap c = false := by
  cases t with
  | nil => simp
  | cons c t =>
    intro d hd
    cases hd
    rw [calm] at h
    by_cases h1 : c = ' '
    · simp [h1] at h
    · by_cases h2 : c = '\t'
      · subst h2
        simp [literal, loose] at h
      · simp [gap, h1, h2]

theorem spell_first (uni : Char → CharClass) {L : List Layer} {t : Str} {next : Option Char} (h : fine uni none L t next = true) :
    ∀ c ∈ (spell L t).head?, gap c = false := by
  cases L with
  | nil =>
    simp only [fine, Bool.and_eq_true] at h
    exact calm_first uni h.2
  | cons l L =>
    cases l with
    | wrap c n =>
      simp only [fine, Bool.and_eq_true, Bool.or_eq_true, beq_iff_eq] at h
      have hn : n ≠ 0 := by omega
      obtain ⟨k, rfl⟩ := Nat.exists_eq_succ_of_ne_zero hn
      have hc : c = '*' ∨ c = '~' := by
        rcases h.1.1.1.1.1.1.1.1 with h | h
        · exact .inl h.1
        · exact .inr h.1
      simp only [spell, Nat.succ_eq_add_one, List.replicate_succ, List.cons_append, List.head?_cons, Option.mem_some_iff]
      rintro _ rfl
      rcases hc with rfl | rfl <;> decide
    | link u =>
      simp only [spell, List.cons_append, List.head?_cons, Option.mem_some_iff]
      rintro _ rfl
      decide
    | code =>
      rintro c hc
      have : c = '`' := by
        simpa [spell] using hc.symm
      subst this
      decide
    | tick =>
      simp only [spell, List.cons_append, List.head?_cons, Option.mem_some_iff]
      rintro _ rfl
      decide

theorem words_first (uni : Char → CharClass) {ws : List Word} (h : fineWords uni none ws = true) :
    ∀ c ∈ (ws.flatMap Word.str).head?, gap c = false := by
  cases ws with
  | nil => simp
  | cons w ws =>
    rw [fineWords, Bool.and_eq_true] at h
    cases w with
    | brk => simp [fineWord] at h
    | image alt url link =>
      cases link with
      | none =>
        simp only [List.flatMap_cons, Word.str, imageText, List.cons_append, List.head?_cons, Option.mem_some_iff]
        rintro _ rfl
        decide
      | some u =>
        simp only [List.flatMap_cons, Word.str, spell, List.cons_append, List.head?_cons, Option.mem_some_iff]
        rintro _ rfl
        decide
    | word L t =>
      have hne := spell_ne_nil uni h.1
      have := spell_first uni h.1
      rw [List.flatMap_cons, Word.str]
      cases e : spell L t with
      | nil => exact absurd e hne
      | cons a s => rw [e] at this; simpa using this

theorem words_empty (uni : Char → CharClass) {ws : List Word} (h : fineWords uni none ws = true) :
    (ws.flatMap wordGlyphs).isEmpty = (ws.flatMap Word.str).isEmpty := by
  cases ws with
  | nil => rfl
  | cons w ws =>
    rw [fineWords, Bool.and_eq_true] at h
    cases w with
    | brk => simp [fineWord] at h
    | image alt url link => cases link <;> simp [wordGlyphs, Word.str, imageText, spell]
    | word L t =>
      have h1 := spell_ne_nil uni h.1
      have h2 := fine_ne uni L t _ _ h.1
      rw [List.flatMap_cons, List.flatMap_cons, Word.str, wordGlyphs, glyphsL_eq]
      cases t with
      | nil => exact absurd rfl h2
      | cons c t =>
        cases e : spell L (c :: t) with
        | nil => exact absurd e h1
        | cons => rfl

theorem trimEnd_of_last {s : Str} (h : ∀ c ∈ s.getLast?, blank c = false) : trimEnd s = s := by
  induction s with
  | nil => rfl
  | cons a s ih =>
    rw [trimEnd]
    have hna : ¬ (a :: s).all blank = true := by
      rw [List.all_eq_true]
      intro h'
      have hl : (a :: s).getLast? = some ((a :: s).getLast (by simp)) := List.getLast?_eq_some_getLast _
      have := h _ hl
      rw [h' _ (List.getLast_mem _)] at this
      cases this
    rw [if_neg hna]
    cases s with
    | nil => rfl
    | cons b s => rw [ih (by simpa using h)]

theorem mdAll_unique {env : Env} {kids : List Node} {a b : List Str} (h1 : MdAll env kids a) (h2 : MdAll env kids b) : a = b := by
  induction h1 generalizing b with
  | nil => cases h2; rfl
  | cons h _ ih =>
    cases h2 with
    | cons h' h2 => rw [md_unique h h', ih h2]

/-- Readable inline content is read as what it shows. -/
theorem neat_read {env : Env} {uni : Char → CharClass} {kids : List Node} {ss : List Str} (hp : ∀ k ∈ kids, Parsed k)
    (h : Neat env uni kids) (hm : MdAll env kids ss) :
    ∃ gs, kids.mapM (shown env) = some gs ∧ readInline uni ss.flatten = some gs.flatten ∧ trimEnd ss.flatten = ss.flatten ∧
      (gs.flatten.isEmpty = ss.flatten.isEmpty) ∧ (∀ c ∈ ss.flatten.head?, gap c = false) ∧
      (∀ c ∈ ss.flatten.getLast?, blank c = false) := by
  obtain ⟨ws, h1, h2, h3⟩ := h
  obtain ⟨h4, h5⟩ := words_md env uni h1 none hp h2
  have e := mdAll_unique hm h4
  rw [List.flatMap_def] at h3
  subst e
  refine ⟨_, h5, ?_, trimEnd_of_last h3, ?_, ?_, h3⟩
  · rw [← List.flatMap_def, ← List.flatMap_def]
    exact read_inline uni ws h2
  · rw [← List.flatMap_def, ← List.flatMap_def]
    exact words_empty uni h2
  · rw [← List.flatMap_def]
    exact words_first uni h2

theorem lines_splitOn (s : Str) : lines (s.splitOn '\n') = s := by
  unfold lines
  exact List.intercalate_splitOn '\n'

/-! ## Check boxes -/

theorem taskBox_read {uni : Char → CharClass} {s : Str} {gs : List Glyph} (h : readInline uni s = some gs) : taskBox s = none := by
  unfold taskBox
  split
  all_goals first
    | rfl
    | (exfalso
       rw [readInline, Option.map_eq_some_iff] at h
       obtain ⟨st, h, _⟩ := h
       rw [readFrom] at h
       simp [linkEnd, linkedImage] at h)

theorem itemText_read {uni : Char → CharClass} {s : Str} {gs : List Glyph} (h : readInline uni s = some gs) :
    itemText uni s = some (.para gs) := by
  rw [itemText, taskBox_read h, h]
  rfl

/-! ## Cells -/

theorem unescape_escape (s : Str) : unescapePipes (escapePipes s) = s := by
  have key : ∀ (c : Char) (s : Str), c ≠ '\\' ∨ s.head? ≠ some '|' → unescapePipes (c :: s) = c :: unescapePipes s := by
    intro c s h
    rw [unescapePipes]
    intro t e1 e2
    subst e1 e2
    simp at h
  induction s with
  | nil => rfl
  | cons c s ih =>
    unfold escapePipes at *
    rw [List.flatMap_cons]
    by_cases hc : c = '|'
    · subst hc
      simp only [if_true, List.cons_append, List.nil_append, unescapePipes, ih]
    · rw [if_neg hc, List.singleton_append, key, ih]
      right
      cases s with
      | nil => simp
      | cons d s =>
        rw [List.flatMap_cons]
        by_cases hd : d = '|'
        · subst hd
          simp
        · simp [hd]

theorem splitBr_ne (s : Str) : splitBr s ≠ [] := by
  unfold splitBr
  split
  · simp
  · split <;> simp
  · simp

theorem splitBr_cons {c : Char} {s : Str} (h : ¬ "<br>".toList <+: c :: s) {a : Str} {l : List Str} (e : splitBr s = a :: l) :
    splitBr (c :: s) = (c :: a) :: l := by
  rw [splitBr]
  · rw [e]
  · intro t e1 e2
    subst e1 e2
    exact h ⟨t, rfl⟩

theorem splitBr_text {t : Str} (h : ¬ "<br>".toList <:+: t) : splitBr t = [t] := by
  induction t with
  | nil => rfl
  | cons c t ih =>
    refine splitBr_cons (fun hp => h hp.isInfix) (ih fun hi => h (hi.trans (List.suffix_cons c t).isInfix))

theorem splitBr_append {t : Str} (h : ¬ "<br>".toList <:+: t) (r : Str) : splitBr (t ++ "<br>".toList ++ r) = t :: splitBr r := by
  induction t with
  | nil => rfl
  | cons c t ih =>
    refine splitBr_cons (fun hp0 => ?_) (ih fun hi => h (hi.trans (List.suffix_cons c t).isInfix))
    have hp : "<br>".toList <+: c :: (t ++ "<br>".toList ++ r) := hp0
    clear hp0
    rw [show "<br>".toList = '<' :: 'b' :: 'r' :: '>' :: [] from rfl] at hp h
    rw [List.cons_prefix_cons] at hp
    obtain ⟨rfl, hp⟩ := hp
    clear ih
    rcases t with _ | ⟨a, _ | ⟨b, _ | ⟨d, t⟩⟩⟩
    · simp at hp
    · simp at hp
    · simp at hp
    · have hp : ['b', 'r', '>'] <+: a :: b :: d :: (t ++ ['<', 'b', 'r', '>'] ++ r) := hp
      rw [List.cons_prefix_cons, List.cons_prefix_cons, List.cons_prefix_cons] at hp
      obtain ⟨rfl, rfl, rfl, _⟩ := hp
      exact h ⟨[], t, rfl⟩

theorem splitBr_intercalate {ts : List Str} (h : ∀ t ∈ ts, ¬ "<br>".toList <:+: t) (hne : ts ≠ []) :
    splitBr ("<br>".toList.intercalate ts) = ts := by
  induction ts with
  | nil => exact absurd rfl hne
  | cons t ts ih =>
    cases ts with
    | nil => simpa [List.intercalate] using splitBr_text (h t (by simp))
    | cons u us =>
      rw [List.intercalate_cons_cons, splitBr_append (h t (by simp)), ih (fun t ht => h t (by simp [ht])) (by simp)]

end Verif.Lemmas
