import Verif.Lemmas.ReadSqueeze
/-!
# Reading lists
-/

namespace Verif
open Spec

/-! ## Markers -/

theorem digit_chars (n : Nat) : (∀ c ∈ Nat.toDigits 10 n, '0' ≤ c ∧ c ≤ '9') ∧ Nat.toDigits 10 n ≠ [] := by
  have key : ∀ m < 10, '0' ≤ Nat.digitChar m ∧ Nat.digitChar m ≤ '9' := by decide
  induction n using Nat.strongRecOn with
  | ind n ih =>
    by_cases h : n < 10
    · rw [Nat.toDigits_of_lt_base h]
      exact ⟨by simpa using key n h, by simp⟩
    · rw [Nat.toDigits_eq_if (by omega), if_neg h]
      obtain ⟨i1, i2⟩ := ih (n / 10) (by omega)
      refine ⟨?_, by simp⟩
      intro c hc
      simp only [List.mem_append, List.mem_singleton] at hc
      rcases hc with hc | rfl
      · exact i1 c hc
      · exact key _ (by omega)

theorem toString_digits (k : Nat) : (toString k).toList = Nat.toDigits 10 k := by simp [toString, Nat.repr]

theorem takeWhile_spaces {i : Nat} {x : Str} (hx : x.head? ≠ some ' ') :
    ((spaces i ++ x).takeWhile (· == ' ')).length = i := by
  rw [List.takeWhile_append_of_pos (by intro c hc; rw [(List.mem_replicate.mp hc).2]; rfl)]
  cases x with
  | nil => simp [spaces]
  | cons c x =>
    have : (c == ' ') = false := by simpa using hx
    rw [List.takeWhile_cons_of_neg (by simp [this])]
    simp [spaces]

theorem digitsOf_append {ds r : Str} (hd : ∀ c ∈ ds, '0' ≤ c ∧ c ≤ '9') (hr : ∀ c ∈ r.head?, ¬ ('0' ≤ c ∧ c ≤ '9')) :
    digitsOf (ds ++ r) = ds := by
  unfold digitsOf
  rw [List.takeWhile_append_of_pos (by intro c hc; simpa using hd c hc)]
  cases r with
  | nil => simp
  | cons c r => rw [List.takeWhile_cons_of_neg (by simpa using hr c (by simp))]; simp

/-- The first character of a marker. -/
theorem markerText_head (num : Option Nat) :
    ∃ c r, markerText num = c :: r ∧ (c = '-' ∨ ('0' ≤ c ∧ c ≤ '9')) ∧ (num = none → c = '-') ∧
      (c = '-' → num = none) := by
  cases num with
  | none => exact ⟨'-', [' '], rfl, .inl rfl, fun _ => rfl, fun _ => rfl⟩
  | some k =>
    obtain ⟨h1, h2⟩ := digit_chars k
    cases h : Nat.toDigits 10 k with
    | nil => exact absurd h h2
    | cons c r =>
      refine ⟨c, r ++ ". ".toList, by simp only [markerText, toString_digits, h]; rfl, .inr (h1 c (by simp [h])), (fun h => (by cases h)), ?_⟩
      rintro rfl
      exact absurd (h1 '-' (by simp [h])) (by decide)

theorem text_head {t : Str} (h : kindOf t = .text) : ∃ c r, t = c :: r ∧ gap c = false := by
  cases t with
  | nil => cases h
  | cons c r =>
    refine ⟨c, r, rfl, ?_⟩
    unfold kindOf at h
    repeat' split at h
    all_goals first | (cases h; done) | skip
    next hd =>
      cases hg : gap c with
      | false => rfl
      | true => simp [doubtful, gapFirst, hg] at hd

theorem marker_of {i : Nat} {num : Option Nat} {t : Str} (hi : i ≤ 3) (hw : (markerText num).length ≤ 11)
    (ht : t.head?.any gap = false) : marker (spaces i ++ (markerText num ++ t)) = some (i + (markerText num).length, num, t) := by
  obtain ⟨c, r, hm, hc, hn, hn'⟩ := markerText_head num
  have hsp : (markerText num ++ t).head? ≠ some ' ' := by
    rw [hm]
    simp only [List.cons_append, List.head?_cons, ne_eq, Option.some.injEq]
    rintro rfl
    revert hc
    decide
  unfold marker
  dsimp only
  rw [takeWhile_spaces hsp, if_neg (by omega)]
  have hdrop : (spaces i ++ (markerText num ++ t)).drop i = markerText num ++ t := by
    rw [List.drop_append_of_le_length (by simp [spaces])]
    simp [spaces]
  rw [hdrop]
  cases num with
  | none =>
    have hd : digitsOf (markerText none ++ t) = [] := by
      show digitsOf ([] ++ '-' :: ' ' :: t) = []
      exact digitsOf_append (by simp) (by simp)
    rw [hd]
    have e : (markerText none ++ t).drop ([] : Str).length = '-' :: ' ' :: t := rfl
    rw [e]
    split
    next a content heq =>
      cases heq
      rw [ht, if_neg (by simp), if_pos ⟨rfl, rfl⟩]
      rfl
    next hno => exact absurd rfl (hno _ _)
  | some k =>
    obtain ⟨h1, h2⟩ := digit_chars k
    have e : markerText (some k) ++ t = Nat.toDigits 10 k ++ '.' :: ' ' :: t := by
      simp only [markerText, toString_digits, List.append_assoc]; rfl
    have hd : digitsOf (markerText (some k) ++ t) = Nat.toDigits 10 k := by
      rw [e]
      exact digitsOf_append h1 (by simp)
    rw [hd, e, List.drop_left]
    have hl : (markerText (some k)).length = (Nat.toDigits 10 k).length + 2 := by
      simp only [markerText, toString_digits, List.length_append]; rfl
    rw [hl] at hw
    have hpos : 1 ≤ (Nat.toDigits 10 k).length := List.length_pos_iff.mpr h2
    split
    next a content heq =>
      cases heq
      rw [ht, hl, if_neg (by simp), if_neg (by rintro ⟨h, _⟩; exact h2 h), if_pos ⟨hpos, by omega, rfl⟩,
        Nat.ofDigitChars_ten_toDigits]
      simp [Nat.add_assoc]
    next hno => exact absurd rfl (hno _ _)

theorem text_not_dashes {t : Str} (h : kindOf t = .text) : ∃ c ∈ t, gap c = false ∧ c ≠ '-' := by
  unfold kindOf at h
  repeat' split at h
  all_goals first | (cases h; done) | skip
  next hd =>
    by_contra hcon
    apply hd
    unfold doubtful
    have : t.all (fun c => gap c || "|-:=".toList.contains c) = true := by
      rw [List.all_eq_true]
      intro c hc
      cases hg : gap c with
      | true => rfl
      | false =>
        have : c = '-' := by
          by_contra hne
          exact hcon ⟨c, hc, hg, hne⟩
        rw [this]
        decide
    rw [this]
    simp only [Bool.or_true, Bool.true_or]

theorem kindOf_item {i : Nat} {num : Option Nat} {t : Str} (hi : i ≤ 3) (hw : (markerText num).length ≤ 11)
    (ht : t = [] ∨ kindOf t = .text) : kindOf (spaces i ++ (markerText num ++ t)) = .item := by
  obtain ⟨c, r, hm, hc, hn, hn'⟩ := markerText_head num
  have hgap : t.head?.any gap = false := by
    rcases ht with rfl | ht
    · rfl
    · obtain ⟨d, s, rfl, hd⟩ := text_head ht
      simpa using hd
  have hmk := marker_of (num := num) hi hw hgap
  have hcg : gap c = false := by
    rcases hc with rfl | hc
    · decide
    · cases hg : gap c with
      | false => rfl
      | true =>
        simp only [gap, Bool.or_eq_true, beq_iff_eq] at hg
        rcases hg with rfl | rfl <;> revert hc <;> decide
  have hbreak : (spaces i ++ (markerText num ++ t)).any lineBreak = false := by
    rw [List.any_append, List.any_append]
    have h1 : (spaces i).any lineBreak = false := by
      rw [List.any_eq_false]
      intro c hc
      rw [(List.mem_replicate.mp hc).2]
      decide
    have h2 : (markerText num).any lineBreak = false := by
      rw [List.any_eq_false]
      intro c hc
      cases num with
      | none =>
        have : c = '-' ∨ c = ' ' := by simpa [markerText] using hc
        rcases this with rfl | rfl <;> decide
      | some k =>
        simp only [markerText, toString_digits, List.mem_append] at hc
        rcases hc with hc | hc
        · have := (digit_chars k).1 c hc
          have hlo : 48 ≤ c.toNat := this.1
          have hhi : c.toNat ≤ 57 := this.2
          simp [lineBreak, breakCodes]
          omega
        · have : c = '.' ∨ c = ' ' := by simpa using hc
          rcases this with rfl | rfl <;> decide
    have h3 : t.any lineBreak = false := by
      rcases ht with rfl | ht
      · rfl
      · exact kindOf_noBreak (by rw [ht]; decide)
    rw [h1, h2, h3]
    rfl
  have hcm : c ∈ spaces i ++ (markerText num ++ t) := by rw [hm]; simp
  have hblank : blankLine (spaces i ++ (markerText num ++ t)) = false := by
    rw [Bool.eq_false_iff]
    intro hb
    have := List.all_eq_true.mp hb c hcm
    rw [show (c == ' ' || c == '\t') = gap c from rfl, hcg] at this
    cases this
  have hrule : ruleChars (spaces i ++ (markerText num ++ t)) = false := by
    unfold ruleChars
    dsimp only
    rw [Bool.eq_false_iff]
    intro h
    simp only [Bool.and_eq_true, decide_eq_true_eq, Bool.or_eq_true] at h
    obtain ⟨hlen, hall⟩ := h
    have hcf : c ∈ (spaces i ++ (markerText num ++ t)).filter (fun c => !gap c) :=
      List.mem_filter.mpr ⟨hcm, by simp [hcg]⟩
    have hdash : (List.filter (fun c => !gap c) (spaces i ++ (markerText num ++ t))).all (· == '-') = true := by
      rcases hall with (h | h) | h
      · exact h
      · have := List.all_eq_true.mp h c hcf
        simp only [beq_iff_eq] at this
        subst this; exact absurd hc (by decide)
      · have := List.all_eq_true.mp h c hcf
        simp only [beq_iff_eq] at this
        subst this; exact absurd hc (by decide)
    have hcd : c = '-' := by simpa using List.all_eq_true.mp hdash c hcf
    have hnum := hn' hcd
    subst hnum
    rcases ht with rfl | ht
    · have : (spaces i ++ (markerText none ++ [])).filter (fun c => !gap c) = ['-'] := by
        rw [List.filter_append]
        have : (spaces i).filter (fun c => !gap c) = [] := by
          rw [List.filter_eq_nil_iff]
          intro c hc
          rw [(List.mem_replicate.mp hc).2]
          decide
        rw [this]
        rfl
      rw [this] at hlen
      simp at hlen
    · obtain ⟨d, hd, hg, hne⟩ := text_not_dashes ht
      have : d ∈ (spaces i ++ (markerText none ++ t)).filter (fun c => !gap c) :=
        List.mem_filter.mpr ⟨by simp [hd], by simp [hg]⟩
      have := List.all_eq_true.mp hdash d this
      simp at this
      exact hne this
  -- the first character
  obtain ⟨a, s, ha, has⟩ : ∃ a s, spaces i ++ (markerText num ++ t) = a :: s ∧ (a = ' ' ∨ a = c) := by
    cases i with
    | zero => exact ⟨c, r ++ t, by rw [hm]; rfl, .inr rfl⟩
    | succ j => exact ⟨' ', spaces j ++ (markerText num ++ t), rfl, .inl rfl⟩
  have hne : a ≠ '#' ∧ a ≠ '`' ∧ a ≠ '>' := by
    rcases has with rfl | rfl
    · decide
    · refine ⟨?_, ?_, ?_⟩ <;> (rintro rfl; revert hc; decide)
  have hhead : headingStart (a :: s) = false := by
    unfold headingStart
    have : (a == '#') = false := by simpa using hne.1
    simp [this]
  have hfence : "```".toList.isPrefixOf (a :: s) = false := by
    rw [show "```".toList = '`' :: "``".toList from rfl, List.isPrefixOf]
    have : ('`' == a) = false := by simpa using fun h : '`' = a => hne.2.1 h.symm
    rw [this]
    rfl
  unfold kindOf
  rw [hblank, hbreak, hrule, hmk]
  rw [ha] at *
  rw [hhead, hfence]
  have : ((a :: s).head? == some '>') = false := by simpa using hne.2.2
  rw [this]
  rfl

/-! ## Lines that continue a paragraph -/

theorem text_marker {t : Str} (h : kindOf t = .text) : marker t = none := by
  unfold kindOf at h
  repeat' split at h
  all_goals first | (cases h; done) | skip
  next hm _ => simpa using hm

theorem dropWhile_spaces {x : Str} (k : Nat) (hx : x.head? ≠ some ' ') : (spaces k ++ x).dropWhile (· == ' ') = x := by
  rw [List.dropWhile_append_of_pos (by intro c hc; rw [(List.mem_replicate.mp hc).2]; rfl)]
  cases x with
  | nil => rfl
  | cons c x =>
    have : (c == ' ') = false := by simpa using hx
    rw [List.dropWhile_cons_of_neg (by simp [this])]

theorem text_noSpace {t : Str} (h : kindOf t = .text) : t.head? ≠ some ' ' := by
  obtain ⟨c, r, rfl, hg⟩ := text_head h
  simp only [List.head?_cons, ne_eq, Option.some.injEq]
  rintro rfl
  cases hg

theorem innermost_text {t : Str} (n : Nat) (h : kindOf t = .text) : innermost n t = t := by
  have hd : t.dropWhile (· == ' ') = t := by
    have := dropWhile_spaces 0 (text_noSpace h)
    rwa [show spaces 0 ++ t = t from rfl] at this
  cases n with
  | zero => exact hd
  | succ n =>
    unfold innermost
    rw [hd, text_marker h]

theorem innermost_nil (n : Nat) : innermost n [] = [] := by
  cases n <;> rfl

theorem markerText_noSpace (num : Option Nat) (t : Str) : (markerText num ++ t).head? ≠ some ' ' := by
  obtain ⟨c, r, hm, hc, _, _⟩ := markerText_head num
  rw [hm]
  simp only [List.cons_append, List.head?_cons, ne_eq, Option.some.injEq]
  rintro rfl
  exact absurd hc (by decide)

theorem innermost_item {num : Option Nat} {t : Str} (k n : Nat) (hw : (markerText num).length ≤ 11) (ht : t = [] ∨ kindOf t = .text) :
    innermost (n + 1) (spaces k ++ (markerText num ++ t)) = t := by
  have hg : t.head?.any gap = false := by
    rcases ht with rfl | ht
    · rfl
    · obtain ⟨d, s, rfl, hd⟩ := text_head ht
      simpa using hd
  have hm := marker_of (i := 0) (by omega) hw hg
  rw [show spaces 0 ++ (markerText num ++ t) = markerText num ++ t from rfl] at hm
  unfold innermost
  rw [dropWhile_spaces k (markerText_noSpace num t), hm]
  rcases ht with rfl | ht
  · exact innermost_nil n
  · exact innermost_text n ht

/-- A line of a list: whether it is put at the left margin in any case, and the line. -/
abbrev Line := Bool × Str

/-- The line of a list that is indented by `i`. -/
def place (i : Nat) (p : Line) : Str := if p.1 then p.2 else spaces i ++ p.2

def places (i : Nat) (T : List Line) : List Str := T.map (place i)

/-- The line of a nested list. -/
def shift (p : Line) : Line := (p.1, if p.1 then p.2 else spaces 4 ++ p.2)

/-- A line of text, or an item. -/
def Calm (p : Line) : Prop :=
  (p.1 = true ∧ kindOf p.2 = .text) ∨
  (p.1 = false ∧ ∃ k num t, p.2 = spaces k ++ (markerText num ++ t) ∧ (markerText num).length ≤ 11 ∧ (t = [] ∨ kindOf t = .text))

/-- A line with text. -/
def Full (p : Line) : Prop :=
  (p.1 = true ∧ kindOf p.2 = .text) ∨
  (p.1 = false ∧ ∃ k num t, p.2 = spaces k ++ (markerText num ++ t) ∧ (markerText num).length ≤ 11 ∧ kindOf t = .text)

theorem spaces_add (i k : Nat) (x : Str) : spaces i ++ (spaces k ++ x) = spaces (i + k) ++ x := by
  simp only [spaces, ← List.append_assoc, List.replicate_append_replicate]

theorem Calm.shift {p : Line} (h : Calm p) : Calm (shift p) := by
  rcases h with ⟨h1, h2⟩ | ⟨h1, k, num, t, h2, h3⟩
  · exact .inl ⟨h1, by simp [Verif.shift, h1, h2]⟩
  · exact .inr ⟨h1, 4 + k, num, t, by simp only [Verif.shift, h1, h2, Bool.false_eq_true, if_false]; exact spaces_add 4 k _, h3⟩

theorem Full.shift {p : Line} (h : Full p) : Full (shift p) := by
  rcases h with ⟨h1, h2⟩ | ⟨h1, k, num, t, h2, h3⟩
  · exact .inl ⟨h1, by simp [Verif.shift, h1, h2]⟩
  · exact .inr ⟨h1, 4 + k, num, t, by simp only [Verif.shift, h1, h2, Bool.false_eq_true, if_false]; exact spaces_add 4 k _, h3⟩

theorem item_pos (k : Nat) (num : Option Nat) (t : Str) : ∃ n, (spaces k ++ (markerText num ++ t)).length = n + 1 := by
  obtain ⟨c, r, hm, _⟩ := markerText_head num
  refine ⟨(spaces k ++ (r ++ t)).length, ?_⟩
  rw [hm]
  simp only [List.length_append, List.length_cons, List.cons_append]
  omega

theorem Full.prose {p : Line} (h : Full p) (i : Nat) : prose (place i p) := by
  unfold Spec.prose place
  rcases h with ⟨h1, h2⟩ | ⟨h1, k, num, t, h2, h3, h4⟩
  · rw [h1, if_pos rfl, innermost_text _ h2, h2]
  · obtain ⟨n, hn⟩ := item_pos (i + k) num t
    rw [h1, if_neg (by simp), h2, spaces_add, hn, innermost_item _ _ h3 (.inr h4), h4]

theorem Calm.calm {p : Line} (h : Calm p) (i : Nat) :
    Spec.prose (place i p) ∨ blankLine (innermost (place i p).length (place i p)) = true := by
  rcases h with h | ⟨h1, k, num, t, h2, h3, h4⟩
  · exact .inl (Full.prose (.inl h) i)
  · rcases h4 with rfl | h4
    · right
      obtain ⟨n, hn⟩ := item_pos (i + k) num []
      unfold place
      rw [h1, if_neg (by simp), h2, spaces_add, hn, innermost_item _ _ h3 (.inl rfl)]
      rfl
    · exact .inl (Full.prose (.inr ⟨h1, k, num, t, h2, h3, h4⟩) i)

theorem markerText_two (num : Option Nat) : 2 ≤ (markerText num).length := by
  cases num with
  | none => decide
  | some k => simp only [markerText, List.length_append]; exact Nat.le_add_left 2 _

theorem blankLine_marker (num : Option Nat) (t : Str) : blankLine (markerText num ++ t) = false := by
  obtain ⟨c, r, hm, hc, _, _⟩ := markerText_head num
  rw [hm]
  simp only [blankLine, List.cons_append, List.all_cons]
  have : (c == ' ' || c == '\t') = false := by
    rw [Bool.eq_false_iff]
    intro h
    simp only [Bool.or_eq_true, beq_iff_eq] at h
    rcases h with rfl | rfl <;> exact absurd hc (by decide)
  rw [this, Bool.false_and]

theorem Calm.nonblank {p : Line} (h : Calm p) (i : Nat) : blankLine (place i p) = false := by
  unfold place
  rcases h with ⟨h1, h2⟩ | ⟨h1, k, num, t, h2, h3, h4⟩
  · rw [h1, if_pos rfl]; exact kind_nonblank h2 (by decide)
  · rw [h1, if_neg (by simp), h2, spaces_add, blankLine_spaces, blankLine_marker]

theorem text_flush {l : Str} (h : kindOf l = .text) : (l.takeWhile (· == ' ')).length < 1 := by
  obtain ⟨c, r, rfl, hg⟩ := text_head h
  have : (c == ' ') = false := by
    simp only [gap, Bool.or_eq_false_iff] at hg
    exact hg.1
  simp [this]

theorem unindent_place {w i : Nat} {p : Line} (h : Calm p) (hw : 1 ≤ w) (hi : w ≤ i) : unindent w (place i p) = place (i - w) p := by
  unfold place unindent
  rcases h with ⟨h1, h2⟩ | ⟨h1, _⟩
  · have := text_flush h2
    rw [h1, if_pos rfl, if_pos rfl, if_neg (by omega)]
  · simp only [h1, Bool.false_eq_true, if_false]
    rw [if_pos (Nat.le_trans hi (leading_spaces i p.2)),
      List.drop_append_of_le_length (by simpa [spaces] using hi)]
    simp [spaces]

/-- Lines that may be lazy follow lines with text. -/
theorem lazies_places {w i : Nat} (hw : 1 ≤ w) (hi : w ≤ i) {T : List Line} (hc : ∀ p ∈ T, Calm p)
    (hch : T.IsChain fun a b => b.1 = true → Full a) :
    ∀ before : List Str, (∀ l ∈ before, Spec.prose l ∨ blankLine (innermost l.length l) = true) →
      (∀ p ∈ T.head?, p.1 = true → ∀ l ∈ before.getLast?, Spec.prose l) → lazies w before (places i T) := by
  induction T with
  | nil => intro _ _ _; trivial
  | cons p T ih =>
    intro before hb hl
    have hp := hc p (by simp)
    refine ⟨?_, ?_⟩
    · intro hlt
      rcases hp with ⟨h1, h2⟩ | ⟨h1, _⟩
      · refine ⟨by simpa [place, h1] using h2, hb, hl p (by simp) h1⟩
      · have : w ≤ ((place i p).takeWhile (· == ' ')).length := by
          unfold place
          rw [h1, if_neg (by simp)]
          exact Nat.le_trans hi (leading_spaces i p.2)
        exact absurd this (by omega)
    · have e := unindent_place hp hw hi
      refine ih (fun q hq => hc q (by simp [hq])) hch.tail _ ?_ ?_
      · intro l hl
        rcases List.mem_append.mp hl with hl | hl
        · exact hb l hl
        · rw [List.mem_singleton.mp hl, e]
          exact hp.calm _
      · intro q hq hq1 l hl
        rw [List.getLast?_append_of_ne_nil _ (by simp)] at hl
        simp only [List.getLast?_singleton, Option.mem_def, Option.some.injEq] at hl
        rw [← hl, e]
        cases T with
        | nil => cases hq
        | cons r T =>
          simp only [List.head?_cons, Option.mem_def, Option.some.injEq] at hq
          subst hq
          exact ((List.isChain_cons_cons.mp hch).1 hq1).prose _

/-! ## The lines of a list -/

/-- Lines of text at the left margin. -/
def margin (ts : List Str) : List Line := ts.map fun t => (true, t)

/-- Lines of a list, and the items that they stand for. -/
inductive Lay : Option Nat → List Line → List (List Block) → Prop where
  | nil {num : Option Nat} : Lay num [] []
  | blank {num : Option Nat} {T : List Line} {items : List (List Block)} (hw : (markerText num).length ≤ 11)
      (h : Lay (num.map (· + 1)) T items) : Lay num ((false, markerText num) :: T) ([] :: items)
  | line {num : Option Nat} {t : Str} {ts : List Str} {T : List Line} {items : List (List Block)} (hw : (markerText num).length ≤ 11)
      (ht : ∀ l ∈ t :: ts, kindOf l = .text) (h : Lay (num.map (· + 1)) T items) :
      Lay num ((false, markerText num ++ t) :: (margin ts ++ T)) ([.para (t :: ts)] :: items)
  | nest {num : Option Nat} {t : Str} {ts : List Str} {S T : List Line} {items sub : List (List Block)} (hw : (markerText num).length ≤ 4)
      (ht : ∀ l ∈ t :: ts, kindOf l = .text) (hne : sub ≠ []) (hf : ∀ b ∈ sub.head?, b ≠ []) (hsub : Lay (num.map fun _ => 1) S sub)
      (h : Lay (num.map (· + 1)) T items) :
      Lay num ((false, markerText num ++ t) :: (margin ts ++ S.map shift ++ T))
        ([.para (t :: ts), listBlock (num.map fun _ => 1) sub] :: items)

theorem lay_head {num : Option Nat} {T : List Line} {items : List (List Block)} (h : Lay num T items) :
    ∀ p ∈ T.head?, ∃ t, p = (false, markerText num ++ t) ∧ (markerText num).length ≤ 11 ∧ (t = [] ∨ kindOf t = .text) ∧
      ((∀ b ∈ items.head?, b ≠ []) → t ≠ []) := by
  intro x hx
  cases h with
  | nil => cases hx
  | blank hw h =>
    simp only [List.head?_cons, Option.mem_def, Option.some.injEq] at hx
    exact ⟨[], by simp [← hx], hw, .inl rfl, fun hb => absurd rfl (hb [] (by simp))⟩
  | line hw ht h =>
    simp only [List.head?_cons, Option.mem_def, Option.some.injEq] at hx
    exact ⟨_, hx.symm, hw, .inr (ht _ (by simp)), fun _ => kind_ne (ht _ (by simp)) (by decide)⟩
  | nest hw ht _ _ _ h =>
    simp only [List.head?_cons, Option.mem_def, Option.some.injEq] at hx
    exact ⟨_, hx.symm, by omega, .inr (ht _ (by simp)), fun _ => kind_ne (ht _ (by simp)) (by decide)⟩

theorem lay_nil {num : Option Nat} {T : List Line} {items : List (List Block)} (h : Lay num T items) :
    T = [] ↔ items = [] := by cases h <;> simp

theorem margin_calm {ts : List Str} (h : ∀ l ∈ ts, kindOf l = .text) : ∀ p ∈ margin ts, Full p := by
  intro p hp
  obtain ⟨t, ht, rfl⟩ := List.mem_map.mp hp
  exact .inl ⟨rfl, h t ht⟩

theorem Full.calm {p : Line} (h : Full p) : Calm p := by
  rcases h with h | ⟨h1, k, num, t, h2, h3, h4⟩
  · exact .inl h
  · exact .inr ⟨h1, k, num, t, h2, h3, .inr h4⟩

theorem full_item {num : Option Nat} {t : Str} (hw : (markerText num).length ≤ 11) (ht : kindOf t = .text) :
    Full (false, markerText num ++ t) := .inr ⟨rfl, 0, num, t, rfl, hw, ht⟩

/-- Lines with text, then lines that begin with an item. -/
theorem chain_full {a b : List Line} (ha : ∀ p ∈ a, Full p) (hb : b.IsChain fun a b => b.1 = true → Full a)
    (hh : ∀ p ∈ b.head?, p.1 = false) : (a ++ b).IsChain fun a b => b.1 = true → Full a := by
  rw [List.isChain_append]
  refine ⟨?_, hb, ?_⟩
  · induction a with
    | nil => simp
    | cons x a ih =>
      cases a with
      | nil => simp
      | cons y a =>
        rw [List.isChain_cons_cons]
        exact ⟨fun _ => ha x (by simp), ih (fun p hp => ha p (by simp [hp]))⟩
  · intro x _ y hy hy1
    rw [hh y hy] at hy1
    cases hy1

theorem chain_any {a b : List Line} (ha : a.IsChain fun a b => b.1 = true → Full a) (hb : b.IsChain fun a b => b.1 = true → Full a)
    (hh : ∀ p ∈ b.head?, p.1 = false) : (a ++ b).IsChain fun a b => b.1 = true → Full a := by
  rw [List.isChain_append]
  refine ⟨ha, hb, ?_⟩
  intro x _ y hy hy1
  rw [hh y hy] at hy1
  cases hy1

theorem chain_shift {S : List Line} (h : S.IsChain fun a b => b.1 = true → Full a) :
    (S.map shift).IsChain fun a b => b.1 = true → Full a := by
  rw [List.isChain_map]
  exact h.imp fun a b hab hb => (hab hb).shift

theorem head_shift {S : List Line} (h : ∀ p ∈ S.head?, p.1 = false) : ∀ p ∈ (S.map shift).head?, p.1 = false := by
  intro p hp
  cases S with
  | nil => cases hp
  | cons q S =>
    simp only [List.map_cons, List.head?_cons, Option.mem_def, Option.some.injEq] at hp
    rw [← hp]
    exact h q (by simp)

theorem lay_flat {num : Option Nat} {T : List Line} {items : List (List Block)} (h : Lay num T items) :
    ∀ p ∈ T.head?, p.1 = false := by
  intro p hp
  obtain ⟨t, rfl, _⟩ := lay_head h p hp
  rfl

theorem lay_calm {num : Option Nat} {T : List Line} {items : List (List Block)} (h : Lay num T items) :
    (∀ p ∈ T, Calm p) ∧ T.IsChain fun a b => b.1 = true → Full a := by
  induction h with
  | nil => exact ⟨by simp, by simp⟩
  | @blank num _ _ hw h ih =>
    refine ⟨?_, chain_any (a := [_]) (by simp) ih.2 (lay_flat h)⟩
    intro p hp
    rcases List.mem_cons.mp hp with rfl | hp
    · exact .inr ⟨rfl, 0, num, [], by simp [spaces], hw, .inl rfl⟩
    · exact ih.1 p hp
  | @line num t ts T items hw ht h ih =>
    have hf : ∀ p ∈ (false, markerText num ++ t) :: margin ts, Full p := by
      intro p hp
      rcases List.mem_cons.mp hp with rfl | hp
      · exact full_item hw (ht t (by simp))
      · exact margin_calm (fun l hl => ht l (by simp [hl])) p hp
    refine ⟨?_, chain_full (a := (false, markerText num ++ t) :: margin ts) hf ih.2 (lay_flat h)⟩
    intro p hp
    rw [← List.cons_append] at hp
    rcases List.mem_append.mp hp with hp | hp
    · exact (hf p hp).calm
    · exact ih.1 p hp
  | @nest num t ts S T items sub hw ht _ _ hsub h ih1 ih =>
    have hf : ∀ p ∈ (false, markerText num ++ t) :: margin ts, Full p := by
      intro p hp
      rcases List.mem_cons.mp hp with rfl | hp
      · exact full_item (by omega) (ht t (by simp))
      · exact margin_calm (fun l hl => ht l (by simp [hl])) p hp
    refine ⟨?_, ?_⟩
    · intro p hp
      rw [← List.cons_append, ← List.cons_append] at hp
      rcases List.mem_append.mp hp with hp | hp
      · rcases List.mem_append.mp hp with hp | hp
        · exact (hf p hp).calm
        · obtain ⟨q, hq, rfl⟩ := List.mem_map.mp hp
          exact (ih1.1 q hq).shift
      · exact ih.1 p hp
    · rw [← List.cons_append, ← List.cons_append]
      exact chain_any (chain_full hf (chain_shift ih1.2) (head_shift (lay_flat hsub))) ih.2 (lay_flat h)

theorem lay_nonblank {num : Option Nat} {T : List Line} {items : List (List Block)} (h : Lay num T items) (i : Nat) :
    ∀ x ∈ places i T, blankLine x = false := by
  intro x hx
  obtain ⟨p, hp, rfl⟩ := List.mem_map.mp hx
  exact ((lay_calm h).1 p hp).nonblank i

theorem places_append (i : Nat) (a b : List Line) : places i (a ++ b) = places i a ++ places i b := List.map_append

theorem places_margin (i : Nat) (ts : List Str) : places i (margin ts) = ts := by
  unfold places margin
  rw [List.map_map]
  exact List.map_id ts

theorem addItem_new {num : Option Nat} {it : List Block} {x : List (List Block)} {cs : List Block}
    (h : ∀ c ∈ cs.head?, sameList (listBlock num x) c = false) : addItem num it cs = listBlock num [it] :: cs := by
  cases num <;> cases cs with
  | nil => rfl
  | cons c cs =>
    have := h c (by simp)
    cases c <;> first | rfl | (cases this)

theorem addItem_old {num : Option Nat} {it : List Block} {items : List (List Block)} {cs : List Block} :
    addItem num it (listBlock (num.map (· + 1)) items :: cs) = listBlock num (it :: items) :: cs := by
  cases num <;> rfl

theorem sameList_listBlock (num num' : Option Nat) (x y : List (List Block)) (c : Block) (h : num.isSome = num'.isSome) :
    sameList (listBlock num x) c = sameList (listBlock num' y) c := by
  cases num <;> cases num' <;> first | (cases h; done) | (cases c <;> rfl)

theorem outdented_mono {w v : Nat} {rest : List Str} (h : outdented w rest) (hv : w ≤ v) : outdented v rest :=
  fun r hr => Nat.lt_of_lt_of_le (h r hr) hv

theorem headBlank_kind {rest : List Str} (h : headBlank rest = true) : ∀ r ∈ rest.head?, kindOf r = .blank := by
  intro r hr
  cases rest with
  | nil => cases hr
  | cons x rest =>
    simp only [List.head?_cons, Option.mem_def, Option.some.injEq] at hr
    subst hr
    exact kindOf_blank.mpr h

/-- One item, when the rest of the list is read. -/
theorem item_step {num : Option Nat} {t : Str} {ts : List Str} {S T : List Line} {rest : List Str} {it : List Block}
    {items : List (List Block)}
    {cs : List Block} {i : Nat} (hi : i ≤ 3) (hw : (markerText num).length ≤ 11) (ht : t = [] ∨ kindOf t = .text)
    (hts : ∀ l ∈ ts, kindOf l = .text) (hne : t = [] → ts = [] ∧ S = [])
    (hS : S ≠ [] → (markerText num).length ≤ 4) (hSc : ∀ p ∈ S, Calm p) (hSh : ∀ p ∈ S.head?, p.1 = false)
    (hSch : S.IsChain fun a b => b.1 = true → Full a)
    (hin : Reads (t :: (ts ++ places (4 - (markerText num).length) S)) it) (hT : Lay (num.map (· + 1)) T items)
    (hb : headBlank rest = true) (ho : outdented 1 rest) (hr : Reads rest cs)
    (hc : ∀ c ∈ cs.head?, sameList (listBlock num items) c = false)
    (ih : items ≠ [] → Reads (places i T ++ rest) (listBlock (num.map (· + 1)) items :: cs)) :
    Reads (places i ((false, markerText num ++ t) :: (margin ts ++ S.map shift ++ T)) ++ rest)
      (listBlock num (it :: items) :: cs) := by
  have hg : t.head?.any gap = false := by
    rcases ht with rfl | ht
    · rfl
    · obtain ⟨d, s, rfl, hd⟩ := text_head ht
      simpa using hd
  have hw2 := markerText_two num
  -- the lines of the item, seen from its content
  have eS : places i (S.map shift) = places (i + 4) S := by
    unfold places
    rw [List.map_map]
    refine List.map_congr_left fun p _ => ?_
    obtain ⟨z, x⟩ := p
    cases z with
    | true => rfl
    | false => exact spaces_add i 4 x
  have eU : (ts ++ places (i + 4) S).map (unindent (i + (markerText num).length)) =
      ts ++ places (4 - (markerText num).length) S := by
    rw [List.map_append]
    congr 1
    · conv_rhs => rw [← List.map_id ts]
      refine List.map_congr_left fun x hx => ?_
      have := text_flush (hts x hx)
      unfold unindent
      rw [if_neg (by omega)]
      rfl
    · by_cases hSn : S = []
      · rw [hSn]; rfl
      · have := hS hSn
        unfold places
        rw [List.map_map]
        refine List.map_congr_left fun p hp => ?_
        rw [Function.comp, unindent_place (hSc p hp) (by omega) (by omega)]
        congr 1
        omega
  have hL : lazies (i + (markerText num).length) [t] (ts ++ places (i + 4) S) := by
    by_cases hSn : S = []
    · subst hSn
      by_cases htn : t = []
      · rw [(hne htn).1]
        trivial
      have htx := ht.resolve_left htn
      have := lazies_places (w := i + (markerText num).length) (i := i + (markerText num).length) (by omega) (Nat.le_refl _)
        (T := margin ts) (fun p hp => (margin_calm hts p hp).calm)
        (by simpa using chain_full (b := []) (margin_calm hts) (by simp) (by simp)) [t]
        (by intro l hl; rw [List.mem_singleton.mp hl]; exact .inl (Full.prose (p := (true, t)) (.inl ⟨rfl, htx⟩) 0))
        (by intro _ _ _ l hl; cases hl; exact Full.prose (p := (true, t)) (.inl ⟨rfl, htx⟩) 0)
      rw [places_margin] at this
      simpa [places] using this
    · have htn : t ≠ [] := fun e => hSn (hne e).2
      have htx := ht.resolve_left htn
      have := hS hSn
      have := lazies_places (w := i + (markerText num).length) (i := i + 4) (by omega) (by omega)
        (T := margin ts ++ S) (by
          intro p hp
          rcases List.mem_append.mp hp with hp | hp
          · exact (margin_calm hts p hp).calm
          · exact hSc p hp)
        (chain_full (margin_calm hts) hSch hSh) [t]
        (by intro l hl; rw [List.mem_singleton.mp hl]; exact .inl (Full.prose (p := (true, t)) (.inl ⟨rfl, htx⟩) 0))
        (by intro _ _ _ l hl; cases hl; exact Full.prose (p := (true, t)) (.inl ⟨rfl, htx⟩) 0)
      rwa [places_append, places_margin] at this
  have hhead : ∀ x ∈ (places i T).head?, kindOf x = .item ∧ blankLine x = false ∧
      (x.takeWhile (· == ' ')).length = i := by
    intro x hx
    cases T with
    | nil => cases hx
    | cons y T =>
      obtain ⟨u, rfl, h1, h2, _⟩ := lay_head hT y (by simp)
      have e : x = spaces i ++ (markerText (num.map (· + 1)) ++ u) := by
        simpa [places, place] using hx.symm
      subst e
      have hk := kindOf_item (num := num.map (· + 1)) hi h1 h2
      exact ⟨hk, kind_nonblank hk (by decide), takeWhile_spaces (markerText_noSpace _ _)⟩
  have hrest : Reads (places i T ++ rest)
      (if items = [] then cs else listBlock (num.map (· + 1)) items :: cs) := by
    split
    next h0 =>
      rw [(lay_nil hT).mpr h0]
      exact hr
    next h0 => exact ih h0
  have hadd : addItem num it (if items = [] then cs else listBlock (num.map (· + 1)) items :: cs) =
      listBlock num (it :: items) :: cs := by
    split
    next h0 => rw [h0]; exact addItem_new (x := items) hc
    next h0 => exact addItem_old
  have e : places i ((false, markerText num ++ t) :: (margin ts ++ S.map shift ++ T)) ++ rest =
      (spaces i ++ (markerText num ++ t)) :: ((ts ++ places (i + 4) S) ++ (places i T ++ rest)) := by
    rw [← eS]
    have := places_margin i ts
    simp only [places] at this
    simp [places, place, this]
  rw [e, ← hadd]
  refine .item (kindOf_item hi hw ht) (marker_of hi hw hg) ?_ hL ?_ ?_ ?_ (by rw [eU]; exact hin) hrest
  · intro x hx
    rcases List.mem_append.mp hx with hx | hx
    · exact kind_nonblank (hts x hx) (by decide)
    · obtain ⟨p, hp, rfl⟩ := List.mem_map.mp hx
      exact (hSc p hp).nonblank _
  · intro h0
    obtain ⟨h1, h2⟩ := hne h0
    rw [h1, h2]
    rfl
  · intro r hr'
    cases T with
    | nil => rw [headBlank_kind hb r hr']; decide
    | cons y T => rw [(hhead r hr').1]; decide
  · intro r hr'
    cases T with
    | nil => exact outdented_mono ho (by omega) r hr'
    | cons y T =>
      have := hhead (place i y) (by simp [places])
      rw [places, List.map_cons, List.cons_append, List.find?_cons_of_pos (by simp [this.2.1])] at hr'
      cases hr'
      omega

theorem lay_reads {num : Option Nat} {T : List Line} {items : List (List Block)} (h : Lay num T items) :
    ∀ (i : Nat) (rest : List Str) (cs : List Block), i ≤ 3 → items ≠ [] → headBlank rest = true → outdented 1 rest →
      Reads rest cs → (∀ c ∈ cs.head?, sameList (listBlock num items) c = false) →
      Reads (places i T ++ rest) (listBlock num items :: cs) := by
  have hb0 : headBlank [] = true := rfl
  have ho0 : outdented 1 [] := by intro r hr; cases hr
  induction h with
  | nil => intro i rest cs hi hne; exact absurd rfl hne
  | @blank num T items hw h ih =>
    intro i rest cs hi _ hb ho hr hc
    have hc' : ∀ c ∈ cs.head?, sameList (listBlock num items) c = false := fun c hm => by
      rw [sameList_listBlock num num items ([] :: items) c rfl]; exact hc c hm
    have := item_step (ts := []) (S := []) (it := []) hi hw (.inl rfl) (by simp) (by simp) (by simp) (by simp) (by simp) (by simp)
      (.blank (by rfl) .nil) h hb ho hr hc'
      (fun hne => ih i rest cs hi hne hb ho hr fun c hm => by
        rw [sameList_listBlock _ num items items c (by cases num <;> rfl)]; exact hc' c hm)
    rwa [List.append_nil] at this
  | @line num t ts T items hw ht h ih =>
    intro i rest cs hi _ hb ho hr hc
    have hc' : ∀ c ∈ cs.head?, sameList (listBlock num items) c = false := fun c hm => by
      rw [sameList_listBlock num num items ([.para (t :: ts)] :: items) c rfl]; exact hc c hm
    have := item_step (t := t) (ts := ts) (S := []) hi hw (.inr (ht t (by simp))) (fun l hl => ht l (by simp [hl]))
      (fun e => absurd e (kind_ne (ht t (by simp)) (by decide))) (by simp) (by simp) (by simp) (by simp)
      (by
        have := Reads.para (ps := t :: ts) (ls := []) (by simp) ht (by intro r hr; cases hr) .nil
        simpa [places] using this) h hb ho hr hc'
      (fun hne => ih i rest cs hi hne hb ho hr fun c hm => by
        rw [sameList_listBlock _ num items items c (by cases num <;> rfl)]; exact hc' c hm)
    rwa [List.map_nil, List.append_nil] at this
  | @nest num t ts S T items sub hw ht hne hf hsub h ihs ih =>
    intro i rest cs hi _ hb ho hr hc
    have hc' : ∀ c ∈ cs.head?, sameList (listBlock num items) c = false := fun c hm => by
      rw [sameList_listBlock num num items ([.para (t :: ts), listBlock (num.map fun _ => 1) sub] :: items) c rfl]; exact hc c hm
    have hw2 := markerText_two num
    refine item_step hi (by omega) (.inr (ht t (by simp))) (fun l hl => ht l (by simp [hl]))
      (fun e => absurd e (kind_ne (ht t (by simp)) (by decide))) (fun _ => hw) (lay_calm hsub).1 (lay_flat hsub) (lay_calm hsub).2
      ?_ h hb ho hr hc'
      (fun hne => ih i rest cs hi hne hb ho hr fun c hm => by
        rw [sameList_listBlock _ num items items c (by cases num <;> rfl)]; exact hc' c hm)
    have := ihs (4 - (markerText num).length) [] [] (by omega) hne hb0 ho0 .nil (by simp)
    rw [List.append_nil] at this
    rw [← List.cons_append]
    refine .para (ps := t :: ts) (by simp) ht ?_ this
    intro r hr'
    cases S with
    | nil => cases hr'
    | cons y S =>
      obtain ⟨u, rfl, h1, h2, h3⟩ := lay_head hsub y (by simp)
      have e : r = spaces (4 - (markerText num).length) ++ (markerText (num.map fun _ => 1) ++ u) := by
        simpa [places, place] using hr'.symm
      subst e
      have hu : u ≠ [] := h3 hf
      have hg : u.head?.any gap = false := by
        rcases h2 with rfl | ht
        · rfl
        · obtain ⟨d, s, rfl, hd⟩ := text_head ht
          simpa using hd
      exact .inr ⟨kindOf_item (by omega) h1 h2, _, _, _, marker_of (by omega) h1 hg, hu, by cases num <;> simp⟩

end Verif
