import Verif.Spec.NodeGen
/-!
# Lemmas about the node generator: names
-/

namespace Verif.NodeGen
open Verif Verif.Spec.NodeGen

theorem isUpper_eq (c : Char) : isUpper c = c.isUpper := by
  unfold isUpper Char.isUpper
  rw [Bool.eq_iff_iff]
  simp [UInt32.le_iff_toNat_le]

theorem isLower_eq (c : Char) : isLower c = c.isLower := by
  unfold isLower Char.isLower
  rw [Bool.eq_iff_iff]
  simp [UInt32.le_iff_toNat_le]

theorem isDigit_eq (c : Char) : isDigit c = c.isDigit := by
  unfold isDigit Char.isDigit
  rw [Bool.eq_iff_iff]
  simp [UInt32.le_iff_toNat_le]

/-- A capital letter is one of 26. -/
theorem upper_cases {P : Char → Prop} (h : ∀ n < 26, P (Char.ofNat (65 + n))) {c : Char} (hc : isUpper c = true) : P c := by
  unfold isUpper at hc
  simp only [Bool.and_eq_true, decide_eq_true_eq] at hc
  have := h (c.toNat - 65) (by omega)
  rwa [show 65 + (c.toNat - 65) = c.toNat by omega, Char.ofNat_toNat] at this

theorem lower_cases {P : Char → Prop} (h : ∀ n < 26, P (Char.ofNat (97 + n))) {c : Char} (hc : isLower c = true) : P c := by
  unfold isLower at hc
  simp only [Bool.and_eq_true, decide_eq_true_eq] at hc
  have := h (c.toNat - 97) (by omega)
  rwa [show 97 + (c.toNat - 97) = c.toNat by omega, Char.ofNat_toNat] at this

theorem digit_cases {P : Char → Prop} (h : ∀ n < 10, P (Char.ofNat (48 + n))) {c : Char} (hc : isDigit c = true) : P c := by
  unfold isDigit at hc
  simp only [Bool.and_eq_true, decide_eq_true_eq] at hc
  have := h (c.toNat - 48) (by omega)
  rwa [show 48 + (c.toNat - 48) = c.toNat by omega, Char.ofNat_toNat] at this

theorem lowerChar_eq (c : Char) : lowerChar c = c.toLower := by
  by_cases h : isUpper c = true
  · exact upper_cases (P := fun c => lowerChar c = c.toLower) (by decide) h
  · rw [lowerChar, if_neg h]
    rw [isUpper_eq] at h
    unfold Char.toLower
    rw [dif_neg]
    simpa [Char.isUpper] using h

theorem upperChar_eq (c : Char) : upperChar c = c.toUpper := by
  by_cases h : isLower c = true
  · exact lower_cases (P := fun c => upperChar c = c.toUpper) (by decide) h
  · rw [upperChar, if_neg h]
    rw [isLower_eq] at h
    unfold Char.toUpper
    rw [dif_neg]
    simpa [Char.isLower] using h

/-! ## camel_to_snake -/

/-- `splitCaps` with the character before. -/
def capsAfter (p : Option Char) : Str → Str
  | [] => []
  | c :: s => (if (p.elim false fun p => isLower p || isDigit p) && isUpper c then ['_', c] else [c]) ++ capsAfter (some c) s

theorem upper_not_lower {c : Char} (h : isUpper c = true) : isLower c = false :=
  upper_cases (P := fun c => isLower c = false) (by decide) h
theorem upper_not_digit {c : Char} (h : isUpper c = true) : isDigit c = false :=
  upper_cases (P := fun c => isDigit c = false) (by decide) h
theorem lower_not_upper {c : Char} (h : isLower c = true) : isUpper c = false :=
  lower_cases (P := fun c => isUpper c = false) (by decide) h
theorem digit_not_upper {c : Char} (h : isDigit c = true) : isUpper c = false :=
  digit_cases (P := fun c => isUpper c = false) (by decide) h

theorem splitCaps_eq (s : Str) : ∀ p : Option Char, (∀ c t, s = c :: t → isUpper c = true → p.elim false (fun p => isLower p || isDigit p) = false) →
    splitCaps s = capsAfter p s := by
  induction s using splitCaps.induct with
  | case1 => intro p _; simp [splitCaps, capsAfter]
  | case2 c =>
    intro p h
    have := h c [] rfl
    simp only [splitCaps, capsAfter, List.append_nil]
    split
    · rename_i hh; simp only [Bool.and_eq_true] at hh; simp [this hh.2] at hh
    · rfl
  | case3 c u t hc ih =>
    intro p h
    have h1 := h c _ rfl
    simp only [Bool.and_eq_true, Bool.or_eq_true] at hc
    have hcu : isUpper c = false := by
      rcases hc.1 with h | h
      · exact lower_not_upper h
      · exact digit_not_upper h
    rw [splitCaps, if_pos (by simpa using hc), capsAfter, capsAfter]
    rw [ih (some u)]
    · simp [hcu, hc]
    · intro _ _ _ _
      simp [upper_not_lower hc.2, upper_not_digit hc.2]
  | case4 c u t hc ih =>
    intro p h
    have h1 := h c _ rfl
    rw [splitCaps, if_neg hc, capsAfter, ih (some c)]
    · rw [if_neg]
      · rfl
      · intro hh; simp only [Bool.and_eq_true] at hh; simp [h1 hh.2] at hh
    · rintro _ _ ⟨⟩ hu
      simpa [hu] using hc

/-- `Spec.snakeAfter` without the change to small letters. -/
def wordsAfter (p : Char) : Str → Str
  | [] => []
  | c :: s => (if NewWord p c s.head? then ['_', c] else [c]) ++ wordsAfter c s

theorem startsLower_eq (t : Str) : startsLower t = (t.head?.map Char.isLower).getD false := by
  cases t <;> simp [startsLower, isLower_eq]

theorem caps_humps (n : Nat) : ∀ (c : Char) (t : Str), t.length ≤ n → ∀ (b : Bool) (q : Option Char),
    capsAfter q (splitHumps b (c :: t)) =
      (if (q.elim false fun p => isLower p || isDigit p) && isUpper c then ['_', c] else [c]) ++ wordsAfter c t := by
  induction n with
  | zero =>
    intro c t ht b q
    simp only [Nat.le_zero, List.length_eq_zero_iff] at ht
    subst ht
    cases b <;> simp [splitHumps, capsAfter, wordsAfter]
  | succ n ih =>
    intro c t ht b q
    match t with
    | [] => cases b <;> simp [splitHumps, capsAfter, wordsAfter]
    | u :: t =>
      simp only [List.length_cons, Nat.add_le_add_iff_right] at ht
      rw [splitHumps, wordsAfter]
      by_cases h1 : (b && isLower c) = true
      · rw [if_pos h1, capsAfter, ih u t ht]
        have hl : isLower c = true := by simp at h1; exact h1.2
        have : NewWord c u t.head? = isUpper u := by simp [NewWord, ← isUpper_eq, ← isLower_eq, hl]
        simp [this, hl]
      · rw [if_neg h1]
        by_cases h2 : (decide (c ≠ '\n') && isUpper u && startsLower t) = true
        · rw [if_pos h2]
          simp only [Bool.and_eq_true, decide_eq_true_eq] at h2
          have hw : NewWord c u t.head? = true := by
            simp only [NewWord, ← isUpper_eq, h2.1.2, ← startsLower_eq, h2.2]
            simp [h2.1.1]
          match t, h2, ht, hw with
          | [], h2, _, _ => simp [startsLower] at h2
          | l :: t, h2, ht, hw =>
            have hl : isLower l = true := h2.2
            simp only [List.length_cons] at ht
            rw [capsAfter, capsAfter, capsAfter, ih l t (by omega), wordsAfter]
            simp only [List.head?_cons] at hw
            have h3 : isUpper '_' = false := by decide
            have h4 : isLower '_' = false := by decide
            have h5 : isDigit '_' = false := by decide
            have h6 : NewWord u l t.head? = false := by simp [NewWord, ← isUpper_eq, lower_not_upper hl]
            simp [h3, h4, h5, hw, lower_not_upper hl, h6]
        · rw [if_neg h2, capsAfter, ih u t ht]
          have : NewWord c u t.head? = ((isLower c || isDigit c) && isUpper u) := by
            simp only [NewWord, ← isUpper_eq, ← isLower_eq, ← isDigit_eq]
            simp only [Bool.and_eq_true, decide_eq_true_eq, not_and, startsLower_eq] at h2
            rw [Bool.eq_iff_iff]
            simp only [Bool.and_eq_true, Bool.or_eq_true, bne_iff_ne, ne_eq]
            constructor
            · rintro ⟨hu, h | ⟨h, h'⟩⟩
              · exact ⟨h, hu⟩
              · exact absurd h' (h2 ⟨h, hu⟩)
            · rintro ⟨h, hu⟩; exact ⟨hu, .inl h⟩
          simp [this]

theorem map_words (p : Char) (s : Str) : (wordsAfter p s).map lowerChar = snakeAfter p s := by
  induction s generalizing p with
  | nil => rfl
  | cons c s ih =>
    have : lowerChar '_' = '_' := by decide
    rw [wordsAfter, snakeAfter, List.map_append, ih]
    split <;> simp [this, lowerChar_eq]

theorem camelToSnake_eq (name : Str) : camelToSnake name = snake name := by
  cases name with
  | nil => rfl
  | cons c s =>
    rw [camelToSnake, splitCaps_eq _ none (by simp), caps_humps _ c s (Nat.le_refl _)]
    simp [snake, map_words, lowerChar_eq]

theorem pascal_false_split (s : Str) : ∃ w ws, splitUnderscore s = w :: ws ∧
    pascal false s = w.map lowerChar ++ ws.flatMap capitalize ∧ pascal true s = capitalize w ++ ws.flatMap capitalize := by
  induction s with
  | nil => exact ⟨[], [], rfl, rfl, rfl⟩
  | cons c s ih =>
    obtain ⟨w, ws, h1, h2, h3⟩ := ih
    rw [splitUnderscore, pascal, pascal]
    by_cases hc : c = '_'
    · refine ⟨[], w :: ws, by rw [if_pos hc, h1], ?_, ?_⟩
      · rw [if_pos hc, h3]; simp
      · rw [if_pos hc, h3]; simp [capitalize]
    · refine ⟨c :: w, ws, by rw [if_neg hc, h1], ?_, ?_⟩
      · rw [if_neg hc, h2]; simp [lowerChar_eq]
      · rw [if_neg hc, h2]; simp [capitalize, upperChar_eq]

theorem snakeToPascal_eq (s : Str) : snakeToPascal s = pascal true s := by
  obtain ⟨w, ws, h1, -, h3⟩ := pascal_false_split s
  rw [snakeToPascal, h1, h3]; simp

/-! ## Names in camel case -/

/-- The words of a camelCase name, each capital letter written as underscore and small letter. -/
def undo (s : Str) : Str := s.flatMap fun c => if isUpper c then ['_', lowerChar c] else [c]

theorem camel_after (p : Char) (s : Str) (hp : isLower p = true ∨ isUpper p = true ∨ isDigit p = true)
    (hall : ∀ c ∈ s, c.isLower = true ∨ c.isUpper = true ∨ c.isDigit = true)
    (hadj : ∀ a b l r, p :: s = l ++ a :: b :: r → ¬ (a.isUpper = true ∧ b.isUpper = true)) : snakeAfter p s = undo s := by
  induction s generalizing p with
  | nil => rfl
  | cons c s ih =>
    have hc := hall c (by simp)
    have h1 := hadj p c [] s rfl
    rw [snakeAfter, ih c (by rw [isLower_eq, isUpper_eq, isDigit_eq]; exact hc) (fun d hd => hall d (by simp [hd]))
      (fun a b l r h => hadj a b (p :: l) r (by rw [h]; rfl))]
    simp only [undo, List.flatMap_cons]
    congr 1
    by_cases hu : c.isUpper = true
    · have : NewWord p c s.head? = true := by
        simp only [NewWord, hu, Bool.true_and, Bool.or_eq_true]
        rw [isLower_eq, isUpper_eq, isDigit_eq] at hp
        rcases hp with h | h | h
        · simp [h]
        · exact absurd ⟨h, hu⟩ h1
        · simp [h]
      rw [if_pos this, if_pos (by rwa [isUpper_eq]), lowerChar_eq]
    · have : NewWord p c s.head? = false := by simp [NewWord, hu]
      rw [if_neg (by simp [this]), if_neg (by rwa [isUpper_eq]), ← lowerChar_eq, lowerChar, if_neg (by rwa [isUpper_eq])]

theorem camel_snake {name : Str} (h : Camel name) : camelToSnake name = undo name := by
  obtain ⟨⟨c, s, rfl, hc⟩, hall, hadj⟩ := h
  rw [camelToSnake_eq, snake, camel_after c s (.inl (by rwa [isLower_eq])) (fun d hd => hall d (by simp [hd])) hadj]
  rw [← isLower_eq] at hc
  have := lower_not_upper hc
  simp [undo, this, ← lowerChar_eq, lowerChar]

theorem upper_lower {c : Char} (h : isUpper c = true) : upperChar (lowerChar c) = c :=
  upper_cases (P := fun c => upperChar (lowerChar c) = c) (by decide) h
theorem lower_upper {c : Char} (h : isLower c = true) : lowerChar (upperChar c) = c :=
  lower_cases (P := fun c => lowerChar (upperChar c) = c) (by decide) h

theorem not_underscore {c : Char} (h : isLower c = true ∨ isUpper c = true ∨ isDigit c = true) : c ≠ '_' := by
  rintro rfl; revert h; decide

theorem lower_ne_underscore {c : Char} (h : isUpper c = true) : lowerChar c ≠ '_' :=
  upper_cases (P := fun c => lowerChar c ≠ '_') (by decide) h

/-- The first word and the others. -/
theorem split_undo (s : Str) (hall : ∀ c ∈ s, isLower c = true ∨ isUpper c = true ∨ isDigit c = true) :
    ∃ w ws, splitUnderscore (undo s) = w :: ws ∧ (∀ c ∈ w, isUpper c = false) ∧ w ++ ws.flatMap capitalize = s := by
  induction s with
  | nil => exact ⟨[], [], rfl, by simp, rfl⟩
  | cons c s ih =>
    obtain ⟨w, ws, h1, h2, h3⟩ := ih fun d hd => hall d (by simp [hd])
    by_cases hu : isUpper c = true
    · have e : undo (c :: s) = '_' :: lowerChar c :: undo s := by simp [undo, hu]
      refine ⟨[], (lowerChar c :: w) :: ws, ?_, by simp, ?_⟩
      · rw [e, splitUnderscore, if_pos rfl, splitUnderscore, if_neg (lower_ne_underscore hu), h1]
      · have hw : w.map lowerChar = w := by
          rw [List.map_congr_left (g := id), List.map_id]
          intro d hd
          simp [lowerChar, h2 d hd]
        simp [capitalize, upper_lower hu, hw, h3]
    · have e : undo (c :: s) = c :: undo s := by simp [undo, hu]
      refine ⟨c :: w, ws, ?_, ?_, by simp [h3]⟩
      · rw [e, splitUnderscore, if_neg (not_underscore (hall c (by simp))), h1]
      · intro d hd
        rcases List.mem_cons.1 hd with rfl | hd
        · simpa using hu
        · exact h2 d hd

theorem camel_pascal {name : Str} (h : Camel name) : snakeToPascal (camelToSnake name) = capFirst name := by
  rw [camel_snake h]
  obtain ⟨⟨c, s, rfl, hc⟩, hall, hadj⟩ := h
  rw [← isLower_eq] at hc
  simp only [← isLower_eq, ← isUpper_eq, ← isDigit_eq] at hall
  obtain ⟨w, ws, h1, h2, h3⟩ := split_undo s fun d hd => hall d (by simp [hd])
  have hu := lower_not_upper hc
  have e : undo (c :: s) = c :: undo s := by simp [undo, hu]
  rw [snakeToPascal, e, splitUnderscore, if_neg (not_underscore (.inl hc)), h1]
  have hw : w.map lowerChar = w := by
    rw [List.map_congr_left (g := id), List.map_id]
    intro d hd
    simp [lowerChar, h2 d hd]
  simp [capitalize, hw, h3, capFirst, upperChar_eq]

theorem capFirst_inj {a b : Str} (ha : Camel a) (hb : Camel b) (h : capFirst a = capFirst b) : a = b := by
  obtain ⟨⟨c, s, rfl, hc⟩, -, -⟩ := ha
  obtain ⟨⟨d, t, rfl, hd⟩, -, -⟩ := hb
  simp only [capFirst, List.cons.injEq, ← upperChar_eq] at h
  rw [← isLower_eq] at hc hd
  have := congrArg lowerChar h.1
  rw [lower_upper hc, lower_upper hd] at this
  rw [this, h.2]

end Verif.NodeGen
