import Verif.Lemmas.Nesting
import Verif.Model.Checks
import Verif.Spec.Checks
/-!
# `textwrap.dedent` removes the common indentation
-/

namespace Verif
open Spec

/-- `r` is the longest common prefix of `a` and `b`. -/
def IsLcp (a b r : Str) : Prop := r <+: a ∧ r <+: b ∧ ∀ p, p <+: a → p <+: b → p <+: r

theorem cutMargin_lcp (a b pre : Str) (h1 : ¬ a <+: b) (h2 : ¬ b <+: a) :
    ∃ r, cutMargin (pre ++ a) (pre ++ b) pre.length (a.zip b) = pre ++ r ∧ IsLcp a b r := by
  induction a generalizing b pre with
  | nil => exact absurd List.nil_prefix h1
  | cons x a ih =>
    cases b with
    | nil => exact absurd List.nil_prefix h2
    | cons y b =>
      rw [List.zip_cons_cons, cutMargin]
      by_cases hxy : x = y
      · subst hxy
        rw [if_neg (by simp)]
        obtain ⟨r, h3, h4, h5, h6⟩ := ih b (pre ++ [x]) (fun h => h1 ((List.prefix_cons_inj x).mpr h))
          (fun h => h2 ((List.prefix_cons_inj x).mpr h))
        simp only [List.append_assoc, List.singleton_append, List.length_append, List.length_singleton] at h3
        refine ⟨x :: r, h3, (List.prefix_cons_inj x).mpr h4, (List.prefix_cons_inj x).mpr h5, ?_⟩
        intro p hp hq
        cases p with
        | nil => exact List.nil_prefix
        | cons z p =>
          obtain ⟨rfl, hp'⟩ := List.cons_prefix_cons.mp hp
          exact (List.prefix_cons_inj z).mpr (h6 p hp' (List.cons_prefix_cons.mp hq).2)
      · rw [if_pos hxy]
        refine ⟨[], by simp, List.nil_prefix, List.nil_prefix, ?_⟩
        intro p hp hq
        cases p with
        | nil => exact List.nil_prefix
        | cons z p =>
          exact absurd ((List.cons_prefix_cons.mp hp).1.symm.trans (List.cons_prefix_cons.mp hq).1) hxy

theorem marginStep_lcp (m i : Str) : ∃ r, marginStep (some m) i = some r ∧ IsLcp m i r := by
  unfold marginStep
  by_cases h1 : m <+: i
  · exact ⟨m, by simp [h1], List.prefix_rfl, h1, fun p hp _ => hp⟩
  · by_cases h2 : i <+: m
    · exact ⟨i, by simp [h1, h2], h2, List.prefix_rfl, fun p _ hp => hp⟩
    · obtain ⟨r, h3, h4⟩ := cutMargin_lcp m i [] h1 h2
      refine ⟨r, ?_, h4⟩
      simp only [List.nil_append, List.length_nil] at h3
      simp [h1, h2, h3]

theorem margin_fold (m : Str) (is : List Str) :
    ∃ r, is.foldl marginStep (some m) = some r ∧ r <+: m ∧ (∀ i ∈ is, r <+: i) ∧
      ∀ p, p <+: m → (∀ i ∈ is, p <+: i) → p <+: r := by
  induction is generalizing m with
  | nil => exact ⟨m, rfl, List.prefix_rfl, by simp, fun p hp _ => hp⟩
  | cons i is ih =>
    obtain ⟨r, h1, h2, h3, h4⟩ := marginStep_lcp m i
    obtain ⟨r', g1, g2, g3, g4⟩ := ih r
    refine ⟨r', by rw [List.foldl_cons, h1, g1], g2.trans h2, ?_, ?_⟩
    · intro j hj
      rcases List.mem_cons.mp hj with rfl | hj
      · exact g2.trans h3
      · exact g3 j hj
    · intro p hp hq
      exact g4 p (h4 p hp (hq i List.mem_cons_self)) fun j hj => hq j (List.mem_cons_of_mem _ hj)

theorem blankTab_iff (c : Char) : blankTab c = true ↔ c = ' ' ∨ c = '\t' := by simp [blankTab]

theorem emptyLine_iff (l : Str) : l.all blankTab = true ↔ EmptyLine l := by
  simp [EmptyLine, blankTab]

theorem emptyLine_nl {l : Str} (h : EmptyLine l) : '\n' ∉ l := by
  intro hn
  rcases h _ hn with h | h <;> cases h

theorem takeWhile_blank {p o : Str} (hp : EmptyLine p) :
    (p ++ o).takeWhile blankTab = p ++ o.takeWhile blankTab := by
  rw [List.takeWhile_append_of_pos]
  intro c hc
  exact (blankTab_iff c).mpr (hp c hc)

theorem takeWhile_empty (l : Str) : EmptyLine (l.takeWhile blankTab) := fun _ hc =>
  (blankTab_iff _).mp (List.mem_takeWhile_imp hc)

/-- The result of `dedent` is the text without its common indentation. -/
theorem dedent_dedented (text : Str) : Dedented text (dedent text) := by
  have hmem : ∀ l, l ∈ ((Str.splitNL text).map emptyBlank).filter (fun l => !l.isEmpty) ↔
      l ∈ Str.splitNL text ∧ ¬ EmptyLine l := by
    intro l
    simp only [List.mem_filter, List.mem_map, Bool.not_eq_true', List.isEmpty_eq_false_iff]
    constructor
    · rintro ⟨⟨l', h1, h2⟩, h3⟩
      unfold emptyBlank at h2
      split at h2
      · exact absurd h2.symm h3
      · next h => subst h2; exact ⟨h1, fun he => h ((emptyLine_iff _).mpr he)⟩
    · rintro ⟨h1, h2⟩
      refine ⟨⟨l, h1, ?_⟩, ?_⟩
      · unfold emptyBlank
        rw [if_neg fun h => h2 ((emptyLine_iff _).mp h)]
      · rintro rfl
        exact h2 (by simp [EmptyLine])
  unfold dedent
  simp only []
  generalize hls : ((Str.splitNL text).map emptyBlank).filter (fun l => !l.isEmpty) = ls at hmem
  cases ls with
  | nil =>
    have hall : ∀ l ∈ Str.splitNL text, EmptyLine l := by
      intro l hl
      by_contra h
      exact absurd ((hmem l).mpr ⟨hl, h⟩) (by simp)
    refine ⟨[], (Str.splitNL text).map emptyBlank, by simp [EmptyLine], ?_, (lines_eq _).symm, ?_⟩
    · rw [splitOn_nl, List.forall₂_map_right_iff, List.forall₂_same]
      intro l hl
      exact .inl ⟨hall l hl, by unfold emptyBlank; rw [if_pos ((emptyLine_iff _).mpr (hall l hl))]⟩
    · rintro c _ ⟨o, ho, hne⟩
      obtain ⟨l, hl, rfl⟩ := List.mem_map.mp ho
      unfold emptyBlank at hne
      rw [if_pos ((emptyLine_iff _).mpr (hall l hl))] at hne
      exact absurd rfl hne
  | cons l0 ls =>
    obtain ⟨m, h1, h2, h3, h4⟩ := margin_fold (l0.takeWhile blankTab) (ls.map fun l => l.takeWhile blankTab)
    have hm : ([].foldl marginStep none : Option Str) = none := rfl
    simp only [List.map_cons, List.foldl_cons]
    rw [show marginStep none (l0.takeWhile blankTab) = some (l0.takeWhile blankTab) from rfl, h1]
    simp only []
    have hpre : ∀ l ∈ l0 :: ls, m <+: l.takeWhile blankTab := by
      intro l hl
      rcases List.mem_cons.mp hl with rfl | hl
      · exact h2
      · exact h3 _ (List.mem_map.mpr ⟨l, hl, rfl⟩)
    have hmax : ∀ p, (∀ l ∈ l0 :: ls, p <+: l.takeWhile blankTab) → p <+: m := by
      intro p hp
      refine h4 p (hp l0 List.mem_cons_self) ?_
      intro i hi
      obtain ⟨l, hl, rfl⟩ := List.mem_map.mp hi
      exact hp l (List.mem_cons_of_mem _ hl)
    have hme : EmptyLine m := fun c hc => takeWhile_empty l0 c (h2.subset hc)
    have hline : ∀ l ∈ Str.splitNL text, LineWithout m l (dropMargin m (emptyBlank l)) := by
      intro l hl
      by_cases he : EmptyLine l
      · refine .inl ⟨he, ?_⟩
        unfold emptyBlank dropMargin
        rw [if_pos ((emptyLine_iff _).mpr he)]
        simp
      · refine .inr ⟨he, ?_⟩
        have hp : m <+: l := (hpre l ((hmem l).mpr ⟨hl, he⟩)).trans (List.takeWhile_prefix _)
        unfold emptyBlank dropMargin
        rw [if_neg (fun h => he ((emptyLine_iff _).mp h)), if_pos (by simpa using hp)]
        exact (List.prefix_iff_eq_append.mp hp).symm
    refine ⟨m, ((Str.splitNL text).map emptyBlank).map (dropMargin m), hme, ?_, (lines_eq _).symm, ?_⟩
    · rw [splitOn_nl, List.map_map, List.forall₂_map_right_iff, List.forall₂_same]
      exact hline
    · rintro c hc -
      by_contra hno
      push Not at hno
      have : m ++ [c] <+: m := by
        refine hmax _ fun l hl => ?_
        have hl' := (hmem l).mp hl
        have ho := hline l hl'.1
        rcases ho with ⟨he, _⟩ | ⟨_, ho⟩
        · exact absurd he hl'.2
        · generalize hg : dropMargin m (emptyBlank l) = o at ho
          have hmo : o ∈ ((Str.splitNL text).map emptyBlank).map (dropMargin m) := by
            rw [List.map_map]
            exact List.mem_map.mpr ⟨l, hl'.1, hg⟩
          have hne : o ≠ [] := by
            rintro rfl
            rw [List.append_nil] at ho
            exact hl'.2 (ho ▸ hme)
          have := hno o hmo hne
          cases o with
          | nil => exact absurd rfl hne
          | cons x o =>
            simp only [List.head?_cons, Option.some.injEq] at this
            subst this
            rw [ho, takeWhile_blank hme, List.takeWhile_cons_of_pos ((blankTab_iff _).mpr hc),
              List.prefix_append_right_inj]
            exact List.prefix_append [x] _
      have := this.length_le
      simp only [List.length_append, List.length_singleton] at this
      omega

theorem forall₂_unique {α β : Type} {R S : α → β → Prop} {l : List α} {a b : List β}
    (h : ∀ x y z, R x y → S x z → y = z) (h1 : List.Forall₂ R l a) (h2 : List.Forall₂ S l b) : a = b := by
  induction h1 generalizing b with
  | nil => cases h2; rfl
  | cons hr _ ih =>
    cases h2 with
    | cons hs ht => rw [h _ _ _ hr hs, ih ht]

theorem mem_forall₂_left {α β : Type} {R : α → β → Prop} {l : List α} {a : List β} (h : List.Forall₂ R l a)
    {x : α} (hx : x ∈ l) : ∃ y ∈ a, R x y := by
  induction h with
  | nil => simp at hx
  | cons hr _ ih =>
    rcases List.mem_cons.mp hx with rfl | hx
    · exact ⟨_, List.mem_cons_self, hr⟩
    · obtain ⟨y, hy, h⟩ := ih hx
      exact ⟨y, List.mem_cons_of_mem _ hy, h⟩

theorem mem_forall₂_right {α β : Type} {R : α → β → Prop} {l : List α} {a : List β} (h : List.Forall₂ R l a)
    {y : β} (hy : y ∈ a) : ∃ x ∈ l, R x y := by
  induction h with
  | nil => simp at hy
  | cons hr _ ih =>
    rcases List.mem_cons.mp hy with rfl | hy
    · exact ⟨_, List.mem_cons_self, hr⟩
    · obtain ⟨x, hx, h⟩ := ih hy
      exact ⟨x, List.mem_cons_of_mem _ hx, h⟩

/-- A longer common indentation leaves something of the shorter one. -/
theorem indentation_max {ls outs outs' : List Str} {p q : Str} (hq : EmptyLine q)
    (h1 : List.Forall₂ (LineWithout p) ls outs) (h2 : List.Forall₂ (LineWithout q) ls outs')
    (hmax : ∀ c, (c = ' ' ∨ c = '\t') → (∃ o ∈ outs, o ≠ []) → ∃ o ∈ outs, o ≠ [] ∧ o.head? ≠ some c)
    {c : Char} {t : Str} (hpq : q = p ++ c :: t) : ∀ l ∈ ls, EmptyLine l := by
  intro l hl
  by_contra he
  obtain ⟨o, ho, hr⟩ := mem_forall₂_left h1 hl
  have key : ∀ o ∈ outs, o ≠ [] → o.head? = some c := by
    intro o ho hne
    obtain ⟨l, hl, hr⟩ := mem_forall₂_right h1 ho
    obtain ⟨o', _, hr'⟩ := mem_forall₂_left h2 hl
    rcases hr with ⟨_, rfl⟩ | ⟨h, e⟩
    · exact absurd rfl hne
    · rcases hr' with ⟨h', _⟩ | ⟨_, e'⟩
      · exact absurd h' h
      · rw [e', hpq, List.append_assoc, List.append_cancel_left_eq] at e
        rw [← e]; rfl
  have hc : c = ' ' ∨ c = '\t' := hq c (by rw [hpq]; simp)
  rcases hr with ⟨h, _⟩ | ⟨_, e⟩
  · exact he h
  · have hne : o ≠ [] := by
      rintro rfl
      rw [List.append_nil] at e
      subst e
      exact he fun c hc => hq c (by rw [hpq]; exact List.mem_append_left _ hc)
    obtain ⟨o', ho', hne', hh⟩ := hmax c hc ⟨o, ho, hne⟩
    exact hh (key o' ho' hne')

/-- There is one text without the common indentation. -/
theorem dedented_unique {text a b : Str} (h1 : Dedented text a) (h2 : Dedented text b) : a = b := by
  obtain ⟨p, os, hp, hf, rfl, hmax⟩ := h1
  obtain ⟨q, os', hq, hf', rfl, hmax'⟩ := h2
  congr 1
  by_cases hall : ∀ l ∈ text.splitOn '\n', EmptyLine l
  · generalize text.splitOn '\n' = ls at *
    clear hmax hmax'
    induction hf generalizing os' with
    | nil => cases hf'; rfl
    | cons hr _ ih =>
      cases hf' with
      | cons hs ht =>
        have h0 := hall _ List.mem_cons_self
        rcases hr with ⟨_, rfl⟩ | ⟨h, _⟩
        · rcases hs with ⟨_, rfl⟩ | ⟨h, _⟩
          · rw [ih _ ht fun l hl => hall l (List.mem_cons_of_mem _ hl)]
          · exact absurd h0 h
        · exact absurd h0 h
  · have hpq : p = q := by
      have hall' := hall
      push Not at hall'
      obtain ⟨l, hl, he⟩ := hall'
      obtain ⟨o, _, hr⟩ := mem_forall₂_left hf hl
      obtain ⟨o', _, hr'⟩ := mem_forall₂_left hf' hl
      rcases hr with ⟨h, _⟩ | ⟨_, e⟩
      · exact absurd h he
      rcases hr' with ⟨h, _⟩ | ⟨_, e'⟩
      · exact absurd h he
      rcases List.prefix_or_prefix_of_prefix (⟨o, e.symm⟩ : p <+: l) ⟨o', e'.symm⟩ with ⟨t, ht⟩ | ⟨t, ht⟩
      · cases t with
        | nil => simpa using ht
        | cons c t => exact absurd (indentation_max hq hf hf' hmax ht.symm) hall
      · cases t with
        | nil => simpa using ht.symm
        | cons c t => exact absurd (indentation_max hp hf' hf hmax' ht.symm) hall
    subst hpq
    refine forall₂_unique ?_ hf hf'
    rintro x y z (⟨h, rfl⟩ | ⟨h, e⟩) (⟨h', rfl⟩ | ⟨h', e'⟩)
    · rfl
    · exact absurd h h'
    · exact absurd h' h
    · exact List.append_cancel_left (e.symm.trans e')

theorem dedent_iff (text out : Str) : dedent text = out ↔ Dedented text out :=
  ⟨fun h => h ▸ dedent_dedented text, fun h => dedented_unique (dedent_dedented text) h⟩

theorem shifted_dedented {pre : Str} (hp : EmptyLine pre) {text text' out : Str}
    (hs : Shifted pre (text.splitOn '\n') (text'.splitOn '\n')) (h : Dedented text out) : Dedented text' out := by
  obtain ⟨p, outs, hpe, hf, rfl, hmax⟩ := h
  refine ⟨pre ++ p, outs, ?_, ?_, rfl, hmax⟩
  · intro c hc
    rcases List.mem_append.mp hc with h | h
    · exact hp c h
    · exact hpe c h
  · clear hmax
    unfold Shifted at hs
    generalize text.splitOn '\n' = ls at *
    generalize text'.splitOn '\n' = ls' at *
    induction hf generalizing ls' with
    | nil => cases hs; exact .nil
    | cons hr _ ih =>
      cases hs with
      | cons hs ht =>
        refine .cons ?_ (ih _ ht)
        rcases hr with ⟨h, rfl⟩ | ⟨h, e⟩
        · left
          refine ⟨?_, rfl⟩
          rcases hs with ⟨_, h'⟩ | rfl
          · exact h'
          · intro c hc
            rcases List.mem_append.mp hc with h' | h'
            · exact hp c h'
            · exact h c h'
        · right
          rcases hs with ⟨h', _⟩ | rfl
          · exact absurd h' h
          · refine ⟨fun h' => h fun c hc => h' c (List.mem_append_right _ hc), ?_⟩
            rw [e, List.append_assoc]

end Verif
