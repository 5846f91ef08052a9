import Verif.Spec.Chunks
import Verif.Lemmas.Nesting
import Verif.Lemmas.Chars
/-!
# Groups of lines
-/

namespace Verif
open Spec

/-! ## Groups -/

theorem groups_nil : groups [] = [] := by simp [groups, List.splitOnP_nil]

theorem groups_blank {l : Str} {ls : List Str} (h : blankLine l = true) : groups (l :: ls) = groups ls := by
  simp [groups, List.splitOnP_cons_eq_if_modifyHead, h]

/-- First line blank, or no line at all. -/
def headBlank : List Str → Bool
  | [] => true
  | l :: _ => blankLine l

theorem groups_last {l : Str} {ls : List Str} (h : blankLine l = false) (hb : headBlank ls = true) :
    groups (l :: ls) = [l] :: groups ls := by
  cases ls with
  | nil => simp [groups, List.splitOnP_cons_eq_if_modifyHead, h, List.splitOnP_nil]
  | cons m ls =>
    have hm : blankLine m = true := hb
    simp [groups, List.splitOnP_cons_eq_if_modifyHead, h, hm]

theorem groups_head {l : Str} {ls : List Str} (h : blankLine l = false) (hb : headBlank ls = false) :
    ∃ g gs, groups ls = g :: gs ∧ groups (l :: ls) = (l :: g) :: gs := by
  cases ls with
  | nil => cases hb
  | cons m ls =>
    have hm : blankLine m = false := hb
    have hne := List.splitOnP_ne_nil blankLine ls
    obtain ⟨x, xs, e⟩ : ∃ x xs, ls.splitOnP blankLine = x :: xs := by
      cases hh : ls.splitOnP blankLine with
      | nil => exact absurd hh hne
      | cons x xs => exact ⟨x, xs, rfl⟩
    refine ⟨m :: x, xs.filter fun g => !g.isEmpty, ?_, ?_⟩ <;>
      simp [groups, List.splitOnP_cons_eq_if_modifyHead, h, hm, e]

/-- Last line blank, or no line at all. -/
def lastBlank (ls : List Str) : Bool :=
  match ls.getLast? with
  | none => true
  | some l => blankLine l

theorem lastBlank_cons {l m : Str} {ls : List Str} : lastBlank (l :: m :: ls) = lastBlank (m :: ls) := by
  simp [lastBlank, List.getLast?_cons_cons]

/-- Two groups of lines are joined iff no blank line is between them. -/
theorem groups_append (a b : List Str) :
    ((lastBlank a = true ∨ headBlank b = true) → groups (a ++ b) = groups a ++ groups b) ∧
    (lastBlank a = false → headBlank b = false →
      (groups (a ++ b)).length + 1 = (groups a).length + (groups b).length) := by
  induction a with
  | nil => exact ⟨fun _ => by simp [groups_nil], fun h => by simp [lastBlank] at h⟩
  | cons l a ih =>
    cases hl : blankLine l with
    | true =>
      rw [List.cons_append, groups_blank hl, groups_blank hl]
      cases a with
      | nil =>
        refine ⟨fun _ => by simp [groups_nil], fun h => ?_⟩
        simp [lastBlank, hl] at h
      | cons m a => rw [lastBlank_cons]; exact ih
    | false =>
      cases a with
      | nil =>
        rw [List.singleton_append, groups_last hl (show headBlank [] = true from rfl), groups_nil]
        refine ⟨fun h => ?_, fun _ hb => ?_⟩
        · rcases h with h | h
          · simp [lastBlank, hl] at h
          · rw [groups_last hl h]; simp
        · obtain ⟨g, gs, e1, e2⟩ := groups_head hl hb
          rw [e1, e2]; simp; omega
      | cons m a =>
        rw [lastBlank_cons]
        cases hm : blankLine m with
        | true =>
          rw [List.cons_append, groups_last hl (show headBlank (m :: a ++ b) = true from hm),
            groups_last hl (show headBlank (m :: a) = true from hm)]
          refine ⟨fun h => by rw [ih.1 h]; simp, fun h h' => ?_⟩
          have := ih.2 h h'
          simp only [List.length_cons]; omega
        | false =>
          obtain ⟨g, gs, e1, e2⟩ := groups_head hl (show headBlank (m :: a ++ b) = false from hm)
          obtain ⟨g', gs', e1', e2'⟩ := groups_head hl (show headBlank (m :: a) = false from hm)
          rw [List.cons_append, e2, e2']
          refine ⟨fun h => ?_, fun h h' => ?_⟩
          · have := ih.1 h
            rw [e1, e1'] at this
            simp only [List.cons_append, List.cons.injEq] at this
            rw [this.1, this.2]; simp
          · have := ih.2 h h'
            rw [e1, e1'] at this
            simp only [List.length_cons] at this ⊢; omega

/-! ## Dropping repeated empty lines -/

/-- `b` is `a` without some of the empty lines that follow an empty line. -/
inductive Squeeze : List Str → List Str → Prop where
  | nil : Squeeze [] []
  | keep (l : Str) {a b : List Str} (h : Squeeze a b) : Squeeze (l :: a) (l :: b)
  | drop {a b : List Str} (h : Squeeze ([] :: a) b) : Squeeze ([] :: [] :: a) b

theorem Squeeze.refl : ∀ a, Squeeze a a
  | [] => .nil
  | l :: a => .keep l (Squeeze.refl a)

theorem Squeeze.head {a b : List Str} (h : Squeeze a b) : headBlank a = headBlank b := by
  induction h with
  | nil => rfl
  | keep l _ _ => rfl
  | drop _ ih => exact ih

theorem Squeeze.groups {a b : List Str} (h : Squeeze a b) : Spec.groups a = Spec.groups b := by
  induction h with
  | nil => rfl
  | @keep l a b h ih =>
    cases hl : blankLine l with
    | true => rw [groups_blank hl, groups_blank hl, ih]
    | false =>
      cases hb : headBlank a with
      | true => rw [groups_last hl hb, groups_last hl (h.head ▸ hb), ih]
      | false =>
        obtain ⟨g, gs, e1, e2⟩ := groups_head hl hb
        obtain ⟨g', gs', e1', e2'⟩ := groups_head hl (h.head ▸ hb : headBlank b = false)
        rw [e1, e1'] at ih
        cases ih
        rw [e2, e2']
  | @drop a b h ih => rw [groups_blank (by rfl), ih]

/-- `k` empty lines in front. -/
def empties (k : Nat) (ls : List Str) : List Str := List.replicate k [] ++ ls

theorem empties_succ (k : Nat) (ls : List Str) : empties (k + 1) ls = [] :: empties k ls := rfl

theorem Squeeze.empties {a b : List Str} (h : Squeeze a b) : ∀ {k j : Nat}, 1 ≤ j → j ≤ k → Squeeze (empties k a) (empties j b)
  | 0, _, h1, h2 => absurd h2 (by omega)
  | 1, j, h1, h2 => by
    obtain rfl : j = 1 := by omega
    exact .keep [] h
  | k + 2, 1, _, _ => .drop (Squeeze.empties h (k := k + 1) (j := 1) (by omega) (by omega))
  | k + 2, j + 2, _, h2 => .keep [] (Squeeze.empties h (k := k + 1) (j := j + 1) (by omega) (by omega))

theorem splitNL_newlines (k : Nat) (s : Str) : Str.splitNL (List.replicate k '\n' ++ s) = empties k (Str.splitNL s) := by
  induction k with
  | zero => rfl
  | succ k ih => rw [List.replicate_succ, List.cons_append, splitNL_nl, ih]; rfl

/-- The first line stays the same, and the rest is squeezed. -/
theorem squeeze_mapRunsGo (f : Nat → Nat) (h0 : f 0 = 0) (h1 : f 1 = 1) (h2 : ∀ k, 2 ≤ k → 2 ≤ f k ∧ f k ≤ k) (s : Str) :
    ∀ k, ∃ l a b, Str.splitNL (List.replicate k '\n' ++ s) = l :: a ∧ Str.splitNL (Spec.mapRunsGo f k s) = l :: b ∧
      Squeeze a b := by
  have run : ∀ (k : Nat) (t t' : Str), Squeeze (Str.splitNL t) (Str.splitNL t') → 1 ≤ k →
      ∃ l a b, Str.splitNL (List.replicate k '\n' ++ t) = l :: a ∧
        Str.splitNL (List.replicate (f k) '\n' ++ t') = l :: b ∧ Squeeze a b := by
    intro k t t' h hk
    obtain ⟨j, rfl⟩ : ∃ j, k = j + 1 := ⟨k - 1, by omega⟩
    obtain ⟨i, hi⟩ : ∃ i, f (j + 1) = i + 1 := by
      refine ⟨f (j + 1) - 1, ?_⟩
      cases j with
      | zero => rw [h1]
      | succ j => have := h2 (j + 1 + 1) (by omega); omega
    rw [splitNL_newlines, splitNL_newlines, hi, empties_succ, empties_succ]
    refine ⟨[], _, _, rfl, rfl, ?_⟩
    cases j with
    | zero =>
      obtain rfl : i = 0 := by rw [h1] at hi; omega
      exact h
    | succ j =>
      have := h2 (j + 1 + 1) (by omega)
      exact h.empties (by omega) (by omega)
  induction s with
  | nil =>
    intro k
    rw [Spec.mapRunsGo]
    cases k with
    | zero => rw [h0]; exact ⟨[], [], [], rfl, rfl, .nil⟩
    | succ k =>
      have := run (k + 1) [] [] (Squeeze.refl _) (by omega)
      rw [List.append_nil (List.replicate (f (k + 1)) '\n')] at this
      exact this
  | cons c s ih =>
    intro k
    by_cases hc : c = '\n'
    · subst hc
      rw [Spec.mapRunsGo, if_pos rfl]
      have := ih (k + 1)
      rwa [List.replicate_succ', List.append_assoc] at this
    · obtain ⟨l, a, b, e1, e2, h⟩ := ih 0
      have hs : ∀ t, Str.splitNL (c :: t) = match Str.splitNL t with
          | [] => [[c]]
          | l :: ls => (c :: l) :: ls := by
        intro t
        rw [Str.splitNL, if_neg hc]
        rfl
      have e1' : Str.splitNL (c :: s) = (c :: l) :: a := by rw [hs]; rw [List.replicate_zero, List.nil_append] at e1; rw [e1]
      have e2' : Str.splitNL (c :: Spec.mapRunsGo f 0 s) = (c :: l) :: b := by rw [hs, e2]
      rw [Spec.mapRunsGo, if_neg hc]
      cases k with
      | zero => rw [h0]; exact ⟨_, _, _, e1', e2', h⟩
      | succ k => exact run (k + 1) _ _ (by rw [e1', e2']; exact .keep _ h) (by omega)

theorem iter_shrink_ge_two (m : Nat) : ∀ k, 2 ≤ k → 2 ≤ iter shrink m k := by
  induction m with
  | zero => exact fun k h => h
  | succ m ih =>
    intro k h
    rw [iter]
    exact ih _ (by unfold shrink; omega)

theorem iter_shrink_one (m : Nat) : iter shrink m 1 = 1 := by
  induction m with
  | zero => rfl
  | succ m ih => rw [iter, show shrink 1 = 1 from rfl, ih]

/-- Cleaning up only drops empty lines that follow an empty line. -/
theorem squeeze_cleaned (m : Nat) (s : Str) : Squeeze (Str.splitNL s) (Str.splitNL (cleaned m s)) := by
  obtain ⟨l, a, b, e1, e2, h⟩ := squeeze_mapRunsGo (iter shrink m) (iter_shrink_zero m) (iter_shrink_one m)
    (fun k hk => ⟨iter_shrink_ge_two m k hk, iter_shrink_le m k⟩) s 0
  rw [List.replicate_zero, List.nil_append] at e1
  unfold cleaned mapRuns
  rw [e1, e2]
  exact .keep l h

theorem chunks_eq (s : Str) : chunks s = groups (Str.splitNL s) := by rw [chunks, splitOn_nl]

theorem chunks_cleaned (m : Nat) (s : Str) : chunks (cleaned m s) = chunks s := by
  rw [chunks_eq, chunks_eq, (squeeze_cleaned m s).groups]

theorem touch_iff (s t : Str) : Touch s t ↔ lastBlank (Str.splitNL s) = false ∧ headBlank (Str.splitNL t) = false := by
  unfold Touch lastBlank headBlank
  rw [splitOn_nl, splitOn_nl]
  cases h1 : (Str.splitNL s).getLast? <;> cases h2 : Str.splitNL t <;> simp

theorem touches_zero (l : List Str) : touches l = 0 ↔ l.IsChain fun s t => ¬ Touch s t := by
  induction l with
  | nil => simp [touches]
  | cons s l ih =>
    cases l with
    | nil => simp [touches]
    | cons t l =>
      rw [touches, List.isChain_cons_cons, ← ih]
      split <;> simp_all

theorem lastBlank_append (a b : List Str) (h : b ≠ []) : lastBlank (a ++ b) = lastBlank b := by
  unfold lastBlank
  rw [List.getLast?_append_of_ne_nil _ h]

theorem headBlank_append (a b : List Str) (h : a ≠ []) : headBlank (a ++ b) = headBlank a := by
  cases a with
  | nil => exact absurd rfl h
  | cons => rfl

theorem chunks_lines (l : List Str) (h : l ≠ []) :
    (touches l = 0 → chunks (lines l) = (l.map chunks).flatten) ∧
    (chunks (lines l)).length + touches l = ((l.map chunks).flatten).length := by
  unfold lines
  rw [lines_eq]
  simp only [chunks_eq]
  rw [splitNL_join_flatMap h]
  induction l with
  | nil => exact absurd rfl h
  | cons s l ih =>
    cases l with
    | nil => simp [touches, chunks_eq]
    | cons t l =>
      obtain ⟨ih1, ih2⟩ := ih (by simp)
      have hh : headBlank ((t :: l).flatMap Str.splitNL) = headBlank (Str.splitNL t) := by
        rw [List.flatMap_cons, headBlank_append _ _ (splitNL_ne_nil t)]
      have hap := groups_append (Str.splitNL s) ((t :: l).flatMap Str.splitNL)
      rw [hh] at hap
      rw [List.flatMap_cons, List.map_cons, List.flatten_cons, touches]
      by_cases ht : Touch s t
      · have := hap.2 ((touch_iff s t).mp ht).1 ((touch_iff s t).mp ht).2
        rw [if_pos ht]
        refine ⟨fun h => by omega, ?_⟩
        rw [List.length_append, chunks_eq]
        omega
      · have := hap.1 (by
          rw [touch_iff] at ht
          cases h1 : lastBlank (Str.splitNL s) <;> cases h2 : headBlank (Str.splitNL t) <;> simp_all)
        rw [if_neg ht, this, chunks_eq]
        refine ⟨fun h => by rw [ih1 (by omega)], ?_⟩
        rw [List.length_append, List.length_append]
        omega

theorem chunks_padded (n : Node) (s : Str) : chunks (padded n s) = chunks s := by
  have key : chunks (['\n'] ++ s ++ ['\n']) = chunks s := by
    rw [chunks_eq, chunks_eq, show ['\n'] ++ s ++ ['\n'] = '\n' :: (s ++ '\n' :: []) by simp, splitNL_nl,
      splitNL_append_gen, groups_blank (by rfl), (groups_append _ _).1 (.inr (by rfl))]
    rw [show Str.splitNL [] = [[]] from rfl, groups_blank (by rfl), groups_nil, List.append_nil]
  unfold padded
  split <;> first | exact key | rfl

end Verif
