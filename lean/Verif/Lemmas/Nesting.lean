import Verif.Spec.Nesting
import Verif.Lemmas.Lines
import Verif.Lemmas.Runs
/-!
# Lines of joined, cleaned and quoted texts
-/

namespace Verif
open Spec

theorem isLineOf_iff (l s : Str) : IsLineOf l s ↔ l ∈ Str.splitNL s := by
  constructor
  · rintro ⟨hl, a, b, rfl, ha, hb⟩
    have h1 : l ∈ Str.splitNL (l ++ b) := by
      rcases hb with rfl | ⟨b, rfl⟩
      · rw [List.append_nil, splitNL_of_noNL hl]; simp
      · rw [splitNL_append hl]; simp
    rcases ha with rfl | ⟨a, rfl⟩
    · simpa using h1
    · rw [show a ++ ['\n'] ++ l ++ b = a ++ '\n' :: (l ++ b) by simp, splitNL_append_gen]
      exact List.mem_append_right _ h1
  · intro h
    refine ⟨splitNL_noNL s l h, ?_⟩
    obtain ⟨p, q, e⟩ := List.append_of_mem h
    have hs := join_splitNL s
    rw [e] at hs
    have hl : ∃ b, Str.join ['\n'] (l :: q) = l ++ b ∧ (b = [] ∨ ∃ a, b = '\n' :: a) := by
      cases q with
      | nil => exact ⟨[], by simp [Str.join], .inl rfl⟩
      | cons b q => exact ⟨'\n' :: Str.join ['\n'] (b :: q), by rw [join_cons_cons]; simp, .inr ⟨_, rfl⟩⟩
    obtain ⟨b, h1, h2⟩ := hl
    cases p with
    | nil => exact ⟨[], b, by rw [← hs, List.nil_append, h1]; rfl, .inl rfl, h2⟩
    | cons x p =>
      refine ⟨Str.join ['\n'] (x :: p) ++ ['\n'], b, ?_, .inr ⟨_, rfl⟩, h2⟩
      rw [← hs, join_append _ (by simp) (by simp), h1]
      simp

theorem splitNL_join_flatMap {l : List Str} (h : l ≠ []) :
    Str.splitNL (Str.join ['\n'] l) = l.flatMap Str.splitNL := by
  induction l with
  | nil => exact absurd rfl h
  | cons a l ih =>
    cases l with
    | nil => simp [Str.join]
    | cons b l =>
      rw [join_cons_cons, List.flatMap_cons, ← ih (by simp), List.append_assoc]
      exact splitNL_append_gen a _

theorem splitNL_padded {l s : Str} (n : Node) (h : l ∈ Str.splitNL s) : l ∈ Str.splitNL (padded n s) := by
  have key : l ∈ Str.splitNL (['\n'] ++ s ++ ['\n']) := by
    rw [show ['\n'] ++ s ++ ['\n'] = [] ++ '\n' :: (s ++ '\n' :: []) by simp, splitNL_append_gen,
      splitNL_append_gen]
    exact List.mem_append_right _ (List.mem_append_left _ h)
  unfold padded
  split <;> first | exact key | exact h

theorem mem_blocks {env : Env} {kids : List Node} {ss : List Str} (hs : MdAll env kids ss) {c : Node}
    (hc : c ∈ kids) : ∃ t, Md env c t ∧ ∀ l, l ∈ Str.splitNL t → l ∈ Str.splitNL (blocks kids ss) := by
  have hne : List.zipWith padded kids ss ≠ [] := by
    cases hs with
    | nil => cases hc
    | cons _ _ => simp
  unfold blocks lines
  simp only [lines_eq]
  rw [splitNL_join_flatMap hne]
  clear hne
  induction hs with
  | nil => cases hc
  | @cons k s kids ss h _ ih =>
    simp only [List.zipWith_cons_cons, List.flatMap_cons, List.mem_append]
    rcases List.mem_cons.mp hc with rfl | hc
    · exact ⟨s, h, fun l hl => .inl (splitNL_padded _ hl)⟩
    · obtain ⟨t, h1, h2⟩ := ih hc
      exact ⟨t, h1, fun l hl => .inr (h2 l hl)⟩

/-! ## Cleaning up -/

def keepLines (ls : List Str) : List Str := ls.filter fun l => !l.isEmpty

theorem splitNL_nl (s : Str) : Str.splitNL ('\n' :: s) = [] :: Str.splitNL s := by
  rw [Str.splitNL]; rfl

theorem splitNL_replicate (k : Nat) (s : Str) :
    keepLines (Str.splitNL (List.replicate k '\n' ++ s)) = keepLines (Str.splitNL s) := by
  induction k with
  | zero => rfl
  | succ k ih =>
    rw [List.replicate_succ, List.cons_append, splitNL_nl]
    exact ih

theorem mapRunsGo_nl (f : Nat → Nat) (hf : ∀ k, 1 ≤ k → 1 ≤ f k) (s : Str) (k : Nat) (h : 1 ≤ k) :
    ∃ r, Spec.mapRunsGo f k s = '\n' :: r := by
  induction s generalizing k with
  | nil =>
    obtain ⟨j, hj⟩ := Nat.exists_eq_add_of_le (hf k h)
    exact ⟨List.replicate j '\n', by rw [Spec.mapRunsGo, hj, Nat.add_comm]; rfl⟩
  | cons c s ih =>
    rw [Spec.mapRunsGo]
    split
    · exact ih (k + 1) (by omega)
    · obtain ⟨j, hj⟩ := Nat.exists_eq_add_of_le (hf k h)
      rw [hj, Nat.add_comm]
      exact ⟨_, rfl⟩

theorem mapRuns_lines (f : Nat → Nat) (h0 : f 0 = 0) (hf : ∀ k, 1 ≤ k → 1 ≤ f k) (s : Str) :
    (∀ k, keepLines (Str.splitNL (Spec.mapRunsGo f k s)) = keepLines (Str.splitNL s)) ∧
    ∃ a p q, Str.splitNL (Spec.mapRunsGo f 0 s) = a :: p ∧ Str.splitNL s = a :: q ∧
      keepLines p = keepLines q := by
  induction s with
  | nil =>
    refine ⟨fun k => ?_, [], [], [], ?_, rfl, rfl⟩
    · rw [Spec.mapRunsGo]
      have := splitNL_replicate (f k) []
      rwa [List.append_nil] at this
    · rw [Spec.mapRunsGo, h0]; rfl
  | cons c s ih =>
    obtain ⟨ih1, a, p, q, e1, e2, e3⟩ := ih
    by_cases hc : c = '\n'
    · subst hc
      have h1 : ∀ k, Spec.mapRunsGo f k ('\n' :: s) = Spec.mapRunsGo f (k + 1) s := by
        intro k; rw [Spec.mapRunsGo, if_pos rfl]
      refine ⟨fun k => ?_, ?_⟩
      · rw [h1, ih1, splitNL_nl]; rfl
      · obtain ⟨r, hr⟩ := mapRunsGo_nl f hf s 1 (by omega)
        refine ⟨[], Str.splitNL r, Str.splitNL s, ?_, splitNL_nl s, ?_⟩
        · rw [h1, hr, splitNL_nl]
        · have := ih1 1
          rw [hr, splitNL_nl] at this
          exact this
    · have h1 : ∀ k, Spec.mapRunsGo f k (c :: s) = List.replicate (f k) '\n' ++ c :: Spec.mapRunsGo f 0 s := by
        intro k; rw [Spec.mapRunsGo, if_neg hc]
      have h2 : ∀ t, Str.splitNL (c :: t) = match Str.splitNL t with
          | [] => [[c]]
          | l :: ls => (c :: l) :: ls := by
        intro t
        rw [Str.splitNL, if_neg hc]
        rfl
      have h3 : Str.splitNL (c :: Spec.mapRunsGo f 0 s) = (c :: a) :: p := by rw [h2, e1]
      have h4 : Str.splitNL (c :: s) = (c :: a) :: q := by rw [h2, e2]
      refine ⟨fun k => ?_, c :: a, p, q, ?_, h4, e3⟩
      · rw [h1, splitNL_replicate, h3, h4]
        show (c :: a) :: keepLines p = (c :: a) :: keepLines q
        rw [e3]
      · rw [h1, h0]; exact h3

theorem cleaned_lines (m : Nat) {l s : Str} (hl : l ≠ []) :
    l ∈ Str.splitNL (cleaned m s) ↔ l ∈ Str.splitNL s := by
  have h := (mapRuns_lines (iter shrink m) (iter_shrink_zero m) (iter_shrink_pos m) s).1 0
  have hk : ∀ ls : List Str, l ∈ keepLines ls ↔ l ∈ ls := by
    intro ls
    unfold keepLines
    rw [List.mem_filter]
    constructor
    · exact fun h => h.1
    · intro h; exact ⟨h, by cases l <;> simp_all⟩
  rw [← hk, ← hk (Str.splitNL s), ← h]
  rfl

/-! ## Quoting -/

theorem splitKeep_ne {s : Str} (h : s ≠ []) : Str.splitLinesKeep s ≠ [] := by
  intro e
  have := splitKeep_flatten s
  rw [e] at this
  exact h this.symm

/-- Splitting starts afresh after a newline. -/
theorem splitKeep_after (r : Str) : ∀ (k : Nat) (a : Str), a.length ≤ k →
    ∃ p, Str.splitLinesKeep (a ++ '\n' :: r) = p ++ Str.splitLinesKeep r := by
  intro k
  induction k with
  | zero =>
    intro a ha
    cases a with
    | nil =>
      exact ⟨[['\n']], by
        rw [List.nil_append, Str.splitLinesKeep, if_pos (by decide)]
        · rfl
        · intro cs h; exact absurd h (by decide)⟩
    | cons c a => simp at ha
  | succ k ih =>
    intro a ha
    cases a with
    | nil => exact ih [] (by simp)
    | cons c a =>
      have hlen : a.length ≤ k := by simpa using ha
      by_cases hcr : c = '\r' ∧ ∃ t, a ++ '\n' :: r = '\n' :: t
      · obtain ⟨rfl, t, ht⟩ := hcr
        cases a with
        | nil => exact ⟨[['\r', '\n']], by simp [Str.splitLinesKeep]⟩
        | cons d a =>
          simp only [List.cons_append, List.cons.injEq] at ht
          obtain ⟨rfl, rfl⟩ := ht
          obtain ⟨p, hp⟩ := ih a (by simp at hlen; omega)
          exact ⟨['\r', '\n'] :: p, by
            rw [List.cons_append, List.cons_append, Str.splitLinesKeep, hp]; rfl⟩
      · obtain ⟨p, hp⟩ := ih a hlen
        have hne : p ≠ [] := by
          rintro rfl
          have h1 := congrArg List.flatten hp
          rw [List.nil_append, splitKeep_flatten, splitKeep_flatten] at h1
          have := congrArg List.length h1
          simp at this
          omega
        rw [List.cons_append, Str.splitLinesKeep]
        · split
          · exact ⟨[c] :: p, by rw [hp]; rfl⟩
          · cases p with
            | nil => exact absurd rfl hne
            | cons l p => exact ⟨(c :: l) :: p, by rw [hp]; rfl⟩
        · intro t h1 h2; exact hcr ⟨h1, t, h2⟩

theorem indentAll_line {pre : Str} (hp : '\n' ∉ pre) {l s : Str} (hl : CleanLine l) (h : l ∈ Str.splitNL s) :
    pre ++ l ∈ Str.splitNL (Str.indentAll pre s) := by
  obtain ⟨hnl, a, b, rfl, ha, hb⟩ := (isLineOf_iff l s).mpr h
  obtain ⟨hne, hlb⟩ := hl
  -- the line and what follows
  have h1 : ∃ rest, Str.splitLinesKeep (l ++ b) = rest ∧
      ((rest.map (pre ++ ·)).flatten = pre ++ l ∨ ∃ t, (rest.map (pre ++ ·)).flatten = pre ++ l ++ '\n' :: t) := by
    rcases hb with rfl | ⟨b, rfl⟩
    · exact ⟨[l], by rw [List.append_nil, splitKeep_last l hlb hne], .inl (by simp)⟩
    · refine ⟨(l ++ ['\n']) :: Str.splitLinesKeep b, ?_, .inr ⟨((Str.splitLinesKeep b).map (pre ++ ·)).flatten, ?_⟩⟩
      · have := splitKeep_term l ['\n'] b hlb (.inr ⟨'\n', by decide, rfl⟩) (by intro h; simp at h)
        simpa using this
      · simp only [List.map_cons, List.flatten_cons]
        simp
  obtain ⟨rest, hrest, hr⟩ := h1
  -- what comes before
  have h2 : ∃ p, Str.splitLinesKeep (a ++ (l ++ b)) = p ++ rest ∧ (p = [] ∨ ∃ q, p.flatten = q ++ ['\n']) := by
    rcases ha with rfl | ⟨a, rfl⟩
    · exact ⟨[], by simpa using hrest, .inl rfl⟩
    · obtain ⟨p, hp⟩ := splitKeep_after (l ++ b) _ a (Nat.le_refl _)
      refine ⟨p, by rw [← hrest, ← hp]; simp, .inr ⟨a, ?_⟩⟩
      have := congrArg List.flatten hp
      rw [splitKeep_flatten, List.flatten_append, splitKeep_flatten] at this
      have e : a ++ '\n' :: (l ++ b) = (a ++ ['\n']) ++ (l ++ b) := by simp
      rw [e] at this
      exact (List.append_cancel_right this).symm
  obtain ⟨p, hp1, hp2⟩ := h2
  rw [← isLineOf_iff]
  refine ⟨by simp [hp, hnl], (p.map (pre ++ ·)).flatten, ?_⟩
  have e : Str.indentAll pre (a ++ l ++ b) = (p.map (pre ++ ·)).flatten ++ (rest.map (pre ++ ·)).flatten := by
    unfold Str.indentAll
    rw [List.append_assoc, hp1, List.map_append, List.flatten_append]
  have hbefore : (p.map (pre ++ ·)).flatten = [] ∨ ∃ q, (p.map (pre ++ ·)).flatten = q ++ ['\n'] := by
    rcases hp2 with rfl | ⟨q, hq⟩
    · exact .inl rfl
    · right
      rcases List.eq_nil_or_concat p with rfl | ⟨p', x, rfl⟩
      · simp at hq
      · have hx : x ≠ [] → ∃ y, x = y ++ ['\n'] := by
          intro hx
          rcases List.eq_nil_or_concat x with rfl | ⟨y, c, rfl⟩
          · exact absurd rfl hx
          · refine ⟨y, ?_⟩
            rw [List.concat_eq_append, List.flatten_append] at hq
            simp only [List.flatten_cons, List.flatten_nil, List.append_nil, List.concat_eq_append,
              ← List.append_assoc] at hq
            have := List.append_inj_right' hq rfl
            rw [List.concat_eq_append, this]
        have hxe : x ≠ [] := by
          -- pieces of a split are never empty
          have hmem : x ∈ Str.splitLinesKeep (a ++ (l ++ b)) := by rw [hp1]; simp
          have hL := isLines_split (a ++ (l ++ b))
          generalize Str.splitLinesKeep (a ++ (l ++ b)) = L at hmem hL
          clear * - hmem hL
          induction hL with
          | nil => cases hmem
          | last body _ hne => simp at hmem; rw [hmem]; exact hne
          | cons body t ls _ ht _ _ ih =>
            rcases List.mem_cons.mp hmem with rfl | hmem
            · rcases ht with rfl | ⟨c, _, rfl⟩ <;> simp
            · exact ih hmem
        obtain ⟨y, rfl⟩ := hx hxe
        exact ⟨((p'.map (pre ++ ·)).flatten ++ (pre ++ y)), by simp [List.concat_eq_append]⟩
  rcases hr with hr | ⟨t, hr⟩
  · exact ⟨[], by rw [e, hr]; simp, hbefore, .inl rfl⟩
  · exact ⟨'\n' :: t, by rw [e, hr]; simp, hbefore, .inr ⟨t, rfl⟩⟩

end Verif
