import Verif.Spec.Text
import Verif.Model.Markdown
/-!
# Runs of newlines
-/

namespace Verif
open Spec

theorem prefix3 (s : Str) : ['\n', '\n', '\n'].isPrefixOf s = true ↔ ∃ r, s = '\n' :: '\n' :: '\n' :: r := by
  constructor
  · intro h
    rw [List.isPrefixOf_iff_prefix] at h
    obtain ⟨r, rfl⟩ := h
    exact ⟨r, rfl⟩
  · rintro ⟨r, rfl⟩
    simp [List.isPrefixOf]

/-- `r` does not continue a run. -/
def NoHead (r : Str) : Prop := ∀ c cs, r = c :: cs → c ≠ '\n'

theorem replace_run (r : Str) (hr : NoHead r) (k : Nat) :
    Str.replaceGo ['\n', '\n', '\n'] ['\n', '\n'] 0 (List.replicate k '\n' ++ r) =
      List.replicate (shrink k) '\n' ++ Str.replaceGo ['\n', '\n', '\n'] ['\n', '\n'] 0 r := by
  induction k using Nat.strongRecOn with
  | ind k ih =>
    match k with
    | 0 => rfl
    | 1 =>
      show Str.replaceGo _ _ 0 ('\n' :: r) = '\n' :: _
      rw [Str.replaceGo, if_neg]
      · rfl
      · rw [prefix3]; rintro ⟨r', h⟩; simp at h; exact hr _ _ h rfl
    | 2 =>
      show Str.replaceGo _ _ 0 ('\n' :: '\n' :: r) = '\n' :: '\n' :: _
      rw [Str.replaceGo, if_neg, Str.replaceGo, if_neg]
      · rfl
      · rw [prefix3]; rintro ⟨r', h⟩; simp at h; exact hr _ _ h rfl
      · rw [prefix3]; rintro ⟨r', h⟩; simp at h; exact hr _ _ h rfl
    | k + 3 =>
      have h1 : shrink (k + 3) = shrink k + 2 := by unfold shrink; omega
      rw [h1]
      show Str.replaceGo _ _ 0 ('\n' :: '\n' :: '\n' :: (List.replicate k '\n' ++ r)) = _
      rw [Str.replaceGo, if_pos (by rw [prefix3]; exact ⟨_, rfl⟩)]
      show '\n' :: '\n' :: Str.replaceGo _ _ 0 (List.replicate k '\n' ++ r) = _
      rw [ih k (by omega)]
      rfl

theorem replace_eq_mapRunsGo (s : Str) (k : Nat) :
    Str.replaceGo ['\n', '\n', '\n'] ['\n', '\n'] 0 (List.replicate k '\n' ++ s) =
      mapRunsGo shrink k s := by
  induction s generalizing k with
  | nil =>
    rw [replace_run [] (by intro c cs h; simp at h)]
    simp [Str.replaceGo, mapRunsGo]
  | cons c cs ih =>
    by_cases h : c = '\n'
    · subst h
      rw [mapRunsGo, if_pos rfl, ← ih (k + 1), List.replicate_succ']
      simp
    · rw [replace_run _ (by intro c' cs' h'; simp at h'; rw [← h'.1]; exact h), mapRunsGo, if_neg h,
        ← ih 0, Str.replaceGo, if_neg]
      · rfl
      · rw [prefix3]; rintro ⟨r', h'⟩; simp at h'; exact h h'.1

theorem replace_eq_mapRuns (s : Str) :
    Str.replace ['\n', '\n', '\n'] ['\n', '\n'] s = mapRuns shrink s :=
  replace_eq_mapRunsGo s 0

theorem mapRunsGo_replicate (f : Nat → Nat) (k j : Nat) (s : Str) :
    mapRunsGo f k (List.replicate j '\n' ++ s) = mapRunsGo f (k + j) s := by
  induction j generalizing k with
  | zero => rfl
  | succ j ih =>
    rw [List.replicate_succ, List.cons_append, mapRunsGo, if_pos rfl, ih]
    congr 1; omega

theorem mapRunsGo_comp (f g : Nat → Nat) (s : Str) (k : Nat) :
    mapRunsGo f 0 (mapRunsGo g k s) = mapRunsGo (fun k => f (g k)) k s := by
  induction s generalizing k with
  | nil =>
    have := mapRunsGo_replicate f 0 (g k) []
    simp only [List.append_nil, Nat.zero_add] at this
    simp [mapRunsGo, this]
  | cons c cs ih =>
    by_cases h : c = '\n'
    · simp only [mapRunsGo, if_pos h, ih]
    · simp only [mapRunsGo, if_neg h, mapRunsGo_replicate, Nat.zero_add, ih]

theorem mapRunsGo_id (s : Str) (k : Nat) :
    mapRunsGo (fun k => k) k s = List.replicate k '\n' ++ s := by
  induction s generalizing k with
  | nil => simp [mapRunsGo]
  | cons c cs ih =>
    by_cases h : c = '\n'
    · subst h; rw [mapRunsGo, if_pos rfl, ih, List.replicate_succ']; simp
    · rw [mapRunsGo, if_neg h, ih]; rfl

theorem strip_eq (n : Nat) (s : Str) : stripDoubleEmptyLine n s = mapRuns (iter shrink n) s := by
  induction n generalizing s with
  | zero => exact (mapRunsGo_id s 0).symm
  | succ n ih =>
    rw [stripDoubleEmptyLine, ih, replace_eq_mapRuns]
    exact mapRunsGo_comp (iter shrink n) shrink s 0

/-- Length of the longest run of newlines, `k` newlines of the current run already read. -/
def maxRunGo : Nat → Str → Nat
  | k, [] => k
  | k, c :: cs => if c = '\n' then maxRunGo (k + 1) cs else max k (maxRunGo 0 cs)

/-- Length of the longest run of newlines. -/
def maxRun (s : Str) : Nat := maxRunGo 0 s

theorem maxRunGo_le (s : Str) (k : Nat) : k ≤ maxRunGo k s := by
  induction s generalizing k with
  | nil => exact Nat.le_refl _
  | cons c cs ih =>
    rw [maxRunGo]
    split
    · exact Nat.le_trans (Nat.le_succ k) (ih (k + 1))
    · exact Nat.le_max_left _ _

theorem maxRunGo_replicate (k j : Nat) (s : Str) :
    maxRunGo k (List.replicate j '\n' ++ s) = maxRunGo (k + j) s := by
  induction j generalizing k with
  | zero => rfl
  | succ j ih =>
    rw [List.replicate_succ, List.cons_append, maxRunGo, if_pos rfl, ih]
    congr 1; omega

theorem maxRun_eq (s : Str) (k : Nat) : maxRun (List.replicate k '\n' ++ s) = maxRunGo k s := by
  rw [maxRun, maxRunGo_replicate, Nat.zero_add]

theorem maxRun_mapRuns (f : Nat → Nat) (hm : ∀ a b, a ≤ b → f a ≤ f b) (s : Str)
    (k : Nat) : maxRunGo 0 (mapRunsGo f k s) = f (maxRunGo k s) := by
  induction s generalizing k with
  | nil =>
    have := maxRunGo_replicate 0 (f k) []
    simp only [List.append_nil, Nat.zero_add, maxRunGo] at this
    simp [mapRunsGo, maxRunGo, this]
  | cons c cs ih =>
    by_cases h : c = '\n'
    · simp only [mapRunsGo, if_pos h, ih, maxRunGo]
    · simp only [mapRunsGo, if_neg h, maxRunGo_replicate, Nat.zero_add, maxRunGo, ih]
      rcases Nat.le_total k (maxRunGo 0 cs) with h1 | h1
      · rw [Nat.max_eq_right h1, Nat.max_eq_right (hm _ _ h1)]
      · rw [Nat.max_eq_left h1, Nat.max_eq_left (hm _ _ h1)]

theorem shrink_mono : ∀ a b, a ≤ b → shrink a ≤ shrink b := by
  intro a b h; unfold shrink; omega

theorem iter_shrink_mono (n : Nat) : ∀ a b, a ≤ b → iter shrink n a ≤ iter shrink n b := by
  induction n with
  | zero => intro a b h; exact h
  | succ n ih => intro a b h; exact ih _ _ (shrink_mono _ _ h)

theorem iter_shrink_le (n k : Nat) : iter shrink n k ≤ k := by
  induction n generalizing k with
  | zero => exact Nat.le_refl _
  | succ n ih => exact Nat.le_trans (ih _) (Nat.sub_le _ _)

theorem iter_shrink_zero (n : Nat) : iter shrink n 0 = 0 := by
  have := iter_shrink_le n 0; omega

theorem iter_shrink_pos (n k : Nat) (h : 1 ≤ k) : 1 ≤ iter shrink n k := by
  induction n generalizing k with
  | zero => exact h
  | succ n ih => apply ih; unfold shrink; omega

theorem maxRun_strip (n : Nat) (s : Str) :
    maxRun (stripDoubleEmptyLine n s) = iter shrink n (maxRun s) := by
  rw [strip_eq]; exact maxRun_mapRuns _ (iter_shrink_mono n) s 0

theorem hasRun_replicate_append {m k : Nat} {s : Str} (h : HasRun m (List.replicate k '\n' ++ s)) :
    m ≤ maxRunGo k s := by
  induction s generalizing k with
  | nil =>
    rw [List.append_nil] at h
    have := h.length_le
    simpa [maxRunGo] using this
  | cons c cs ih =>
    by_cases hc : c = '\n'
    · subst hc
      rw [maxRunGo, if_pos rfl]
      apply ih
      rwa [List.replicate_succ', List.append_assoc, List.singleton_append]
    · rw [maxRunGo, if_neg hc]
      obtain ⟨a, b, hab⟩ := h
      rw [List.append_assoc] at hab
      -- split at position of c
      rcases List.append_eq_append_iff.mp hab with ⟨a', h1, h2⟩ | ⟨c', h1, h2⟩
      · -- replicate k = a ++ a', replicate m ++ b = a' ++ c :: cs
        rcases List.append_eq_append_iff.mp h2 with ⟨a'', h3, h4⟩ | ⟨c'', h3, h4⟩
        · -- a' = rep m ++ a''
          have : (List.replicate m '\n').length ≤ (List.replicate k '\n').length := by
            rw [h1, h3]; simp; omega
          simp at this
          omega
        · -- rep m = a' ++ c'', c :: cs = c'' ++ b
          cases c'' with
          | nil =>
            have : (List.replicate m '\n').length ≤ (List.replicate k '\n').length := by
              rw [h1, h3]; simp
            simp at this
            omega
          | cons x xs =>
            simp at h4
            have : x ∈ List.replicate m '\n' := by rw [h3]; simp
            rw [List.mem_replicate] at this
            rw [h4.1] at hc
            exact absurd this.2 hc
      · -- a = rep k ++ c', c :: cs = c' ++ rep m ++ b
        cases c' with
        | nil =>
          simp at h2
          cases m with
          | zero => omega
          | succ m => simp [List.replicate_succ] at h2; exact absurd h2.1 hc
        | cons x xs =>
          simp at h2
          have : HasRun m (List.replicate 0 '\n' ++ cs) := ⟨xs, b, by simp [h2.2]⟩
          have := ih this
          omega

theorem hasRun_of_le {m k : Nat} {s : Str} (h : m ≤ maxRunGo k s) :
    HasRun m (List.replicate k '\n' ++ s) := by
  induction s generalizing k with
  | nil =>
    simp [maxRunGo] at h
    refine ⟨[], List.replicate (k - m) '\n', ?_⟩
    simp only [List.nil_append, List.append_nil]
    rw [List.replicate_append_replicate]; congr 1; omega
  | cons c cs ih =>
    by_cases hc : c = '\n'
    · subst hc
      rw [maxRunGo, if_pos rfl] at h
      have := ih h
      rwa [List.replicate_succ', List.append_assoc, List.singleton_append] at this
    · rw [maxRunGo, if_neg hc] at h
      rcases Nat.le_total (maxRunGo 0 cs) k with h1 | h1
      · refine ⟨[], List.replicate (k - m) '\n' ++ c :: cs, ?_⟩
        rw [List.nil_append, ← List.append_assoc, List.replicate_append_replicate]
        congr 2; omega
      · have := ih (k := 0) (by omega)
        obtain ⟨a, b, hab⟩ := this
        refine ⟨List.replicate k '\n' ++ c :: a, b, ?_⟩
        simp at hab ⊢
        exact hab

theorem hasRun_iff (m : Nat) (s : Str) : HasRun m s ↔ m ≤ maxRun s :=
  ⟨fun h => hasRun_replicate_append (k := 0) h, fun h => hasRun_of_le (k := 0) h⟩

theorem mapRunsGo_filter (f : Nat → Nat) (p : Char → Bool) (hp : p '\n' = false) (s : Str) (k : Nat) :
    (mapRunsGo f k s).filter p = s.filter p := by
  have hrep : ∀ j, (List.replicate j '\n').filter p = [] := by
    intro j; rw [List.filter_eq_nil_iff]; intro a ha; rw [(List.mem_replicate.mp ha).2]; simp [hp]
  induction s generalizing k with
  | nil => simp [mapRunsGo, hrep]
  | cons c cs ih =>
    by_cases h : c = '\n'
    · subst h; rw [mapRunsGo, if_pos rfl, ih]; simp [hp]
    · rw [mapRunsGo, if_neg h, List.filter_append, hrep, List.filter_cons, List.filter_cons, ih]; rfl

theorem strip_filter (n : Nat) (p : Char → Bool) (hp : p '\n' = false) (s : Str) :
    (stripDoubleEmptyLine n s).filter p = s.filter p := by
  rw [strip_eq]; exact mapRunsGo_filter _ p hp s 0

end Verif
