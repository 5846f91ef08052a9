import Verif.Lemmas.Runs
/-!
# C15: `strip_double_empty_line`
-/

namespace Verif.Props
open Verif

/-- C15: the exact effect of `strip_double_empty_line(text, n)`: every maximal run of `k` newlines
becomes a run of `shrink^n k` newlines (`shrink k = k - k / 3`), everything else is untouched. -/
theorem C15_runs (n : Nat) (s : Str) :
    stripDoubleEmptyLine n s = Spec.mapRuns (Spec.iter Spec.shrink n) s := strip_eq n s

/-- C15: no non-newline character is added, removed or moved. -/
theorem C15_other_chars (n : Nat) (s : Str) :
    (stripDoubleEmptyLine n s).filter (· != '\n') = s.filter (· != '\n') :=
  strip_filter n _ (by decide) s

/-- C15: a run is never lengthened and never removed. -/
theorem C15_bounds (n k : Nat) :
    Spec.iter Spec.shrink n k ≤ k ∧ (1 ≤ k → 1 ≤ Spec.iter Spec.shrink n k) :=
  ⟨iter_shrink_le n k, iter_shrink_pos n k⟩

/-- C15, the documented call (`n = 3`): the result has three newlines in a row iff the input had
seven.  In particular no run of at most six newlines survives as more than two. -/
theorem C15_at_most_two (s : Str) :
    Spec.HasRun 3 (stripDoubleEmptyLine 3 s) ↔ Spec.HasRun 7 s := by
  rw [hasRun_iff, hasRun_iff, maxRun_strip]
  simp only [Spec.iter, Spec.shrink]
  omega

/-- Already clean text is left alone, whatever `n`. -/
theorem C15_clean (n : Nat) (s : Str) (h : ¬ Spec.HasRun 3 s) : stripDoubleEmptyLine n s = s := by
  have key : ∀ k, k ≤ 2 → Spec.iter Spec.shrink n k = k := by
    intro k hk
    induction n with
    | zero => rfl
    | succ n ih =>
      have : Spec.shrink k = k := by unfold Spec.shrink; omega
      rw [Spec.iter, this, ih]
  rw [hasRun_iff] at h
  rw [strip_eq]
  have : ∀ (s : Str) (k : Nat), maxRunGo k s ≤ 2 →
      Spec.mapRunsGo (Spec.iter Spec.shrink n) k s = List.replicate k '\n' ++ s := by
    intro s
    induction s with
    | nil => intro k hk; simp [maxRunGo] at hk; simp [Spec.mapRunsGo, key k hk]
    | cons c cs ih =>
      intro k hk
      by_cases hc : c = '\n'
      · subst hc
        rw [maxRunGo, if_pos rfl] at hk
        rw [Spec.mapRunsGo, if_pos rfl, ih _ hk, List.replicate_succ']
        simp
      · rw [maxRunGo, if_neg hc] at hk
        rw [Spec.mapRunsGo, if_neg hc, ih 0 (by omega), key k (by omega)]
        rfl
  exact this s 0 (by unfold maxRun at h; omega)

example : stripDoubleEmptyLine 3 "a\n\n\n\n\n\nb\n\n\n\n\n\n\nc".toList = "a\n\nb\n\n\nc".toList := rfl
example : Spec.HasRun 7 "b\n\n\n\n\n\n\nc".toList := ⟨['b'], ['c'], rfl⟩
example : ¬ Spec.HasRun 3 "b\n\nc".toList := by rw [hasRun_iff]; decide

example := C15_clean 3 "b\n\nc".toList (by rw [hasRun_iff]; decide)

end Verif.Props
