import Verif.Lemmas.Runs
/-!
# Longest runs of newlines in joined texts
-/

namespace Verif
open Spec

/-- A character other than newline occurs. -/
def visible (s : Str) : Bool := s.any (· != '\n')

theorem maxRunGo_mono (s : Str) (a b : Nat) (h : a ≤ b) : maxRunGo a s ≤ maxRunGo b s := by
  induction s generalizing a b with
  | nil => exact h
  | cons c cs ih =>
    rw [maxRunGo, maxRunGo]
    split
    · exact ih _ _ (by omega)
    · omega

theorem maxRunGo_zero_le (s : Str) (k : Nat) : maxRunGo 0 s ≤ maxRunGo k s :=
  maxRunGo_mono s 0 k (Nat.zero_le _)

theorem maxRunGo_add2 (s : Str) (a b : Nat) : maxRunGo (a + b) s ≤ a + maxRunGo b s := by
  induction s generalizing b with
  | nil => simp [maxRunGo]
  | cons c cs ih =>
    rw [maxRunGo, maxRunGo]
    split
    · exact ih (b + 1)
    · omega

theorem maxRunGo_add (s : Str) (k : Nat) : maxRunGo k s ≤ k + maxRunGo 0 s :=
  maxRunGo_add2 s k 0

/-- Text `a` with a visible character: the counter at the start and what follows do not interact. -/
theorem maxRunGo_append (a b : Str) (k : Nat) :
    maxRunGo k (a ++ b) ≤ maxRunGo k a + maxRunGo 0 b := by
  induction a generalizing k with
  | nil => exact maxRunGo_add b k
  | cons c cs ih =>
    rw [List.cons_append, maxRunGo, maxRunGo]
    split
    · exact ih _
    · have := ih 0; omega

/-- If `a` has a visible character, a run in `a ++ b` is within `a` extended by the start of `b`, or
in `b` extended by the end of `a`. -/
theorem maxRunGo_append_visible (a b : Str) (k : Nat) (hv : visible a = true) (m r : Nat)
    (h1 : maxRunGo k a ≤ m) (h0 : maxRunGo 0 a ≤ r) (h2 : maxRunGo r b ≤ m) :
    maxRunGo k (a ++ b) ≤ m := by
  induction a generalizing k with
  | nil => simp [visible] at hv
  | cons c cs ih =>
    rw [maxRunGo] at h1 h0
    rw [List.cons_append, maxRunGo]
    by_cases hc : c = '\n'
    · rw [if_pos hc] at h1 h0 ⊢
      have hv' : visible cs = true := by
        subst hc; simpa [visible] using hv
      exact ih _ hv' h1 (Nat.le_trans (maxRunGo_zero_le cs 1) (by simpa using h0))
    · rw [if_neg hc] at h1 h0 ⊢
      have h0' : maxRunGo 0 cs ≤ r := by omega
      have h1' : maxRunGo 0 cs ≤ m := by omega
      have : maxRunGo 0 (cs ++ b) ≤ m := by
        by_cases hv' : visible cs = true
        · exact ih 0 hv' h1' h0'
        · -- cs is all newlines
          have hall : cs = List.replicate cs.length '\n' := by
            apply List.eq_replicate_iff.mpr
            refine ⟨rfl, ?_⟩
            intro x hx
            by_cases hne : x = '\n'
            · exact hne
            · refine absurd ?_ hv'
              simp only [visible, List.any_eq_true]
              exact ⟨x, hx, by simpa using hne⟩
          have hlen : maxRunGo 0 cs = cs.length := by
            rw [hall]
            have := maxRunGo_replicate 0 cs.length []
            simpa [maxRunGo] using this
          rw [hall, maxRunGo_replicate, Nat.zero_add]
          exact Nat.le_trans (maxRunGo_mono b _ _ (by omega)) h2
      omega

/-- Visible pieces with runs of at most 2 newlines, joined by newlines: runs of at most 5. -/
theorem maxRun_join (l : List Str) (hl : ∀ a ∈ l, visible a = true ∧ maxRun a ≤ 2) :
    maxRunGo 3 (Str.join ['\n'] l) ≤ 5 := by
  induction l with
  | nil => simp [Str.join, maxRunGo]
  | cons a l ih =>
    have ha := hl a (by simp)
    have ih := ih (fun b hb => hl b (by simp [hb]))
    have h3 : maxRunGo 3 a ≤ 5 := by
      have := maxRunGo_add a 3
      have := ha.2
      unfold maxRun at this
      omega
    cases l with
    | nil => exact h3
    | cons b l =>
      rw [Str.join, List.append_assoc]
      apply maxRunGo_append_visible a _ 3 ha.1 5 2 h3 ha.2
      show maxRunGo 2 ('\n' :: Str.join ['\n'] (b :: l)) ≤ 5
      rw [maxRunGo, if_pos rfl]
      exact ih

end Verif
