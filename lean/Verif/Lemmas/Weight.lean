import Verif.Model.Markdown
/-!
# Weights of strings: what the operations of the renderer add to a text
-/

namespace Verif.Weight
open Verif

/-- The weight of a text, if a character weighs `w`. -/
def ws (w : Char → Nat) (s : Str) : Nat := (s.map w).sum

variable {w : Char → Nat}

theorem ws_nil : ws w [] = 0 := rfl
theorem ws_cons (c : Char) (s : Str) : ws w (c :: s) = w c + ws w s := by simp [ws]
theorem ws_append (a b : Str) : ws w (a ++ b) = ws w a + ws w b := by simp [ws]
theorem ws_single (c : Char) : ws w [c] = w c := by simp [ws]

theorem ws_reverse (s : Str) : ws w s.reverse = ws w s := by
  induction s with
  | nil => rfl
  | cons c s ih => rw [List.reverse_cons, ws_append, ih, ws_single, ws_cons]; omega

theorem ws_dropWhile (p : Char → Bool) (s : Str) : ws w (s.dropWhile p) ≤ ws w s := by
  induction s with
  | nil => exact Nat.le_refl _
  | cons c s ih =>
    rw [List.dropWhile_cons]
    split
    · rw [ws_cons]; omega
    · exact Nat.le_refl _

theorem ws_rstrip (s : Str) : ws w (Str.rstrip s) ≤ ws w s := by
  unfold Str.rstrip
  rw [ws_reverse]
  exact Nat.le_trans (ws_dropWhile _ _) (Nat.le_of_eq (ws_reverse s))

theorem ws_rep (s : Str) (n : Nat) : ws w (List.replicate n s).flatten = n * ws w s := by
  induction n with
  | zero => simp [ws]
  | succ n ih => rw [List.replicate_succ, List.flatten_cons, ws_append, ih]; rw [Nat.succ_mul]; omega

/-- A list of lines, each with a separator of weight `k`. -/
def total (w : Char → Nat) (k : Nat) : List Str → Nat
  | [] => 0
  | a :: l => ws w a + k + total w k l

theorem total_append (k : Nat) (a b : List Str) : total w k (a ++ b) = total w k a + total w k b := by
  induction a with
  | nil => simp [total]
  | cons x a ih => simp only [List.cons_append, total, ih]; omega

theorem ws_join (sep : Str) : ∀ l : List Str, ws w (Str.join sep l) ≤ total w (ws w sep) l
  | [] => Nat.le_refl _
  | [a] => by simp only [Str.join, total]; omega
  | a :: b :: l => by
    have := ws_join sep (b :: l)
    simp only [Str.join, total, ws_append] at this ⊢
    omega

theorem total_split (k : Nat) (hk : w '\n' = k) : ∀ s : Str, total w k (Str.splitNL s) = ws w s + k
  | [] => by simp [Str.splitNL, total, ws]
  | c :: s => by
    have ih := total_split k hk s
    unfold Str.splitNL
    split
    · rename_i h
      subst h
      simp only [total, ws_nil, ws_cons, ih]
      rw [show w Str.nl = k from hk]
      omega
    · split
      · rename_i h
        rw [h] at ih
        simp only [total] at ih
        simp only [total, ws_nil, ws_cons]; omega
      · rename_i l ls h
        rw [h] at ih
        simp only [total, ws_cons] at ih ⊢
        omega

theorem split_length (w : Char → Nat) (hw : 1 ≤ w '\n') : ∀ s : Str, (Str.splitNL s).length ≤ ws w s + 1
  | [] => by simp [Str.splitNL]
  | c :: s => by
    have ih := split_length w hw s
    unfold Str.splitNL
    split
    · rename_i h
      subst h
      simp only [List.length_cons, ws_cons]
      rw [show (Str.nl) = '\n' from rfl]
      omega
    · split
      · simp
      · rename_i l ls h
        rw [h] at ih
        simp only [List.length_cons, ws_cons] at ih ⊢
        omega

/-! ## replace -/

theorem replaceGo_pipe (skip : Nat) : ∀ s : Str, skip = 0 →
    ws w (Str.replaceGo ['|'] ['\\', '|'] skip s) ≤ ws w s + w '\\' * s.count '|'
  | [], h => by subst h; simp [Str.replaceGo, ws]
  | c :: s, h => by
    subst h
    have ih := replaceGo_pipe 0 s rfl
    unfold Str.replaceGo
    split
    · rename_i hp
      have hc : c = '|' := by
        simp [List.isPrefixOf] at hp
        exact hp.symm
      subst hc
      simp only [List.length_cons, List.length_nil, Nat.zero_add, Nat.sub_self, ws_append, ws_cons, ws_nil,
        List.count_cons_self]
      rw [Nat.mul_add]
      omega
    · rename_i hp
      have hc : c ≠ '|' := by
        rintro rfl
        exact hp (by simp [List.isPrefixOf])
      rw [ws_cons, ws_cons, List.count_cons_of_ne (by simpa using hc)]
      omega

theorem ws_pipes (s : Str) : ws w (Str.replace ['|'] ['\\', '|'] s) ≤ ws w s + w '\\' * s.count '|' :=
  replaceGo_pipe 0 s rfl

theorem ws_take_drop (n : Nat) (s : Str) : ws w s = ws w (s.take n) + ws w (s.drop n) := by
  rw [← ws_append, List.take_append_drop]

theorem replaceGo_three (s : Str) : ∀ skip, 
    ws w (Str.replaceGo ['\n', '\n', '\n'] ['\n', '\n'] skip s) ≤ ws w (s.drop skip) := by
  induction s with
  | nil => intro skip; cases skip <;> simp [Str.replaceGo, ws]
  | cons c s ih =>
    intro skip
    cases skip with
    | succ skip =>
      unfold Str.replaceGo
      exact ih skip
    | zero =>
      unfold Str.replaceGo
      split
      · rename_i hp
        obtain ⟨t, ht⟩ := List.isPrefixOf_iff_prefix.mp hp
        have h2 := ih 2
        simp only [List.cons_append, List.nil_append, List.cons.injEq] at ht
        obtain ⟨rfl, ht⟩ := ht
        rw [← ht] at h2 ⊢
        simp only [List.drop_succ_cons, List.drop_zero] at h2
        show ws w (['\n', '\n'] ++ Str.replaceGo _ _ 2 _) ≤ _
        simp only [ws_append, ws_cons, ws_nil, List.drop_zero]
        omega
      · have := ih 0
        simp only [List.drop_zero] at this
        simp only [ws_cons, List.drop_zero]
        omega

theorem ws_strip3 (n : Nat) : ∀ s : Str, ws w (stripDoubleEmptyLine n s) ≤ ws w s := by
  induction n with
  | zero => intro s; exact Nat.le_refl _
  | succ n ih =>
    intro s
    refine Nat.le_trans (ih _) ?_
    have := replaceGo_three (w := w) s 0
    rw [List.drop_zero] at this
    exact this

/-! ## splitlines -/

theorem keep_ws : ∀ s : Str, ws w (Str.splitLinesKeep s).flatten = ws w s := by
  intro s
  have : (Str.splitLinesKeep s).flatten = s := by
    fun_induction Str.splitLinesKeep s <;> simp_all
  rw [this]

theorem keep_length (w : Char → Nat) (hw : ∀ c, Str.isLineBreak c = true → 1 ≤ w c) :
    ∀ s : Str, (Str.splitLinesKeep s).length ≤ ws w s + 1 := by
  intro s
  fun_induction Str.splitLinesKeep s with
  | case1 => simp
  | case2 cs ih =>
    have := hw '\n' (by decide)
    simp only [List.length_cons, ws_cons] at ih ⊢
    omega
  | case3 c cs _ h ih =>
    have := hw c h
    simp only [List.length_cons, ws_cons] at ih ⊢
    omega
  | case4 c cs _ h hl ih => simp
  | case5 c cs _ h l ls hl ih =>
    rw [hl] at ih
    simp only [List.length_cons, ws_cons] at ih ⊢
    omega

theorem ws_indentAll (pre s : Str) (v : Char → Nat) (hv : ∀ c, Str.isLineBreak c = true → 1 ≤ v c) :
    ws w (Str.indentAll pre s) ≤ ws w s + ws w pre * (ws v s + 1) := by
  have key : ∀ l : List Str, ws w (l.map (pre ++ ·)).flatten = ws w l.flatten + ws w pre * l.length := by
    intro l
    induction l with
    | nil => simp [ws]
    | cons a l ih =>
      simp only [List.map_cons, List.flatten_cons, ws_append, ih, List.length_cons, Nat.mul_add]
      omega
  unfold Str.indentAll
  rw [key, keep_ws]
  exact Nat.add_le_add_left (Nat.mul_le_mul_left _ (keep_length v hv s)) _

/-! ## decisions and cells -/

theorem total_decision (k : Nat) : ∀ (ls : List Str) (n : Nat) (b : Bool),
    total w k (decisionLoop n b ls) ≤ total w k ls + (w '>' + w ' ') * ls.length
  | [], _, _ => by simp [decisionLoop, total]
  | raw :: ls, n, b => by
    have hr := ws_rstrip (w := w) raw
    unfold decisionLoop
    simp only []
    split
    · split
      · have := total_decision k ls n b
        simp only [total, List.length_cons, Nat.mul_add]
        omega
      · have := total_decision k ls n true
        simp only [total, List.length_cons, Nat.mul_add, ws_single]
        omega
    · have := total_decision k ls (n + 1) false
      simp only [total, List.length_cons, Nat.mul_add, ws_append, ws_cons, ws_nil]
      omega

theorem lstrip_spaces : ∀ s : Str, s = List.replicate (s.length - (Str.lstripSpaces s).length) ' ' ++ Str.lstripSpaces s := by
  intro s
  unfold Str.lstripSpaces
  induction s with
  | nil => rfl
  | cons c s ih =>
    rw [List.dropWhile_cons]
    split
    · rename_i h
      have hc : c = ' ' := by simpa using h
      subst hc
      have hl : (s.dropWhile (· == ' ')).length ≤ s.length := (List.dropWhile_sublist _).length_le
      rw [show (' ' :: s).length - (s.dropWhile (· == ' ')).length = (s.length - (s.dropWhile (· == ' ')).length) + 1 by
        simp only [List.length_cons]; omega]
      rw [List.replicate_succ, List.cons_append, ← ih]
    · simp

theorem ws_nbsp (h : ws w "&nbsp;".toList ≤ w ' ') (s : Str) : ws w (nbspLine s) ≤ ws w s := by
  unfold nbspLine
  simp only []
  split
  · conv => rhs; rw [lstrip_spaces s]
    rw [ws_append, ws_append, ws_rep]
    have : ws w (List.replicate (s.length - (Str.lstripSpaces s).length) ' ') =
        (s.length - (Str.lstripSpaces s).length) * w ' ' := by
      generalize s.length - (Str.lstripSpaces s).length = n
      induction n with
      | zero => simp [ws]
      | succ n ih => rw [List.replicate_succ, ws_cons, ih, Nat.succ_mul]; omega
    rw [this]
    exact Nat.add_le_add_right (Nat.mul_le_mul_left _ h) _
  · exact Nat.le_refl _

theorem ws_le (k : Nat) (hw : ∀ c, w c ≤ k) (s : Str) : ws w s ≤ k * s.length := by
  induction s with
  | nil => simp [ws]
  | cons c s ih =>
    have := hw c
    rw [ws_cons, List.length_cons, Nat.mul_add]
    omega

theorem le_ws (hw : ∀ c, 1 ≤ w c) (s : Str) : s.length ≤ ws w s := by
  induction s with
  | nil => simp
  | cons c s ih =>
    have := hw c
    rw [ws_cons, List.length_cons]
    omega

end Verif.Weight
