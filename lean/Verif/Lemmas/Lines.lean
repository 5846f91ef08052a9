import Verif.Spec.Md
import Verif.Lemmas.Chars
import Verif.Lemmas.Runs
/-!
# Lines
-/

namespace Verif
open Spec

/-! ## join / split("\n") -/

theorem join_cons_cons (sep a b : Str) (l : List Str) :
    Str.join sep (a :: b :: l) = a ++ sep ++ Str.join sep (b :: l) := rfl

theorem join_cons (sep a : Str) {l : List Str} (h : l ≠ []) :
    Str.join sep (a :: l) = a ++ sep ++ Str.join sep l := by
  cases l with
  | nil => exact absurd rfl h
  | cons b l => rfl

theorem join_nil_eq (l : List Str) : Str.join [] l = l.flatten := by
  induction l with
  | nil => rfl
  | cons a l ih =>
    cases l with
    | nil => simp [Str.join]
    | cons b l => rw [join_cons_cons, ih]; simp

theorem join_append (sep : Str) {a b : List Str} (ha : a ≠ []) (hb : b ≠ []) :
    Str.join sep (a ++ b) = Str.join sep a ++ sep ++ Str.join sep b := by
  induction a with
  | nil => exact absurd rfl ha
  | cons x a ih =>
    cases a with
    | nil => rw [List.singleton_append, join_cons sep x hb]; rfl
    | cons y a =>
      rw [List.cons_append, join_cons sep x (by simp), ih (by simp), join_cons sep x (by simp)]
      simp

theorem splitNL_ne_nil (s : Str) : Str.splitNL s ≠ [] := by
  cases s with
  | nil => simp [Str.splitNL]
  | cons c cs =>
    rw [Str.splitNL]
    split
    · simp
    · split <;> simp

theorem join_splitNL (s : Str) : Str.join ['\n'] (Str.splitNL s) = s := by
  induction s with
  | nil => rfl
  | cons c cs ih =>
    rw [Str.splitNL]
    split
    · next h => rw [join_cons _ _ (splitNL_ne_nil cs), ih, h]; rfl
    · cases hs : Str.splitNL cs with
      | nil => exact absurd hs (splitNL_ne_nil cs)
      | cons l ls =>
        rw [hs] at ih
        simp only
        cases ls with
        | nil => simp only [Str.join] at ih ⊢; rw [ih]
        | cons l' ls => rw [join_cons_cons] at ih ⊢; rw [← ih]; simp

theorem splitNL_noNL (s : Str) : ∀ l ∈ Str.splitNL s, '\n' ∉ l := by
  induction s with
  | nil => simp [Str.splitNL]
  | cons c cs ih =>
    rw [Str.splitNL]
    split
    · intro l hl
      rcases List.mem_cons.mp hl with rfl | h
      · simp
      · exact ih l h
    · next hc =>
      cases hs : Str.splitNL cs with
      | nil => exact absurd hs (splitNL_ne_nil cs)
      | cons l ls =>
        rw [hs] at ih
        intro x hx
        rcases List.mem_cons.mp hx with rfl | h
        · have := ih l (by simp)
          simp only [List.mem_cons, not_or]
          exact ⟨fun h => hc h.symm, this⟩
        · exact ih x (by simp [h])

theorem splitNL_of_noNL {s : Str} (h : '\n' ∉ s) : Str.splitNL s = [s] := by
  induction s with
  | nil => rfl
  | cons c cs ih =>
    simp only [List.mem_cons, not_or] at h
    rw [Str.splitNL, if_neg (fun hc => h.1 hc.symm), ih h.2]

theorem splitNL_append {a : Str} (ha : '\n' ∉ a) (b : Str) :
    Str.splitNL (a ++ '\n' :: b) = a :: Str.splitNL b := by
  induction a with
  | nil => rw [List.nil_append, Str.splitNL, if_pos rfl]
  | cons c cs ih =>
    simp only [List.mem_cons, not_or] at ha
    rw [List.cons_append, Str.splitNL, if_neg (fun hc => ha.1 hc.symm), ih ha.2]

theorem splitNL_join {l : List Str} (hne : l ≠ []) (h : ∀ a ∈ l, '\n' ∉ a) :
    Str.splitNL (Str.join ['\n'] l) = l := by
  induction l with
  | nil => exact absurd rfl hne
  | cons a l ih =>
    cases l with
    | nil => exact splitNL_of_noNL (h a (by simp))
    | cons b l =>
      rw [join_cons_cons, List.append_assoc]
      show Str.splitNL (a ++ '\n' :: Str.join ['\n'] (b :: l)) = _
      rw [splitNL_append (h a (by simp)), ih (by simp) (fun x hx => h x (by simp [hx]))]

theorem splitNL_append_gen (a b : Str) :
    Str.splitNL (a ++ '\n' :: b) = Str.splitNL a ++ Str.splitNL b := by
  rw [← splitNL_join (l := Str.splitNL a ++ Str.splitNL b) (by simp [splitNL_ne_nil])
    (by
      intro x hx
      rcases List.mem_append.mp hx with h | h
      · exact splitNL_noNL a x h
      · exact splitNL_noNL b x h)]
  rw [join_append _ (splitNL_ne_nil a) (splitNL_ne_nil b), join_splitNL, join_splitNL]
  simp

/-- The specification's line lists are joined with newlines. -/
theorem lines_eq (l : List Str) : ['\n'].intercalate l = Str.join ['\n'] l := (join_eq _ l).symm

/-! ## splitlines(True) -/

theorem splitKeep_flatten (s : Str) : (Str.splitLinesKeep s).flatten = s := by
  induction s using Str.splitLinesKeep.induct with
  | case1 => rfl
  | case2 cs ih => rw [Str.splitLinesKeep]; simp [ih]
  | case3 c cs hne hb ih => rw [Str.splitLinesKeep]; · simp [hb, ih]
                            · exact hne
  | case4 c cs hne hb hs ih =>
    rw [Str.splitLinesKeep]
    · simp only [hb, hs]
      rw [hs] at ih
      simp at ih
      rw [ih]; rfl
    · exact hne
  | case5 c cs hne hb l ls hs ih =>
    rw [Str.splitLinesKeep]
    · simp only [hb, hs]
      rw [hs] at ih
      simp at ih ⊢
      exact ih
    · exact hne

theorem splitKeep_term (body t rest : Str) (hb : ∀ c ∈ body, lineBreak c = false)
    (ht : IsTerminator t) (hr : t = ['\r'] → ∀ r, rest ≠ '\n' :: r) :
    Str.splitLinesKeep (body ++ t ++ rest) = (body ++ t) :: Str.splitLinesKeep rest := by
  induction body with
  | nil =>
    rcases ht with rfl | ⟨c, hc, rfl⟩
    · simp [Str.splitLinesKeep]
    · rw [List.nil_append, List.singleton_append, Str.splitLinesKeep, if_pos ((isLineBreak_eq c).trans hc)]
      · intro r h1 h2; subst h1; exact hr rfl r h2
  | cons a body ih =>
    have ha := hb a (by simp)
    have ih := ih (fun c hc => hb c (by simp [hc]))
    rw [List.cons_append, List.cons_append, Str.splitLinesKeep]
    · simp only [isLineBreak_eq, ha, ih]; rfl
    · intro r h1 h2; subst h1; simp [lineBreak, breakCodes] at ha

theorem splitKeep_last (body : Str) (hb : ∀ c ∈ body, lineBreak c = false) (hne : body ≠ []) :
    Str.splitLinesKeep body = [body] := by
  induction body with
  | nil => exact absurd rfl hne
  | cons a body ih =>
    have ha := hb a (by simp)
    rw [Str.splitLinesKeep]
    · cases body with
      | nil => simp [isLineBreak_eq, ha, Str.splitLinesKeep]
      | cons b body => simp only [isLineBreak_eq, ha, ih (fun c hc => hb c (by simp [hc])) (by simp)]; rfl
    · intro r h1 h2; subst h1; simp [lineBreak, breakCodes] at ha

theorem splitKeep_isLines_flatten {ls : List Str} (h : IsLines ls) :
    Str.splitLinesKeep ls.flatten = ls := by
  induction h with
  | nil => rfl
  | last body hb hne => simpa using splitKeep_last body hb hne
  | cons body t ls hb ht hr _ ih =>
    rw [List.flatten_cons, splitKeep_term body t _ hb ht hr, ih]

theorem isLines_prefix {pre : Str} (hpre : ∀ c ∈ pre, lineBreak c = false) (hne : pre ≠ [])
    {ls : List Str} (h : IsLines ls) : IsLines (ls.map (pre ++ ·)) := by
  induction h with
  | nil => exact .nil
  | last body hb hb' =>
    refine .last _ ?_ (by simp [hne])
    intro c hc
    rcases List.mem_append.mp hc with h | h
    · exact hpre c h
    · exact hb c h
  | cons body t ls hb ht hr hls ih =>
    rw [List.map_cons]
    show IsLines ((pre ++ (body ++ t)) :: _)
    rw [← List.append_assoc]
    refine .cons _ t _ ?_ ht ?_ ih
    · intro c hc
      rcases List.mem_append.mp hc with h | h
      · exact hpre c h
      · exact hb c h
    · intro _ r hr'
      cases ls with
      | nil => simp at hr'
      | cons l ls =>
        cases pre with
        | nil => exact hne rfl
        | cons p pre =>
          simp at hr'
          have := hpre p (by simp)
          rw [hr'.1] at this
          simp [lineBreak, breakCodes] at this

theorem isLines_split (s : Str) : IsLines (Str.splitLinesKeep s) := by
  induction s using Str.splitLinesKeep.induct with
  | case1 => exact .nil
  | case2 cs ih =>
    rw [Str.splitLinesKeep]
    exact .cons [] ['\r', '\n'] _ (by simp) (.inl rfl) (by simp) ih
  | case3 c cs hne hb ih =>
    rw [Str.splitLinesKeep]
    · rw [if_pos hb]
      refine .cons [] [c] _ (by simp) (.inr ⟨c, (isLineBreak_eq c).symm.trans hb, rfl⟩) ?_ ih
      intro hc r hr
      rw [splitKeep_flatten] at hr
      exact hne r (by simpa using hc) hr
    · exact hne
  | case4 c cs hne hb hs ih =>
    rw [Str.splitLinesKeep]
    · rw [if_neg hb, hs]
      exact .last [c] (by simpa [isLineBreak_eq] using hb) (by simp)
    · exact hne
  | case5 c cs hne hb l ls hs ih =>
    rw [Str.splitLinesKeep]
    · rw [if_neg hb, hs]
      rw [hs] at ih
      simp only
      cases ih with
      | last _ hb' hne' =>
        refine .last _ ?_ (by simp)
        intro x hx
        rcases List.mem_cons.mp hx with rfl | h
        · simpa [isLineBreak_eq] using hb
        · exact hb' x h
      | cons body t _ hb' ht hr hls =>
        rw [← List.cons_append]
        refine .cons _ t _ ?_ ht hr hls
        intro x hx
        rcases List.mem_cons.mp hx with rfl | h
        · simpa [isLineBreak_eq] using hb
        · exact hb' x h
    · exact hne

/-- Indenting prefixes every line, and the lines of the result are the prefixed lines. -/
theorem splitKeep_indent {pre : Str} (hpre : ∀ c ∈ pre, lineBreak c = false) (hne : pre ≠ [])
    (s : Str) :
    Str.splitLinesKeep (Str.indentAll pre s) = (Str.splitLinesKeep s).map (pre ++ ·) :=
  splitKeep_isLines_flatten (isLines_prefix hpre hne (isLines_split s))

end Verif
