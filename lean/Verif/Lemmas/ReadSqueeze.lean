import Mathlib.Data.List.Chain
import Verif.Spec.Shows
import Verif.Lemmas.Reading
/-!
# Readings do not depend on repeated blank lines
-/

namespace Verif
open Spec

/-! ## Kinds of lines -/

theorem kindOf_noBreak {l : Str} (h : kindOf l ≠ .other) : l.any lineBreak = false := by
  unfold kindOf at h
  split at h
  next hb =>
    rw [List.any_eq_false]
    intro c hc
    have := List.all_eq_true.mp hb c hc
    simp only [Bool.or_eq_true, beq_iff_eq] at this
    rcases this with rfl | rfl <;> decide
  next hb =>
    split at h
    · exact absurd rfl h
    next hb => simpa using hb

theorem closes_noBreak {l : Str} (h : closes l = true) : l.any lineBreak = false ∧ blankLine l = false ∧ l ≠ [] := by
  unfold closes at h
  dsimp only at h
  simp only [Bool.and_eq_true, decide_eq_true_eq] at h
  obtain ⟨⟨_, hp⟩, ha⟩ := h
  have e : l = l.takeWhile (· == ' ') ++ l.drop (l.takeWhile (· == ' ')).length := by
    conv_lhs => rw [← List.takeWhile_append_dropWhile (p := (· == ' ')) (l := l)]
    congr 1
    conv_rhs => arg 2; rw [← List.takeWhile_append_dropWhile (p := (· == ' ')) (l := l)]
    rw [List.drop_left]
  have ha0 : ∀ c ∈ l.takeWhile (· == ' '), c = ' ' := fun c hc => by simpa using List.mem_takeWhile_imp hc
  generalize l.takeWhile (· == ' ') = a at *
  have hmem : '`' ∈ l := by
    rw [e, List.mem_append]
    right
    obtain ⟨r, hr⟩ := List.isPrefixOf_iff_prefix.mp hp
    rw [← hr]
    simp
  refine ⟨?_, ?_, by rintro rfl; simp at hmem⟩
  · rw [List.any_eq_false]
    intro c hc
    rw [e, List.mem_append] at hc
    rcases hc with hc | hc
    · rw [ha0 c hc]; decide
    · rw [← List.takeWhile_append_dropWhile (p := (· == '`')) (l := l.drop a.length), List.mem_append] at hc
      rcases hc with hc | hc
      · have : c = '`' := by simpa using List.mem_takeWhile_imp hc
        rw [this]; decide
      · have := List.all_eq_true.mp ha c hc
        simp only [gap, Bool.or_eq_true, beq_iff_eq] at this
        rcases this with rfl | rfl <;> decide
  · rw [Bool.eq_false_iff]
    intro hb
    have := List.all_eq_true.mp hb _ hmem
    simp at this

theorem nonblank_ne {l : Str} (h : blankLine l = false) : l ≠ [] := by rintro rfl; cases h

theorem kind_nonblank {l : Str} {k : Kind} (h : kindOf l = k) (hk : k ≠ .blank) : blankLine l = false := by
  cases hb : blankLine l with
  | false => rfl
  | true => rw [kindOf_blank.mpr hb] at h; exact absurd h.symm hk

theorem kind_ne {l : Str} {k : Kind} (h : kindOf l = k) (hk : k ≠ .blank) : l ≠ [] := nonblank_ne (kind_nonblank h hk)

theorem takeWhile_replicate (l : Str) : l.takeWhile (· == ' ') = spaces (l.takeWhile (· == ' ')).length := by
  unfold spaces
  rw [List.eq_replicate_iff]
  refine ⟨rfl, fun c hc => ?_⟩
  simpa using List.mem_takeWhile_imp hc

theorem spaces_drop {w : Nat} {l : Str} (h : w ≤ (l.takeWhile (· == ' ')).length) : l = spaces w ++ l.drop w := by
  conv_lhs => rw [← List.take_append_drop w l]
  congr 1
  have h1 : l.take w = (l.takeWhile (· == ' ')).take w := by
    conv_lhs => rw [← List.takeWhile_append_dropWhile (p := (· == ' ')) (l := l)]
    rw [List.take_append_of_le_length h]
  rw [h1, takeWhile_replicate]
  simp only [spaces, List.take_replicate]
  congr 1
  exact Nat.min_eq_left h

theorem unindent_eq (w : Nat) (l : Str) :
    l = spaces (if w ≤ (l.takeWhile (· == ' ')).length then w else 0) ++ unindent w l := by
  unfold unindent
  split
  next h => exact spaces_drop h
  · rfl

/-- No line that is read has an odd line break. -/
theorem reads_noBreak {ls : List Str} {bs : List Block} (h : Reads ls bs) : ∀ l ∈ ls, l.any lineBreak = false := by
  induction h with
  | nil => intro l hl; cases hl
  | blank hl h ih =>
    intro x hx
    rcases List.mem_cons.mp hx with rfl | hx
    · exact kindOf_noBreak (by rw [hl]; decide)
    · exact ih x hx
  | heading hk hk' ht h ih =>
    intro x hx
    rcases List.mem_cons.mp hx with rfl | hx
    · exact kindOf_noBreak (by rw [kindOf_heading hk hk' ht]; decide)
    · exact ih x hx
  | rule hl h ih =>
    intro x hx
    rcases List.mem_cons.mp hx with rfl | hx
    · exact kindOf_noBreak (by rw [hl]; decide)
    · exact ih x hx
  | code hi hb hc h ih =>
    intro x hx
    rcases List.mem_cons.mp hx with rfl | hx
    · exact kindOf_noBreak (by rw [kindOf_fence hi]; decide)
    · rcases List.mem_append.mp hx with hx | hx
      · exact (hb x hx).2
      · rcases List.mem_cons.mp hx with rfl | hx
        · exact (closes_noBreak hc).1
        · exact ih x hx
  | para hne hp he h ih =>
    intro x hx
    rcases List.mem_append.mp hx with hx | hx
    · exact kindOf_noBreak (by rw [hp x hx]; decide)
    · exact ih x hx
  | quote hne hq hz hc he he' hi h _ ih =>
    intro x hx
    rcases List.mem_append.mp hx with hx | hx
    · rcases List.mem_append.mp hx with hx | hx
      · exact kindOf_noBreak (by rw [hq x hx]; decide)
      · exact kindOf_noBreak (by rw [hz x hx]; decide)
    · exact ih x hx
  | @item l first w num inner ls item bs hk hm hn hz hf he ho hi h ih1 ih =>
    intro x hx
    rcases List.mem_cons.mp hx with rfl | hx
    · exact kindOf_noBreak (by rw [hk]; decide)
    · rcases List.mem_append.mp hx with hx | hx
      · have := ih1 (unindent w x) (by simp only [List.mem_cons, List.mem_map]; exact .inr ⟨x, hx, rfl⟩)
        rw [unindent_eq w x, List.any_append, this, Bool.or_false, List.any_eq_false]
        intro c hc
        rw [(List.mem_replicate.mp hc).2]
        decide
      · exact ih x hx
  | table hh hh' hk hs hs' hw hr he h ih =>
    intro x hx
    rcases List.mem_cons.mp hx with rfl | hx
    · exact hh'.2
    · rcases List.mem_cons.mp hx with rfl | hx
      · exact hs.2
      · rcases List.mem_append.mp hx with hx | hx
        · rcases hr x hx with h1 | h1
          · exact kindOf_noBreak (by rw [h1]; decide)
          · exact h1.2
        · exact ih x hx

/-! ## Squeezing -/

/-- The code blocks among the blocks have no two empty lines in a row. -/
def TidyCode (bs : List Block) : Prop := ∀ info body, .code info body ∈ bs → Tidy body

theorem Squeeze.head? {a b : List Str} (h : Squeeze a b) : a.head? = b.head? := by
  induction h with
  | nil => rfl
  | keep l _ _ => rfl
  | drop _ ih => exact ih

theorem Squeeze.find? {a b : List Str} (h : Squeeze a b) :
    a.find? (fun l => !blankLine l) = b.find? (fun l => !blankLine l) := by
  induction h with
  | nil => rfl
  | keep l _ ih => simp only [List.find?_cons, ih]
  | drop _ ih => rw [← ih]; rfl

theorem Squeeze.lastBlank {a b : List Str} (h : Squeeze a b) : lastBlank a = lastBlank b := by
  have key : a.getLast? = b.getLast? := by
    induction h with
    | nil => rfl
    | @keep l a b h ih =>
      have := h.head?
      cases a <;> cases b <;> simp_all [List.getLast?_cons_cons]
    | drop _ ih => rw [List.getLast?_cons_cons, ih]
  unfold Verif.lastBlank
  rw [key]

theorem Squeeze.append {a b : List Str} (h : Squeeze a b) (r : List Str) : Squeeze (a ++ r) (b ++ r) := by
  induction h with
  | nil => exact .refl _
  | keep l _ ih => exact .keep l ih
  | drop _ ih => exact .drop ih

/-- Lines without two empty ones in a row, before a line that is not empty, stay. -/
theorem squeeze_prefix {a r b : List Str} {x : Str} (hx : x ≠ []) (ha : Tidy a) (h : Squeeze (a ++ x :: r) b) :
    ∃ r', b = a ++ x :: r' ∧ Squeeze r r' := by
  induction a generalizing b with
  | nil =>
    rw [List.nil_append] at h
    cases h with
    | keep _ h => exact ⟨_, rfl, h⟩
    | drop h => exact absurd rfl hx
  | cons y a ih =>
    rw [List.cons_append] at h
    generalize hz : a ++ x :: r = z at h
    cases h with
    | keep _ h =>
      subst hz
      obtain ⟨r', rfl, h'⟩ := ih (List.IsChain.tail ha) h
      exact ⟨r', rfl, h'⟩
    | drop h =>
      cases a with
      | nil => exact absurd (List.cons.inj hz).1 hx
      | cons z a =>
        have := (List.isChain_cons_cons.mp ha).1
        obtain rfl := (List.cons.inj hz).1
        simp at this

theorem squeeze_full {a r b : List Str} (ha : ∀ l ∈ a, l ≠ []) (h : Squeeze (a ++ r) b) :
    ∃ r', b = a ++ r' ∧ Squeeze r r' := by
  induction a generalizing b with
  | nil => exact ⟨b, rfl, h⟩
  | cons y a ih =>
    rw [List.cons_append] at h
    obtain ⟨r', rfl, h'⟩ := squeeze_prefix (a := []) (ha y (by simp)) (by simp [Tidy]) h
    obtain ⟨r'', rfl, h''⟩ := ih (fun l hl => ha l (by simp [hl])) h'
    exact ⟨r'', rfl, h''⟩

theorem mem_addItem {num : Option Nat} {item bs : List Block} {b : Block} (hb : b ∈ bs)
    (h1 : ∀ i, b ≠ .bullets i) (h2 : ∀ n i, b ≠ .numbers n i) : b ∈ addItem num item bs := by
  unfold addItem
  split
  · rcases List.mem_cons.mp hb with rfl | hb
    · exact absurd rfl (h1 _)
    · simp [hb]
  · simp [hb]
  · rcases List.mem_cons.mp hb with rfl | hb
    · exact absurd rfl (h2 _ _)
    · simp [hb]
  · simp [hb]

theorem quote_lines {qs zs : List Str} (hq : ∀ l ∈ qs, kindOf l = .quote) (hz : ∀ l ∈ zs, kindOf l = .text) :
    ∀ l ∈ qs ++ zs, l ≠ [] := by
  intro l hl
  rcases List.mem_append.mp hl with hl | hl
  · exact kind_ne (hq l hl) (by decide)
  · exact kind_ne (hz l hl) (by decide)

theorem row_lines {rows : List Str} (hr : ∀ r ∈ rows, kindOf r = .text ∨ barFirst r) : ∀ l ∈ rows, l ≠ [] := by
  intro l hl
  rcases hr l hl with h | h
  · exact kind_ne h (by decide)
  · rintro rfl; cases h.1

theorem reads_squeeze {ls : List Str} {bs : List Block} (h : Reads ls bs) : ∀ {ls' : List Str}, Squeeze ls ls' → TidyCode bs →
    Reads ls' bs := by
  induction h with
  | nil => intro ls' hs _; cases hs; exact .nil
  | @blank l ls bs hl h ih =>
    intro ls' hs ht
    cases hs with
    | keep _ hs => exact .blank hl (ih hs ht)
    | drop hs => exact ih hs ht
  | heading hk hk' ht h ih =>
    intro ls' hs htc
    obtain ⟨r', rfl, hs'⟩ := squeeze_prefix (a := []) (by simp) (by simp [Tidy]) hs
    exact .heading hk hk' ht (ih hs' fun i b hb => htc i b (by simp [hb]))
  | rule hl h ih =>
    intro ls' hs htc
    obtain ⟨r', rfl, hs'⟩ := squeeze_prefix (a := []) (kind_ne hl (by decide)) (by simp [Tidy]) hs
    exact .rule hl (ih hs' fun i b hb => htc i b (by simp [hb]))
  | code hi hb hc h ih =>
    intro ls' hs htc
    obtain ⟨r', rfl, hs'⟩ := squeeze_prefix (a := []) (by simp) (by simp [Tidy]) hs
    obtain ⟨r'', rfl, hs''⟩ := squeeze_prefix (closes_noBreak hc).2.2 (htc _ _ (List.mem_cons_self)) hs'
    exact .code hi hb hc (ih hs'' fun i b hb => htc i b (by simp [hb]))
  | para hne hp he h ih =>
    intro ls' hs htc
    obtain ⟨r', rfl, hs'⟩ := squeeze_full (fun l hl => kind_ne (hp l hl) (by decide)) hs
    exact .para hne hp (by unfold endsPara; rw [← hs'.head?]; exact he) (ih hs' fun i b hb => htc i b (by simp [hb]))
  | quote hne hq hz hc he he' hi h _ ih =>
    intro ls' hs htc
    obtain ⟨r', rfl, hs'⟩ := squeeze_full (quote_lines hq hz) hs
    exact .quote hne hq hz hc (by unfold stops; rw [← hs'.head?]; exact he) (by rw [← hs'.head?]; exact he') hi
      (ih hs' fun i b hb => htc i b (by simp [hb]))
  | table hh hh' hk hs hs' hw hr he h ih =>
    intro ls' hsq htc
    obtain ⟨r1, rfl, hs1⟩ := squeeze_prefix (a := []) (kind_ne hh (by decide)) (by simp [Tidy]) hsq
    obtain ⟨r2, rfl, hs2⟩ := squeeze_prefix (a := []) (kind_ne hk (by decide)) (by simp [Tidy]) hs1
    obtain ⟨r', rfl, hs3⟩ := squeeze_full (row_lines hr) hs2
    exact .table hh hh' hk hs hs' hw hr (by unfold stops; rw [← hs3.head?]; exact he)
      (ih hs3 fun i b hb => htc i b (by simp [hb]))
  | item hk hm hn hz hf he ho hi h _ ih =>
    intro ls' hs htc
    obtain ⟨r', rfl, hs'⟩ := squeeze_prefix (a := []) (kind_ne hk (by decide)) (by simp [Tidy]) hs
    obtain ⟨r'', rfl, hs''⟩ := squeeze_full (fun l hl => nonblank_ne (hn l hl)) hs'
    exact .item hk hm hn hz hf (by unfold stops; rw [← hs''.head?]; exact he) (by unfold outdented; rw [← hs''.find?]; exact ho) hi
      (ih hs'' fun i b hb => htc i b (mem_addItem hb (by simp) (by simp)))

/-! ## A blank line at the end -/

theorem append_snoc {a r m : List Str} {x : Str} (h : a ++ r = m ++ [x]) (ha : ∀ y ∈ a, y ≠ x) :
    ∃ r', r = r' ++ [x] ∧ m = a ++ r' := by
  rcases List.append_eq_append_iff.mp h with ⟨b, rfl, hb⟩ | ⟨b, rfl, hb⟩
  · exact ⟨b, hb, rfl⟩
  · cases b with
    | nil => exact ⟨[], by simpa using hb.symm, by simp⟩
    | cons y b =>
      obtain rfl := (List.cons.inj hb).1
      exact absurd rfl (ha x (by simp))

theorem stops_dropLast {r : List Str} {x : Str} (h : stops (r ++ [x])) : stops r := by
  intro y hy
  cases r with
  | nil => cases hy
  | cons z r => exact h y hy

theorem reads_dropLast {ls : List Str} {bs : List Block} (h : Reads ls bs) : ∀ m, ls = m ++ [[]] → Reads m bs := by
  induction h with
  | nil => intro m h; simp at h
  | @blank l ls bs hl h ih =>
    intro m e
    cases m with
    | nil =>
      rw [List.nil_append, List.cons.injEq] at e
      rw [e.2] at h
      exact h
    | cons y m =>
      rw [List.cons_append, List.cons.injEq] at e
      obtain ⟨rfl, e⟩ := e
      exact .blank hl (ih m e)
  | @heading k t ls bs hk hk' ht h ih =>
    intro m e
    obtain ⟨r, rfl, rfl⟩ := append_snoc (a := [_]) e (by intro y hy; rw [List.mem_singleton.mp hy]; simp)
    exact .heading hk hk' ht (ih r rfl)
  | rule hl h ih =>
    intro m e
    obtain ⟨r, rfl, rfl⟩ := append_snoc (a := [_]) e (by intro y hy; rw [List.mem_singleton.mp hy]; exact kind_ne hl (by decide))
    exact .rule hl (ih r rfl)
  | @code info close body ls bs hi hb hc h ih =>
    intro m e
    have : ∃ r, ls = r ++ [[]] ∧ m = ("```".toList ++ info) :: (body ++ close :: r) := by
      rcases List.eq_nil_or_concat ls with rfl | ⟨r, x, rfl⟩
      · have := congrArg List.getLast? e
        rw [← List.cons_append, List.getLast?_append_cons, List.getLast?_append_cons] at this
        simp at this
        exact absurd this (closes_noBreak hc).2.2
      · have e' : (("```".toList ++ info) :: (body ++ close :: r)) ++ [x] = m ++ [[]] := by
          rw [← e]; simp
        obtain ⟨h1, h2⟩ := List.append_inj' e' rfl
        exact ⟨r, by rw [List.concat_eq_append, h2], h1.symm⟩
    obtain ⟨r, rfl, rfl⟩ := this
    exact .code hi hb hc (ih r rfl)
  | para hne hp he h ih =>
    intro m e
    obtain ⟨r, rfl, rfl⟩ := append_snoc e (fun y hy => kind_ne (hp y hy) (by decide))
    refine .para hne hp ?_ (ih r rfl)
    intro x hx
    cases r with
    | nil => cases hx
    | cons y r => exact he x hx
  | quote hne hq hz hc he he' hi h _ ih =>
    intro m e
    obtain ⟨r, rfl, rfl⟩ := append_snoc e (quote_lines hq hz)
    refine .quote hne hq hz hc (stops_dropLast he) ?_ hi (ih r rfl)
    intro x hx
    cases r with
    | nil => cases hx
    | cons y r => exact he' x hx
  | @table head sep rows ls bs hh hh' hk hs hs' hw hr he h ih =>
    intro m e
    obtain ⟨r, rfl, rfl⟩ := append_snoc (a := head :: sep :: rows) e (by
      intro y hy
      rcases List.mem_cons.mp hy with rfl | hy
      · exact kind_ne hh (by decide)
      · rcases List.mem_cons.mp hy with rfl | hy
        · exact kind_ne hk (by decide)
        · exact row_lines hr y hy)
    exact .table hh hh' hk hs hs' hw hr (stops_dropLast he) (ih r rfl)
  | @item l first w num inner ls item bs hk hm hn hz hf he ho hi h _ ih =>
    intro m e
    obtain ⟨r, rfl, rfl⟩ := append_snoc (a := l :: inner) e (by
      intro y hy
      rcases List.mem_cons.mp hy with rfl | hy
      · exact kind_ne hk (by decide)
      · exact nonblank_ne (hn y hy))
    refine .item hk hm hn hz hf (stops_dropLast he) ?_ hi (ih r rfl)
    · intro x hx
      refine ho x ?_
      rw [List.find?_append]
      rw [Option.mem_def] at hx ⊢
      rw [hx]
      rfl

end Verif
