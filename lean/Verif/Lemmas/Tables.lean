import Verif.Spec.Tables
import Verif.Lemmas.Blocks
import Verif.Lemmas.Lines
import Verif.Lemmas.Lists
/-!
# Lemmas about pipes and table lines
-/

namespace Verif.Spec
open Verif

/-- Whether the last character is a backslash. -/
def lastEsc (esc : Bool) : Str → Bool
  | [] => esc
  | c :: s => lastEsc (decide (c = '\\')) s

theorem lastEsc_append (e : Bool) (a b : Str) : lastEsc e (a ++ b) = lastEsc (lastEsc e a) b := by
  induction a generalizing e with
  | nil => rfl
  | cons c a ih => exact ih _

theorem barePipes_append (e : Bool) (a b : Str) :
    barePipes e (a ++ b) = barePipes e a + barePipes (lastEsc e a) b := by
  induction a generalizing e with
  | nil => simp [barePipes, lastEsc]
  | cons c a ih => simp only [List.cons_append, barePipes, lastEsc, ih]; omega

theorem splitBare_ne_nil (e : Bool) (s : Str) : splitBare e s ≠ [] := by
  cases s with
  | nil => simp [splitBare]
  | cons c s => rw [splitBare]; split; · simp
                split <;> simp

theorem splitBare_length (e : Bool) (s : Str) : (splitBare e s).length = barePipes e s + 1 := by
  induction s generalizing e with
  | nil => rfl
  | cons c s ih =>
    rw [splitBare, barePipes]
    split
    · next h =>
      obtain ⟨rfl, _⟩ := h
      simp only [List.length_cons, ih]
      have : decide ('|' = '\\') = false := by decide
      rw [this]; omega
    · have h := ih (decide (c = '\\'))
      split
      · next h0 => exact absurd h0 (splitBare_ne_nil _ _)
      · next a l hl => rw [hl] at h; simp only [List.length_cons] at h ⊢; omega

theorem splitBare_append {e : Bool} {a : Str} (h0 : barePipes e a = 0) (hl : lastEsc e a = false)
    (b : Str) : splitBare e (a ++ '|' :: b) = a :: splitBare false b := by
  induction a generalizing e with
  | nil => rw [lastEsc] at hl; subst hl; simp [splitBare]
  | cons c a ih =>
    rw [barePipes] at h0
    have hn : ¬ (c = '|' ∧ e = false) := by intro h; rw [if_pos h] at h0; omega
    rw [List.cons_append, splitBare, if_neg hn, ih (by omega) hl]

theorem splitBare_none {e : Bool} {a : Str} (h0 : barePipes e a = 0) : splitBare e a = [a] := by
  induction a generalizing e with
  | nil => rfl
  | cons c a ih =>
    rw [barePipes] at h0
    have hn : ¬ (c = '|' ∧ e = false) := by intro h; rw [if_pos h] at h0; omega
    rw [splitBare, if_neg hn, ih (by omega)]

theorem barePipes_escape (e : Bool) (s : Str) : barePipes e (escapePipes s) = 0 := by
  induction s generalizing e with
  | nil => rfl
  | cons c s ih =>
    unfold escapePipes at ih ⊢
    rw [List.flatMap_cons, barePipes_append, ih]
    split
    · simp [barePipes]
    · next h => simp [barePipes, h]

theorem barePipes_nbsp (e : Bool) (k : Nat) (s : Str) (h : ∀ e, barePipes e s = 0) :
    barePipes e ((List.replicate k "&nbsp;".toList).flatten ++ s) = 0 := by
  induction k generalizing e with
  | zero => simpa using h e
  | succ k ih =>
    rw [List.replicate_succ, List.flatten_cons, List.append_assoc, barePipes_append, ih]
    rfl

/-- No bare pipe, whatever is in front of the text. -/
def Safe (s : Str) : Prop := ∀ e, barePipes e s = 0

theorem cellLine_safe {l out : Str} (h : CellLine l out) : Safe out := by
  obtain ⟨k, rest, rfl, _, rfl⟩ := h
  exact fun e => barePipes_nbsp e k _ fun e => barePipes_escape e rest

theorem join_safe {sep : Str} (hs : Safe sep) {l : List Str} (h : ∀ a ∈ l, Safe a) :
    Safe (Str.join sep l) := by
  induction l with
  | nil => intro e; rfl
  | cons a l ih =>
    cases l with
    | nil => exact h a (by simp)
    | cons b l =>
      intro e
      rw [join_cons_cons, barePipes_append, barePipes_append, h a (by simp), hs,
        ih (fun x hx => h x (by simp [hx]))]

theorem replaceGo_pipe (s : Str) : Str.replaceGo ['|'] ['\\', '|'] 0 s = escapePipes s := by
  induction s with
  | nil => rfl
  | cons c s ih =>
    rw [Str.replaceGo]
    by_cases h : c = '|'
    · subst h
      have : (['|'] : Str).isPrefixOf ('|' :: s) = true := by simp [List.isPrefixOf]
      rw [if_pos this]
      show _ ++ Str.replaceGo _ _ 0 s = _
      rw [ih]; rfl
    · have : (['|'] : Str).isPrefixOf (c :: s) = false := by
        simp [List.isPrefixOf, Ne.symm h]
      rw [if_neg (by simp [this]), ih]
      unfold escapePipes
      rw [List.flatMap_cons, if_neg h]; rfl

theorem replace_pipe (s : Str) : Str.replace ['|'] ['\\', '|'] s = escapePipes s := replaceGo_pipe s

theorem escape_append (a b : Str) : escapePipes (a ++ b) = escapePipes a ++ escapePipes b := by
  unfold escapePipes; exact List.flatMap_append

theorem splitNL_escape (s : Str) : Str.splitNL (escapePipes s) = (Str.splitNL s).map escapePipes := by
  induction s with
  | nil => rfl
  | cons c s ih =>
    have hc : escapePipes (c :: s) = (if c = '|' then ['\\', '|'] else [c]) ++ escapePipes s := by
      unfold escapePipes; rw [List.flatMap_cons]
    rw [hc]
    by_cases hn : c = '\n'
    · subst hn
      rw [if_neg (by decide)]
      show Str.splitNL ('\n' :: escapePipes s) = _
      rw [Str.splitNL, if_pos rfl, ih, Str.splitNL, if_pos rfl]; rfl
    · obtain ⟨a, l, hl⟩ : ∃ a l, Str.splitNL s = a :: l := by
        cases h : Str.splitNL s with
        | nil => exact absurd h (splitNL_ne_nil s)
        | cons a l => exact ⟨a, l, rfl⟩
      rw [hl] at ih
      have hr : Str.splitNL (c :: s) = (c :: a) :: l := by rw [Str.splitNL, if_neg hn, hl]
      rw [hr]
      by_cases hp : c = '|'
      · rw [if_pos hp]
        show Str.splitNL ('\\' :: '|' :: escapePipes s) = _
        rw [Str.splitNL, if_neg (by decide), Str.splitNL, if_neg (by decide), ih]
        subst hp
        rfl
      · rw [if_neg hp]
        show Str.splitNL (c :: escapePipes s) = _
        rw [Str.splitNL, if_neg hn, ih]
        simp only [List.map_cons]
        congr 1
        unfold escapePipes; rw [List.flatMap_cons, if_neg hp]; rfl

theorem escape_spaces (k : Nat) : escapePipes (spaces k) = spaces k := by
  induction k with
  | zero => rfl
  | succ k ih =>
    unfold spaces escapePipes at *
    rw [List.replicate_succ, List.flatMap_cons, ih]; rfl

theorem exists_spaces (l : Str) : ∃ k rest, l = spaces k ++ rest ∧ ∀ t, rest ≠ ' ' :: t := by
  induction l with
  | nil => exact ⟨0, [], rfl, by simp⟩
  | cons c l ih =>
    by_cases h : c = ' '
    · obtain ⟨k, rest, rfl, hr⟩ := ih
      exact ⟨k + 1, rest, by subst h; rfl, hr⟩
    · exact ⟨0, c :: l, rfl, by intro t e; injection e with e; exact h e⟩

theorem lstrip_spaces (k : Nat) (r : Str) (h : ∀ t, r ≠ ' ' :: t) :
    Str.lstripSpaces (spaces k ++ r) = r := by
  unfold Str.lstripSpaces
  induction k with
  | zero =>
    cases r with
    | nil => rfl
    | cons c r =>
      show List.dropWhile _ (c :: r) = _
      rw [List.dropWhile_cons, if_neg]
      intro hc
      have : c = ' ' := by simpa using hc
      exact h r (by rw [this])
  | succ k ih =>
    show List.dropWhile _ (' ' :: (spaces k ++ r)) = r
    rw [List.dropWhile_cons, if_pos (by decide), ih]

theorem escape_head {r : Str} (h : ∀ t, r ≠ ' ' :: t) : ∀ t, escapePipes r ≠ ' ' :: t := by
  intro t e
  cases r with
  | nil => cases e
  | cons c r =>
    unfold escapePipes at e
    rw [List.flatMap_cons] at e
    split at e
    · injection e with e; exact absurd e (by decide)
    · injection e with e; exact h r (by rw [e])

theorem nbspLine_eq (k : Nat) (r : Str) (h : ∀ t, r ≠ ' ' :: t) :
    nbspLine (escapePipes (spaces k ++ r)) =
      (List.replicate k "&nbsp;".toList).flatten ++ escapePipes r := by
  rw [escape_append, escape_spaces]
  unfold nbspLine
  rw [lstrip_spaces k _ (escape_head h)]
  simp only
  have : (spaces k ++ escapePipes r).length - (escapePipes r).length = k := by
    simp [spaces]
  rw [this]
  cases k with
  | zero => rfl
  | succ k => rw [if_pos (by omega)]

theorem nbspLine_iff (l out : Str) : nbspLine (escapePipes l) = out ↔ CellLine l out := by
  constructor
  · intro h
    obtain ⟨k, rest, rfl, hr⟩ := exists_spaces l
    exact ⟨k, rest, rfl, hr, by rw [← h, nbspLine_eq k rest hr]⟩
  · rintro ⟨k, rest, rfl, hr, rfl⟩
    exact nbspLine_eq k rest hr

/-- The text of a cell: its lines, each treated by `CellLine`, joined by `<br>`. -/
theorem cell_eq (md out : Str) :
    Str.join "<br>".toList ((Str.splitNL (Str.replace ['|'] ['\\', '|'] md)).map nbspLine) = out ↔
      ∃ outs, List.Forall₂ CellLine (Str.splitNL md) outs ∧ out = Str.join "<br>".toList outs := by
  rw [replace_pipe, splitNL_escape, List.map_map]
  constructor
  · intro h
    refine ⟨_, ?_, h.symm⟩
    rw [List.forall₂_map_right_iff]
    exact List.forall₂_same.mpr fun l _ => (nbspLine_iff l _).mp rfl
  · rintro ⟨outs, h, rfl⟩
    congr 1
    generalize Str.splitNL md = ls at h
    induction h with
    | nil => rfl
    | cons h _ ih => rw [List.map_cons, ih, ← (nbspLine_iff _ _).mpr h]; rfl

theorem mem_escape {c : Char} {s : Str} (h : c ∈ escapePipes s) : c ∈ s ∨ c = '\\' := by
  unfold escapePipes at h
  rw [List.mem_flatMap] at h
  obtain ⟨d, hd, h⟩ := h
  split at h
  · next e => subst e; simp at h; rcases h with h | h
              · exact .inr h
              · exact .inl (by rw [h]; exact hd)
  · simp at h; exact .inl (by rw [h]; exact hd)

theorem mem_join {c : Char} {sep : Str} {l : List Str} (h : c ∈ Str.join sep l) :
    c ∈ sep ∨ ∃ a ∈ l, c ∈ a := by
  induction l with
  | nil => cases h
  | cons a l ih =>
    cases l with
    | nil => exact .inr ⟨a, by simp, h⟩
    | cons b l =>
      rw [join_cons_cons, List.mem_append, List.mem_append] at h
      rcases h with (h | h) | h
      · exact .inr ⟨a, by simp, h⟩
      · exact .inl h
      · rcases ih h with h | ⟨x, hx, h⟩
        · exact .inl h
        · exact .inr ⟨x, by simp [hx], h⟩

/-- Every character of a cell line is one of the line, of `&nbsp;` or a backslash. -/
theorem cellLine_mem {l out : Str} (h : CellLine l out) {c : Char} (hc : c ∈ out) :
    c ∈ l ∨ c ∈ "&nbsp;\\".toList := by
  obtain ⟨k, rest, rfl, _, rfl⟩ := h
  rw [List.mem_append] at hc
  rcases hc with hc | hc
  · rw [List.mem_flatten] at hc
    obtain ⟨x, hx, hc⟩ := hc
    rw [(List.mem_replicate.mp hx).2] at hc
    refine .inr ?_
    simp at hc ⊢
    tauto
  · rcases mem_escape hc with h | h
    · exact .inl (List.mem_append_right _ h)
    · exact .inr (by rw [h]; decide)

/-- Text of a cell: safe, and every character comes from the content (except newlines) or the markup. -/
theorem cell_spec {md out : Str}
    (h : ∃ outs, List.Forall₂ CellLine (Str.splitNL md) outs ∧ out = Str.join "<br>".toList outs) :
    Safe out ∧ '\n' ∉ out ∧ ∀ c ∈ out, c ∈ md ∨ c ∈ "&nbsp;\\<br>".toList := by
  obtain ⟨outs, h, rfl⟩ := h
  have hex : ∀ o ∈ outs, ∃ l ∈ Str.splitNL md, CellLine l o := by
    generalize Str.splitNL md = ls at h
    induction h with
    | nil => simp
    | @cons a b l1 l2 h _ ih =>
      intro o ho
      rcases List.mem_cons.mp ho with rfl | ho
      · exact ⟨a, by simp, h⟩
      · obtain ⟨l, hl, h⟩ := ih o ho
        exact ⟨l, by simp [hl], h⟩
  have hmem : ∀ l ∈ Str.splitNL md, ∀ c ∈ l, c ∈ md := by
    intro l hl c hc
    have : ∀ (ls : List Str), l ∈ ls → c ∈ Str.join ['\n'] ls := by
      intro ls hl
      induction ls with
      | nil => cases hl
      | cons a ls ih =>
        cases ls with
        | nil => rw [List.mem_singleton] at hl; subst hl; exact hc
        | cons b ls =>
          rw [join_cons_cons, List.mem_append, List.mem_append]
          rcases List.mem_cons.mp hl with rfl | hl
          · exact .inl (.inl hc)
          · exact .inr (ih hl)
    have := this _ hl
    rwa [join_splitNL] at this
  refine ⟨join_safe (by intro e; cases e <;> rfl) fun o ho => ?_, ?_, ?_⟩
  · obtain ⟨l, _, h⟩ := hex o ho; exact cellLine_safe h
  · intro hn
    rcases mem_join hn with h | ⟨o, ho, h⟩
    · exact absurd h (by decide)
    · obtain ⟨l, hl, hcl⟩ := hex o ho
      rcases cellLine_mem hcl h with h | h
      · exact splitNL_noNL md l hl h
      · exact absurd h (by decide)
  · intro c hc
    rcases mem_join hc with h | ⟨o, ho, h⟩
    · refine .inr ?_; simp at h ⊢; tauto
    · obtain ⟨l, hl, hcl⟩ := hex o ho
      rcases cellLine_mem hcl h with h | h
      · exact .inl (hmem l hl c h)
      · refine .inr ?_; simp at h ⊢; tauto

/-! ## Rows -/

theorem lastEsc_snoc (e : Bool) (s : Str) (c : Char) : lastEsc e (s ++ [c]) = decide (c = '\\') := by
  rw [lastEsc_append]; rfl

theorem splitBare_cells (cs : List Str) (hne : cs ≠ []) (h : ∀ c ∈ cs, Safe c) :
    splitBare false (' ' :: Str.join " | ".toList cs ++ " |".toList) =
      cs.map (fun c => ' ' :: c ++ [' ']) ++ [[]] := by
  have hp : ∀ c ∈ cs, barePipes false (' ' :: c ++ [' ']) = 0 ∧
      lastEsc false (' ' :: c ++ [' ']) = false := by
    intro c hc
    refine ⟨?_, lastEsc_snoc _ _ _⟩
    rw [List.cons_append, barePipes, barePipes_append, h c hc]
    generalize lastEsc _ c = e
    cases e <;> rfl
  induction cs with
  | nil => exact absurd rfl hne
  | cons a cs ih =>
    obtain ⟨h1, h2⟩ := hp a (by simp)
    cases cs with
    | nil =>
      have e : (' ' :: Str.join " | ".toList [a] ++ " |".toList) = (' ' :: a ++ [' ']) ++ '|' :: [] := by
        simp [Str.join]
      rw [e, splitBare_append h1 h2]; rfl
    | cons b cs =>
      have e : (' ' :: Str.join " | ".toList (a :: b :: cs) ++ " |".toList) =
          (' ' :: a ++ [' ']) ++ '|' :: (' ' :: Str.join " | ".toList (b :: cs) ++ " |".toList) := by
        rw [join_cons_cons]; simp
      rw [e, splitBare_append h1 h2, ih (by simp) (fun c hc => h c (by simp [hc]))
        (fun c hc => hp c (by simp [hc]))]
      rfl

/-- A row of safe cells reads back cell by cell. -/
theorem splitBare_row (cs : List Str) (hne : cs ≠ []) (h : ∀ c ∈ cs, Safe c) :
    splitBare false (rowLine cs) = [] :: (cs.map (fun c => ' ' :: c ++ [' ']) ++ [[]]) := by
  have e : rowLine cs = [] ++ '|' :: (' ' :: Str.join " | ".toList cs ++ " |".toList) := by
    unfold rowLine; rw [← join_eq]; simp
  rw [e, splitBare_append rfl rfl, splitBare_cells cs hne h]

theorem barePipes_row (cs : List Str) (h : ∀ c ∈ cs, Safe c) :
    barePipes false (rowLine cs) = max cs.length 1 + 1 := by
  by_cases hne : cs = []
  · subst hne; rfl
  · have := splitBare_length false (rowLine cs)
    rw [splitBare_row cs hne h] at this
    simp at this
    have : 1 ≤ cs.length := List.length_pos_of_ne_nil hne
    omega

/-! ## The other reading of escapes -/

/-- The reader's state after a text. -/
def lastParity (esc : Bool) : Str → Bool
  | [] => esc
  | c :: s => lastParity (decide (c = '\\') && !esc) s

theorem parityPipes_append (e : Bool) (a b : Str) :
    parityPipes e (a ++ b) = parityPipes e a + parityPipes (lastParity e a) b := by
  induction a generalizing e with
  | nil => simp [parityPipes, lastParity]
  | cons c a ih => simp only [List.cons_append, parityPipes, lastParity, ih]; omega

theorem lastParity_append (e : Bool) (a b : Str) :
    lastParity e (a ++ b) = lastParity (lastParity e a) b := by
  induction a generalizing e with
  | nil => rfl
  | cons c a ih => exact ih _

/-- After escaping, a pipe is bare iff it was escaped before. -/
theorem parityPipes_escape (e : Bool) (s : Str) : parityPipes e (escapePipes s) = escapedPipes e s := by
  induction s generalizing e with
  | nil => rfl
  | cons c s ih =>
    unfold escapePipes at ih ⊢
    rw [List.flatMap_cons, parityPipes_append, ih, escapedPipes]
    by_cases h : c = '|'
    · subst h; cases e <;> simp [parityPipes, lastParity]
    · simp [parityPipes, lastParity, h]

theorem parityPipes_nbsp (k : Nat) (s : Str) :
    parityPipes false ((List.replicate k "&nbsp;".toList).flatten ++ s) = parityPipes false s := by
  induction k with
  | zero => rfl
  | succ k ih =>
    rw [List.replicate_succ, List.flatten_cons, List.append_assoc, parityPipes_append]
    exact (Nat.zero_add _).trans ih

theorem escapedPipes_spaces (k : Nat) (s : Str) :
    escapedPipes false (spaces k ++ s) = escapedPipes false s := by
  induction k with
  | zero => rfl
  | succ k ih => exact (Nat.zero_add _).trans ih

theorem cellLine_parity {l out : Str} (h : CellLine l out) :
    parityPipes false out = escapedPipes false l := by
  obtain ⟨k, rest, rfl, _, rfl⟩ := h
  rw [parityPipes_nbsp, escapedPipes_spaces, parityPipes_escape]

theorem escapedPipes_newline (e : Bool) (a b : Str) :
    escapedPipes e (a ++ '\n' :: b) = escapedPipes e a + escapedPipes false b := by
  induction a generalizing e with
  | nil => cases e <;> simp [escapedPipes]
  | cons c a ih => simp only [List.cons_append, escapedPipes, ih]; omega

theorem parityPipes_br (e : Bool) (a b : Str) :
    parityPipes e (a ++ "<br>".toList ++ b) = parityPipes e a + parityPipes false b := by
  rw [List.append_assoc, parityPipes_append, parityPipes_append]
  have : ∀ x, parityPipes x "<br>".toList = 0 ∧ lastParity x "<br>".toList = false := by decide
  rw [(this _).1, (this _).2, Nat.zero_add]

theorem cells_parity {ls outs : List Str} (h : List.Forall₂ CellLine ls outs) :
    parityPipes false (Str.join "<br>".toList outs) = escapedPipes false (Str.join ['\n'] ls) := by
  induction h with
  | nil => rfl
  | @cons l o ls outs h hs ih =>
    cases hs with
    | nil => exact cellLine_parity h
    | cons h2 hs =>
      rw [join_cons_cons, join_cons_cons, parityPipes_br, ih, cellLine_parity h, List.append_assoc]
      exact (escapedPipes_newline false l _).symm

theorem parityPipes_sep (e : Bool) (a b : Str) :
    parityPipes e (a ++ " | ".toList ++ b) = parityPipes e a + 1 + parityPipes false b := by
  rw [List.append_assoc, parityPipes_append, parityPipes_append]
  have : ∀ x, parityPipes x " | ".toList = 1 ∧ lastParity x " | ".toList = false := by decide
  rw [(this _).1, (this _).2]; omega

theorem parityPipes_join (cs : List Str) (hne : cs ≠ []) :
    parityPipes false (Str.join " | ".toList cs) + 1 =
      cs.length + (cs.map (parityPipes false)).sum := by
  induction cs with
  | nil => exact absurd rfl hne
  | cons a cs ih =>
    cases cs with
    | nil => simp [Str.join]; omega
    | cons b cs =>
      rw [join_cons_cons, parityPipes_sep]
      have := ih (by simp)
      simp only [List.length_cons, List.map_cons, List.sum_cons] at this ⊢
      omega

theorem parityPipes_row (cs : List Str) :
    parityPipes false (rowLine cs) = max cs.length 1 + 1 + (cs.map (parityPipes false)).sum := by
  unfold rowLine
  rw [← join_eq, List.append_assoc, parityPipes_append, parityPipes_append]
  have : ∀ x, parityPipes x " |".toList = 1 := by decide
  rw [this]
  show 1 + (parityPipes false _ + 1) = _
  by_cases hne : cs = []
  · subst hne; rfl
  · have := parityPipes_join cs hne
    have := List.length_pos_of_ne_nil hne
    omega

end Verif.Spec
