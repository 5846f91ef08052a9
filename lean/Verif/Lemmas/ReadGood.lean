import Verif.Lemmas.ReadLists
import Verif.Lemmas.Tables
/-!
# Blocks one after the other
-/

namespace Verif
open Spec

/-- The lines are read as these blocks, also before other blocks. -/
structure Good (L : List Str) (bs : List Block) : Prop where
  reads : ∀ rest cs, (lastBlank L = true ∨ headBlank rest = true) → outdented 1 rest → TidyCode cs →
    ((bs ++ cs).IsChain fun a b => sameList a b = false) → Reads rest cs → Reads (L ++ rest) (bs ++ cs)
  flush : outdented 1 L
  tidy : TidyCode bs

theorem outdented_append {w : Nat} {a b : List Str} (ha : outdented w a) (hb : outdented w b) : outdented w (a ++ b) := by
  intro r hr
  rw [List.find?_append] at hr
  cases h : a.find? (fun l => !blankLine l) with
  | none => rw [h] at hr; exact hb r hr
  | some x =>
    rw [h] at hr
    simp only [Option.some_or, Option.mem_def, Option.some.injEq] at hr
    subst hr
    exact ha _ h

theorem tidyCode_append {a b : List Block} (ha : TidyCode a) (hb : TidyCode b) : TidyCode (a ++ b) := by
  intro i body h
  rcases List.mem_append.mp h with h | h
  · exact ha i body h
  · exact hb i body h

theorem Good.all {L : List Str} {bs : List Block} (h : Good L bs) (hc : bs.IsChain fun a b => sameList a b = false) :
    Reads L bs := by
  have := h.reads [] [] (.inr rfl) (by intro r hr; cases hr) (by intro _ _ h; cases h) (by rwa [List.append_nil]) .nil
  rwa [List.append_nil, List.append_nil] at this

theorem Good.append {L M : List Str} {bs cs : List Block} (h : Good L bs) (h' : Good M cs) (hM : M ≠ [])
    (hs : lastBlank L = true ∨ headBlank M = true) : Good (L ++ M) (bs ++ cs) where
  reads rest ds h1 h2 h3 h4 h5 := by
    rw [lastBlank_append _ _ hM] at h1
    rw [List.append_assoc] at h4
    have h6 := h'.reads rest ds h1 h2 h3 (List.isChain_append.mp h4).2.1 h5
    have h7 := h.reads (M ++ rest) (cs ++ ds) (by rwa [headBlank_append _ _ hM]) (outdented_append h'.flush h2)
      (tidyCode_append h'.tidy h3) h4 h6
    rwa [List.append_assoc, List.append_assoc]
  flush := outdented_append h.flush h'.flush
  tidy := tidyCode_append h.tidy h'.tidy

theorem Good.blank {L : List Str} (h : ∀ l ∈ L, blankLine l = true) : Good L [] where
  reads rest cs h0 _ _ _ hr := by
    rw [List.nil_append]
    clear h0
    induction L with
    | nil => exact hr
    | cons l L ih =>
      exact .blank (kindOf_blank.mpr (h l (by simp))) (ih fun x hx => h x (by simp [hx]))
  flush := by
    intro r hr
    rw [Option.mem_def] at hr
    have := List.find?_some hr
    rw [h r (List.mem_of_find?_eq_some hr)] at this
    cases this
  tidy := by intro _ _ h; cases h

theorem Good.pad {L a b : List Str} {bs : List Block} (h : Good L bs) (hL : L ≠ []) (ha : ∀ l ∈ a, blankLine l = true)
    (hb : ∀ l ∈ b, blankLine l = true) : Good (a ++ L ++ b) bs := by
  have h1 : Good (a ++ L) bs := by
    refine (Good.blank ha).append h hL (.inl ?_)
    unfold lastBlank
    split
    · rfl
    next l hl => exact ha l (List.mem_of_getLast? hl)
  cases b with
  | nil => rwa [List.append_nil]
  | cons x b =>
    have := h1.append (Good.blank hb) (by simp) (.inr (hb x (by simp)))
    rwa [List.append_nil] at this

theorem Good.squeeze {L L' : List Str} {bs : List Block} (h : Good L bs) (hs : Squeeze L L') : Good L' bs where
  reads rest cs h1 h2 h3 h4 h5 :=
    reads_squeeze (h.reads rest cs (by rwa [hs.lastBlank]) h2 h3 h4 h5) (hs.append rest) (tidyCode_append h.tidy h3)
  flush := by
    unfold outdented
    rw [← hs.find?]
    exact h.flush
  tidy := h.tidy

/-- Blocks one after the other. -/
theorem good_blocks {Ls : List (List Str)} {bss : List (List Block)} (h : List.Forall₂ Good Ls bss) (hne : ∀ L ∈ Ls, L ≠ [])
    (hs : Ls.IsChain fun a b => lastBlank a = true ∨ headBlank b = true) : Good Ls.flatten bss.flatten := by
  induction h with
  | nil => exact Good.blank (by simp)
  | @cons L bs Ls bss h1 h2 ih =>
    have ih := ih (fun x hx => hne x (by simp [hx])) hs.tail
    cases h2 with
    | nil => simpa using h1
    | @cons M cs Ls bss h2 h3 =>
      rw [List.flatten_cons, List.flatten_cons]
      have hM : M ≠ [] := hne M (by simp)
      refine h1.append ih (by simp [hM]) ?_
      rw [headBlank_append _ _ hM]
      exact (List.isChain_cons_cons.mp hs).1

/-! ## Single blocks -/

/-- A block that ends with a line that is not blank. -/
theorem Good.core {L : List Str} {bs : List Block} (hl : lastBlank L = false)
    (hr : ∀ rest cs, headBlank rest = true → outdented 1 rest → ((bs ++ cs).IsChain fun a b => sameList a b = false) →
      Reads rest cs → Reads (L ++ rest) (bs ++ cs)) (hf : outdented 1 L) (ht : TidyCode bs) : Good L bs where
  reads rest cs h1 h2 _ h4 h5 := by
    rw [hl] at h1
    exact hr rest cs (h1.resolve_left (by simp)) h2 h4 h5
  flush := hf
  tidy := ht

theorem outdented_cons {l : Str} {L : List Str} (hb : blankLine l = false) (h : (l.takeWhile (· == ' ')).length < 1) :
    outdented 1 (l :: L) := by
  intro r hr
  rw [List.find?_cons_of_pos (by simp [hb])] at hr
  cases hr
  exact h

theorem lastBlank_all {L : List Str} (hne : L ≠ []) (h : ∀ l ∈ L, blankLine l = false) : lastBlank L = false := by
  unfold lastBlank
  rw [List.getLast?_eq_some_getLast hne]
  exact h _ (List.getLast_mem hne)

theorem good_para {ps : List Str} (hne : ps ≠ []) (hp : ∀ l ∈ ps, kindOf l = .text) : Good ps [.para ps] := by
  refine .core (lastBlank_all hne fun l hl => kind_nonblank (hp l hl) (by decide)) ?_ ?_ ?_
  · intro rest cs hb _ _ hr
    exact .para hne hp (fun r h => .inl (by rw [headBlank_kind hb r h]; decide)) hr
  · cases ps with
    | nil => exact absurd rfl hne
    | cons p ps => exact outdented_cons (kind_nonblank (hp p (by simp)) (by decide)) (text_flush (hp p (by simp)))
  · intro i b h; simp at h

theorem good_heading {k : Nat} {t : Str} (hk : 1 ≤ k) (hk' : k ≤ 6) (ht : headingText t) :
    Good [List.replicate k '#' ++ ' ' :: t] [.heading k t] := by
  have hb := kind_nonblank (kindOf_heading hk hk' ht) (by decide)
  refine .core (lastBlank_all (by simp) (by simpa using hb)) ?_ ?_ ?_
  · intro rest cs _ _ _ hr
    exact .heading hk hk' ht hr
  · refine outdented_cons hb ?_
    obtain ⟨j, rfl⟩ : ∃ j, k = j + 1 := ⟨k - 1, by omega⟩
    simp [List.replicate_succ]
  · intro i b h; simp at h

theorem good_rule : Good ["---".toList] [.rule] := by
  refine .core rfl ?_ (outdented_cons rfl (by decide)) ?_
  · intro rest cs _ _ _ hr
    exact .rule (by decide) hr
  · intro i b h; simp at h

theorem closes_fence : closes "```".toList = true := by decide

theorem good_code {info : Str} {body : List Str} (hi : infoText info)
    (hb : ∀ l ∈ body, closes l = false ∧ l.any lineBreak = false) (ht : Tidy body) :
    Good (("```".toList ++ info) :: (body ++ ["```".toList])) [.code info body] := by
  refine .core ?_ ?_ (outdented_cons (by rfl) (by simp)) ?_
  · rw [← List.cons_append, lastBlank_append _ _ (by simp)]
    rfl
  · intro rest cs _ _ _ hr
    have := Reads.code hi hb closes_fence hr
    rwa [List.cons_append, List.append_assoc]
  · intro i b h
    simp only [List.mem_singleton, Block.code.injEq] at h
    rw [h.2]
    exact ht

theorem kindOf_quoted {l : Str} (h : l.any lineBreak = false) : kindOf ("> ".toList ++ l) = .quote := by
  show kindOf ('>' :: ' ' :: l) = .quote
  have hlb : ('>' :: ' ' :: l).any lineBreak = false := by
    rw [List.any_cons, List.any_cons, h]; decide
  unfold kindOf
  rw [blankLine_cons (by decide), hlb, ruleChars_head (by decide) (by decide) (by decide) (by decide)]
  rfl

theorem unquoted_quoted (l : Str) : unquoted ("> ".toList ++ l) = l := rfl

theorem good_quote {ls : List Str} {inner : List Block} (hne : ls ≠ []) (h : Reads ls inner) :
    Good (ls.map ("> ".toList ++ ·)) [.quote inner] := by
  have hk : ∀ l ∈ ls.map ("> ".toList ++ ·), kindOf l = .quote := by
    intro l hl
    obtain ⟨x, hx, rfl⟩ := List.mem_map.mp hl
    exact kindOf_quoted (reads_noBreak h x hx)
  have hne' : ls.map ("> ".toList ++ ·) ≠ [] := by simpa using hne
  refine .core (lastBlank_all hne' fun l hl => kind_nonblank (hk l hl) (by decide)) ?_ ?_ ?_
  · intro rest cs hb _ _ hr
    have := Reads.quote (zs := []) hne' hk (by simp) (by simp) (fun r h => (by rw [headBlank_kind hb r h]; decide))
      (fun r h => (by rw [headBlank_kind hb r h]; decide)) (inner := inner) (by
        rw [List.map_map, List.append_nil]
        have : (unquoted ∘ fun x => "> ".toList ++ x) = id := funext unquoted_quoted
        rw [this, List.map_id]
        exact h) hr
    rwa [List.append_nil] at this
  · cases ls with
    | nil => exact absurd rfl hne
    | cons x ls =>
      rw [List.map_cons]
      exact outdented_cons (kind_nonblank (hk _ (by simp)) (by decide)) (by simp)
  · intro i b h; simp at h

theorem good_list {num : Option Nat} {T : List Line} {items : List (List Block)} (h : Lay num T items) (hne : items ≠ []) :
    Good (places 0 T) [listBlock num items] := by
  have hT : T ≠ [] := fun e => hne ((lay_nil h).mp e)
  refine .core (lastBlank_all (by simpa [places] using hT) (lay_nonblank h 0)) ?_ ?_ ?_
  · intro rest cs hb ho hc hr
    exact lay_reads h 0 rest cs (by omega) hne hb ho hr (by
      intro c hm
      cases cs with
      | nil => cases hm
      | cons d cs =>
        cases hm
        exact (List.isChain_cons_cons.mp hc).1)
  · cases T with
    | nil => exact absurd rfl hT
    | cons x T =>
      refine outdented_cons (lay_nonblank h 0 _ (by simp [places])) ?_
      obtain ⟨t, rfl, _, _, _⟩ := lay_head h x (by simp)
      have := takeWhile_spaces (i := 0) (markerText_noSpace num t)
      show ((spaces 0 ++ (markerText num ++ t)).takeWhile (· == ' ')).length < 1
      omega
  · intro i b hm
    simp only [List.mem_singleton] at hm
    cases num <;> cases hm

/-! ## Tables -/

theorem bare_pad (c : Str) : stripped (" ".toList ++ c ++ " ".toList) = stripped c := by
  unfold stripped
  have h1 : (" ".toList ++ c ++ " ".toList).dropWhile gap = (c ++ [' ']).dropWhile gap := rfl
  rw [h1]
  by_cases h : ∃ x ∈ c, gap x = false
  · have : (c ++ [' ']).dropWhile gap = c.dropWhile gap ++ [' '] := by
      rw [List.dropWhile_append, if_neg]
      obtain ⟨x, hx, hg⟩ := h
      intro h0
      rw [List.isEmpty_iff, List.dropWhile_eq_nil_iff] at h0
      rw [h0 x hx] at hg
      cases hg
    rw [this, List.reverse_append]
    rfl
  · have h2 : ∀ x ∈ c, gap x = true := by
      intro x hx
      by_contra h0
      exact h ⟨x, hx, by simpa using h0⟩
    have h3 : (c ++ [' ']).dropWhile gap = [] := List.dropWhile_eq_nil_iff.mpr (by
      intro x hx
      rcases List.mem_append.mp hx with hx | hx
      · exact h2 x hx
      · rw [List.mem_singleton.mp hx]; rfl)
    rw [List.dropWhile_eq_nil_iff.mpr h2, h3]

theorem cellsOf_row {l : Str} {cs : List Str} (h : splitBare false l = [[]] ++ cs.map (fun c => " ".toList ++ c ++ " ".toList) ++ [[]]) :
    cellsOf l = cs.map stripped := by
  unfold cellsOf
  rw [h]
  dsimp only [List.cons_append, List.nil_append]
  rw [List.getLast?_append_of_ne_nil _ (by simp), List.getLast?_singleton, if_pos rfl, List.dropLast_concat, List.map_map]
  exact List.map_congr_left fun c _ => bare_pad c

theorem barFirst_row {cs : List Str} (h : ∀ c ∈ cs, c.any lineBreak = false) : barFirst (rowLine cs) := by
  refine ⟨rfl, ?_⟩
  rw [List.any_eq_false]
  intro x hx
  unfold rowLine at hx
  rw [List.mem_append, List.mem_append] at hx
  rcases hx with (hx | hx) | hx
  · have : x = '|' ∨ x = ' ' := by simpa using hx
    rcases this with rfl | rfl <;> decide
  · rcases mem_join ((join_eq _ _).symm ▸ hx) with hx | ⟨c, hc, hx⟩
    · have : x = ' ' ∨ x = '|' ∨ x = ' ' := by simpa using hx
      rcases this with rfl | rfl | rfl <;> decide
    · exact (List.any_eq_false.mp (h c hc)) x hx
  · have : x = ' ' ∨ x = '|' := by simpa using hx
    rcases this with rfl | rfl <;> decide

theorem rule_barFirst (k : Nat) : barFirst (rowLine (List.replicate k "---".toList)) := by
  refine barFirst_row fun c hc => ?_
  rw [(List.mem_replicate.mp hc).2]
  decide

theorem rule_cells (k : Nat) : cellsOf (rowLine (List.replicate (k + 1) "---".toList)) = List.replicate (k + 1) "---".toList := by
  have h := splitBare_row (List.replicate (k + 1) "---".toList) (by simp) (by
    intro c hc
    rw [(List.mem_replicate.mp hc).2]
    intro e; cases e <;> decide)
  rw [cellsOf_row (cs := List.replicate (k + 1) "---".toList) h, List.map_replicate]
  rfl

/-- The line below the header of a table. -/
theorem rule_kind (k : Nat) : kindOf (rowLine (List.replicate k "---".toList)) = .other := by
  rcases barFirst_kind (rule_barFirst k) with h | h
  · exfalso
    unfold kindOf at h
    repeat' split at h
    all_goals first | (cases h; done) | skip
    next hd =>
      apply hd
      have : (rowLine (List.replicate k "---".toList)).all (fun c => gap c || "|-:=".toList.contains c) = true := by
        rw [List.all_eq_true]
        intro x hx
        have hx : x = '|' ∨ x = ' ' ∨ x = '-' := by
          unfold rowLine at hx
          rw [List.mem_append, List.mem_append] at hx
          rcases hx with (hx | hx) | hx
          · have : x = '|' ∨ x = ' ' := by simpa using hx
            tauto
          · rcases mem_join ((join_eq _ _).symm ▸ hx) with hx | ⟨c, hc, hx⟩
            · have : x = ' ' ∨ x = '|' ∨ x = ' ' := by simpa using hx
              tauto
            · rw [(List.mem_replicate.mp hc).2] at hx
              have : x = '-' := by simpa using hx
              tauto
          · have : x = ' ' ∨ x = '|' := by simpa using hx
            tauto
        rcases hx with rfl | rfl | rfl <;> decide
      unfold doubtful
      rw [this]
      simp
  · exact h

theorem good_table {head sep : Str} {rows : List Str} (hh : kindOf head = .text) (hh' : barFirst head)
    (hk : kindOf sep = .other) (hs : barFirst sep) (hs' : ∀ c ∈ cellsOf sep, c ≠ [] ∧ ∀ x ∈ c, x = '-')
    (hw : (cellsOf sep).length = (cellsOf head).length) (hr : ∀ r ∈ rows, barFirst r) :
    Good (head :: sep :: rows) [.table (cellsOf head) (rows.map fun r => fit (cellsOf head).length (cellsOf r))] := by
  have hb : ∀ l, barFirst l → blankLine l = false := by
    intro l hl
    rcases barFirst_kind hl with h | h
    · exact kind_nonblank h (by decide)
    · exact kind_nonblank h (by decide)
  refine .core (lastBlank_all (by simp) ?_) ?_ (outdented_cons (hb _ hh') (text_flush hh)) ?_
  · intro l hl
    rcases List.mem_cons.mp hl with rfl | hl
    · exact hb _ hh'
    · rcases List.mem_cons.mp hl with rfl | hl
      · exact hb _ hs
      · exact hb _ (hr l hl)
  · intro rest cs hb _ _ hrest
    exact .table hh hh' hk hs hs' hw (fun r h => .inr (hr r h)) (fun r h => (by rw [headBlank_kind hb r h]; decide)) hrest
  · intro i b h; simp at h

end Verif
