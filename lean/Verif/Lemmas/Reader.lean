import Verif.Lemmas.ReadSqueeze
/-!
# A reader that can be run

`readLines` finds the reading of a text if it has one (`readLines_sound`); it is used for concrete texts only.
-/

namespace Verif
open Spec

instance (t : Str) : Decidable (headingText t) := by unfold headingText; infer_instance
instance (t : Str) : Decidable (infoText t) := by unfold infoText; infer_instance

instance (l : Str) : Decidable (prose l) := by unfold prose; infer_instance
instance (l : Str) : Decidable (barFirst l) := by unfold barFirst; infer_instance

def continuesB (before : List Str) : Bool :=
  (before.all fun l => decide (prose l) || blankLine (innermost l.length l)) && before.getLast?.all fun l => decide (prose l)

theorem continuesB_sound {before : List Str} (h : continuesB before = true) : continues before := by
  unfold continuesB at h
  rw [Bool.and_eq_true, List.all_eq_true] at h
  refine ⟨fun l hl => by simpa using h.1 l hl, fun l hl => ?_⟩
  have := h.2
  rw [Option.mem_def] at hl
  rw [hl] at this
  simpa using this

def laziesB (w : Nat) (before : List Str) : List Str → Bool
  | [] => true
  | l :: ls => (decide (w ≤ (l.takeWhile (· == ' ')).length) || (kindOf l == .text && continuesB before)) &&
    laziesB w (before ++ [unindent w l]) ls

theorem laziesB_sound {w : Nat} {before ls : List Str} (h : laziesB w before ls = true) : lazies w before ls := by
  induction ls generalizing before with
  | nil => trivial
  | cons l ls ih =>
    unfold laziesB at h
    rw [Bool.and_eq_true, Bool.or_eq_true, Bool.and_eq_true, decide_eq_true_eq, beq_iff_eq] at h
    refine ⟨fun hlt => ?_, ih h.2⟩
    rcases h.1 with h1 | h1
    · omega
    · exact ⟨h1.1, continuesB_sound h1.2⟩

def stopsB (rest : List Str) : Bool := rest.head?.all fun r => kindOf r != .text && kindOf r != .other

theorem stopsB_sound {rest : List Str} (h : stopsB rest = true) : stops rest := by
  intro r hr
  unfold stopsB at h
  rw [Option.mem_def] at hr
  rw [hr] at h
  simpa using h

def endsParaB (rest : List Str) : Bool :=
  match rest with
  | [] => true
  | r :: _ => [Kind.blank, .heading, .fence, .quote].contains (kindOf r) || (kindOf r == .item && match marker r with
    | some (_, num, first) => !first.isEmpty && (num == none || num == some 1)
    | none => false)

def outdentedB (w : Nat) (rest : List Str) : Bool :=
  match rest.find? (fun l => !blankLine l) with
  | some r => decide ((r.takeWhile (· == ' ')).length < w)
  | none => true

theorem endsParaB_sound {rest : List Str} (h : endsParaB rest = true) : endsPara rest := by
  intro r hr
  cases rest with
  | nil => cases hr
  | cons x rest =>
    simp only [List.head?_cons, Option.mem_def, Option.some.injEq] at hr
    subst hr
    unfold endsParaB at h
    simp only [Bool.or_eq_true, beq_iff_eq, Bool.and_eq_true] at h
    rcases h with h | ⟨h1, h2⟩
    · exact .inl (by simpa using h)
    · refine .inr ⟨h1, ?_⟩
      split at h2
      next w num first hm =>
        simp only [Bool.and_eq_true, Bool.not_eq_true', Bool.or_eq_true, beq_iff_eq] at h2
        exact ⟨w, num, first, hm, by rintro rfl; simp at h2, h2.2⟩
      · cases h2

theorem outdentedB_sound {w : Nat} {rest : List Str} (h : outdentedB w rest = true) : outdented w rest := by
  intro r hr
  rw [Option.mem_def] at hr
  unfold outdentedB at h
  rw [hr] at h
  simpa using h

/-- The table that begins with `l`, and the lines after it. -/
def tableB (l : Str) (ls : List Str) : Option (Block × List Str) :=
  match ls with
  | [] => none
  | sep :: ls =>
    let rows := ls.takeWhile fun r => kindOf r == .text || decide (barFirst r)
    let rest := ls.drop rows.length
    if kindOf l = .text ∧ barFirst l ∧ kindOf sep = .other ∧ barFirst sep ∧
        ((cellsOf sep).all fun c => !c.isEmpty && c.all (· == '-')) ∧ (cellsOf sep).length = (cellsOf l).length ∧ stopsB rest then
      some (.table (cellsOf l) (rows.map fun r => fit (cellsOf l).length (cellsOf r)), rest)
    else none

def readLines : Nat → List Str → Option (List Block)
  | 0, _ => none
  | _ + 1, [] => some []
  | f + 1, l :: ls =>
    match kindOf l with
    | .blank => readLines f ls
    | .rule => (readLines f ls).map (.rule :: ·)
    | .heading =>
      let k := (l.takeWhile (· == '#')).length
      let t := l.drop (k + 1)
      if 1 ≤ k ∧ k ≤ 6 ∧ headingText t ∧ l = List.replicate k '#' ++ ' ' :: t then
        (readLines f ls).map (.heading k t :: ·)
      else none
    | .fence =>
      let info := l.drop 3
      let body := ls.takeWhile fun x => !closes x
      match ls.drop body.length with
      | close :: rest =>
        if infoText info ∧ l = "```".toList ++ info ∧ (body.all fun x => !closes x && !x.any lineBreak) ∧ closes close then
          (readLines f rest).map (.code info body :: ·)
        else none
      | [] => none
    | .text =>
      match tableB l ls with
      | some (b, rest) => (readLines f rest).map (b :: ·)
      | none =>
        let ps := ls.takeWhile fun x => kindOf x == .text
        let rest := ls.drop ps.length
        if endsParaB rest then (readLines f rest).map (.para (l :: ps) :: ·) else none
    | .quote =>
      let qs := ls.takeWhile fun x => kindOf x == .quote
      let zs := (ls.drop qs.length).takeWhile fun x => kindOf x == .text
      let rest := (ls.drop qs.length).drop zs.length
      if (zs.isEmpty || continuesB ((l :: qs).map unquoted)) ∧ stopsB rest ∧ rest.head?.all (fun r => kindOf r != .quote) then
        match readLines f ((l :: qs).map unquoted ++ zs), readLines f rest with
        | some inner, some bs => some (.quote inner :: bs)
        | _, _ => none
      else none
    | .item =>
      match marker l with
      | some (w, num, first) =>
        let inner := ls.takeWhile fun x => !blankLine x && (kindOf x == .text || decide (w ≤ (x.takeWhile (· == ' ')).length))
        let rest := ls.drop inner.length
        if laziesB w [first] inner ∧ (!first.isEmpty || inner.isEmpty) ∧ stopsB rest ∧ outdentedB w rest then
          match readLines f (first :: inner.map (unindent w)), readLines f rest with
          | some item, some bs => some (addItem num item bs)
          | _, _ => none
        else none
      | none => none
    | .other => none

theorem takeWhile_drop {α : Type} (p : α → Bool) (l : List α) : l = l.takeWhile p ++ l.drop (l.takeWhile p).length := by
  conv_lhs => rw [← List.takeWhile_append_dropWhile (p := p) (l := l)]
  congr 1
  conv_rhs => arg 2; rw [← List.takeWhile_append_dropWhile (p := p) (l := l)]
  rw [List.drop_left]

theorem tableB_sound {l : Str} {ls rest : List Str} {b : Block} {bs : List Block} (h : tableB l ls = some (b, rest))
    (hr : Reads rest bs) : Reads (l :: ls) (b :: bs) := by
  unfold tableB at h
  split at h
  · cases h
  next sep ls =>
    dsimp only at h
    split at h
    next hc =>
      obtain ⟨c1, c2, c3, c4, c5, c6, c7⟩ := hc
      cases h
      have := Reads.table c1 c2 c3 c4 (by
        intro c hc
        have := List.all_eq_true.mp c5 c hc
        simp only [Bool.and_eq_true, Bool.not_eq_true', List.isEmpty_eq_false_iff, List.all_eq_true, beq_iff_eq] at this
        exact this) c6 (rows := ls.takeWhile fun r => kindOf r == .text || decide (barFirst r)) (by
        intro r hr
        simpa using List.mem_takeWhile_imp hr) (stopsB_sound c7) hr
      rw [← takeWhile_drop] at this
      exact this
    · cases h

theorem readLines_sound : ∀ (f : Nat) (ls : List Str) (bs : List Block), readLines f ls = some bs → Reads ls bs := by
  intro f
  induction f with
  | zero => intro ls bs h; cases h
  | succ f ih =>
    intro ls bs h
    cases ls with
    | nil => cases h; exact .nil
    | cons l ls =>
      unfold readLines at h
      split at h
      next hk => exact .blank hk (ih _ _ h)
      next hk =>
        obtain ⟨cs, h1, rfl⟩ := Option.map_eq_some_iff.mp h
        exact .rule hk (ih _ _ h1)
      next hk =>
        dsimp only at h
        split at h
        next hc =>
          obtain ⟨cs, h1, rfl⟩ := Option.map_eq_some_iff.mp h
          rw [hc.2.2.2]
          have := Reads.heading hc.1 hc.2.1 hc.2.2.1 (ih _ _ h1)
          rw [← hc.2.2.2] at this ⊢
          exact this
        · cases h
      next hk =>
        dsimp only at h
        split at h
        next close rest e =>
          split at h
          next hc =>
            obtain ⟨cs, h1, rfl⟩ := Option.map_eq_some_iff.mp h
            have h2 : ls = ls.takeWhile (fun x => !closes x) ++ close :: rest := by rw [← e]; exact takeWhile_drop _ _
            have := Reads.code hc.1 (body := ls.takeWhile fun x => !closes x) (by
              intro x hx
              have := List.all_eq_true.mp hc.2.2.1 x hx
              simpa only [Bool.and_eq_true, Bool.not_eq_true'] using this) hc.2.2.2 (ih _ _ h1)
            rw [← hc.2.1, ← h2] at this
            exact this
          · cases h
        · cases h
      next hk =>
        split at h
        next b rest ht =>
          obtain ⟨cs, h1, rfl⟩ := Option.map_eq_some_iff.mp h
          exact tableB_sound ht (ih _ _ h1)
        dsimp only at h
        split at h
        next hc =>
          obtain ⟨cs, h1, rfl⟩ := Option.map_eq_some_iff.mp h
          have := Reads.para (ps := l :: ls.takeWhile fun x => kindOf x == .text) (by simp) (by
            intro x hx
            rcases List.mem_cons.mp hx with rfl | hx
            · exact hk
            · simpa using List.mem_takeWhile_imp hx) (endsParaB_sound hc) (ih _ _ h1)
          rw [List.cons_append, ← takeWhile_drop] at this
          exact this
        · cases h
      next hk =>
        dsimp only at h
        split at h
        next hc =>
          split at h
          next inner cs h1 h2 =>
            cases h
            obtain ⟨c1, c2, c3⟩ := hc
            have := Reads.quote (qs := l :: ls.takeWhile fun x => kindOf x == .quote)
              (zs := (ls.drop (ls.takeWhile fun x => kindOf x == .quote).length).takeWhile fun x => kindOf x == .text) (by simp) (by
              intro x hx
              rcases List.mem_cons.mp hx with rfl | hx
              · exact hk
              · simpa using List.mem_takeWhile_imp hx) (by
              intro x hx
              simpa using List.mem_takeWhile_imp hx) (by
              intro hne
              rw [Bool.or_eq_true] at c1
              rcases c1 with c1 | c1
              · exact absurd (List.isEmpty_iff.mp c1) hne
              · exact continuesB_sound c1) (stopsB_sound c2) (by
              intro r hr
              rw [Option.mem_def] at hr
              rw [hr] at c3
              simpa using c3) (ih _ _ h1) (ih _ _ h2)
            rw [List.append_assoc, ← takeWhile_drop, List.cons_append, ← takeWhile_drop] at this
            exact this
          · cases h
        · cases h
      next hk =>
        dsimp only at h
        split at h
        next w num first hm =>
          split at h
          next hc =>
            split at h
            next item cs h1 h2 =>
              cases h
              obtain ⟨c1, c3, c4, c5⟩ := hc
              have := Reads.item hk hm (by
                intro x hx
                have := List.mem_takeWhile_imp hx
                rw [Bool.and_eq_true] at this
                simpa using this.1) (laziesB_sound c1) (by
                rintro rfl
                simpa using c3) (stopsB_sound c4) (outdentedB_sound c5) (ih _ _ h1) (ih _ _ h2)
              rw [← takeWhile_drop] at this
              exact this
            · cases h
          · cases h
        · cases h
      · cases h

/-! ## Comparing blocks -/

mutual
def blockEq : Block → Block → Bool
  | .para a, .para b => a == b
  | .heading k t, .heading j u => k == j && t == u
  | .rule, .rule => true
  | .code i a, .code j b => i == j && a == b
  | .quote a, .quote b => blocksEq a b
  | .bullets a, .bullets b => itemsEq a b
  | .numbers k a, .numbers j b => k == j && itemsEq a b
  | .table a b, .table c d => a == c && b == d
  | _, _ => false
def blocksEq : List Block → List Block → Bool
  | [], [] => true
  | a :: l, b :: m => blockEq a b && blocksEq l m
  | _, _ => false
def itemsEq : List (List Block) → List (List Block) → Bool
  | [], [] => true
  | a :: l, b :: m => blocksEq a b && itemsEq l m
  | _, _ => false
end

mutual
theorem blockEq_iff : ∀ a b : Block, blockEq a b = true ↔ a = b
  | .para a, b => by cases b <;> simp [blockEq]
  | .heading k t, b => by cases b <;> simp [blockEq]
  | .rule, b => by cases b <;> simp [blockEq]
  | .code i a, b => by cases b <;> simp [blockEq]
  | .quote a, b => by cases b <;> simp [blockEq, blocksEq_iff a]
  | .bullets a, b => by cases b <;> simp [blockEq, itemsEq_iff a]
  | .numbers k a, b => by cases b <;> simp [blockEq, itemsEq_iff a]
  | .table a b, c => by cases c <;> simp [blockEq]
theorem blocksEq_iff : ∀ a b : List Block, blocksEq a b = true ↔ a = b
  | [], b => by cases b <;> simp [blocksEq]
  | a :: l, b => by cases b <;> simp [blocksEq, blockEq_iff a, blocksEq_iff l]
theorem itemsEq_iff : ∀ a b : List (List Block), itemsEq a b = true ↔ a = b
  | [], b => by cases b <;> simp [itemsEq]
  | a :: l, b => by cases b <;> simp [itemsEq, blocksEq_iff a, itemsEq_iff l]
end

/-- The text is read as `bs`. -/
def readsAs (s : Str) (bs : List Block) : Bool :=
  match readLines (s.length + 2) (Str.splitNL s) with
  | some cs => blocksEq cs bs
  | none => false

theorem readsAs_sound {s : Str} {bs : List Block} (h : readsAs s bs = true) : Reads (Str.splitNL s) bs := by
  unfold readsAs at h
  split at h
  next cs hc => rw [← (blocksEq_iff cs bs).mp h]; exact readLines_sound _ _ _ hc
  · cases h

example : readsAs "# a\n\n- b\n    - c\n- d\n\n```py\nx\n\ny\n```\n\n> e\n> \n> 1. f\n> 2. g\n".toList
    [.heading 1 ['a'], .bullets [[.para [['b']], .bullets [[.para [['c']]]]], [.para [['d']]]],
     .code ['p', 'y'] [['x'], [], ['y']], .quote [.para [['e']], .numbers 1 [[.para [['f']]], [.para [['g']]]]]] = true := by
  decide +kernel

example : readsAs "- a\nb\n    - c\nd\n\n> e\n> f\ng\n\n| a | b |\n| --- | --- |\n| 1 | 2 |\n| 3\\|4 |\nx\n\ny".toList
    [.bullets [[.para [['a'], ['b']], .bullets [[.para [['c'], ['d']]]]]], .quote [.para [['e'], ['f'], ['g']]],
     .table [['a'], ['b']] [[['1'], ['2']], ["3\\|4".toList, []], [['x'], []]], .para [['y']]] = true := by
  decide +kernel

end Verif
