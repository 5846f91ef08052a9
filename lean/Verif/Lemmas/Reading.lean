import Verif.Spec.Reading
import Verif.Lemmas.Chunks
/-!
# A text has at most one reading
-/

namespace Verif
open Spec

theorem kindOf_blank {l : Str} : kindOf l = .blank ↔ blankLine l = true := by
  unfold kindOf
  split
  · simp [*]
  · next h =>
    simp only [h]
    repeat' split
    all_goals simp

theorem ruleChars_head {c : Char} {l : Str} (h1 : gap c = false) (h2 : c ≠ '-') (h3 : c ≠ '_') (h4 : c ≠ '*') :
    ruleChars (c :: l) = false := by
  simp [ruleChars, h1, h2, h3, h4]

theorem blankLine_cons {c : Char} {l : Str} (h : gap c = false) : blankLine (c :: l) = false := by
  unfold gap at h
  simp only [blankLine, List.all_cons, h, Bool.false_and]

theorem kindOf_heading {k : Nat} {t : Str} (hk : 1 ≤ k) (hk' : k ≤ 6) (ht : headingText t) :
    kindOf (List.replicate k '#' ++ ' ' :: t) = .heading := by
  obtain ⟨j, rfl⟩ : ∃ j, k = j + 1 := ⟨k - 1, by omega⟩
  have hlb : (List.replicate (j + 1) '#' ++ ' ' :: t).any lineBreak = false := by
    rw [List.any_append, List.any_cons, ht.2.1]
    rw [List.any_eq_false.mpr]
    · decide
    · intro c hc
      rw [(List.mem_replicate.mp hc).2]
      decide
  have htake : (List.replicate (j + 1) '#' ++ ' ' :: t).takeWhile (· == '#') = List.replicate (j + 1) '#' := by
    rw [List.takeWhile_append_of_pos (by intro c hc; rw [(List.mem_replicate.mp hc).2]; rfl)]
    simp
  have hdrop : (List.replicate (j + 1) '#' ++ ' ' :: t).dropWhile (· == '#') = ' ' :: t := by
    rw [List.dropWhile_append_of_pos (by intro c hc; rw [(List.mem_replicate.mp hc).2]; rfl)]
    simp
  have hh : headingStart (List.replicate (j + 1) '#' ++ ' ' :: t) = true := by
    unfold headingStart
    rw [htake, hdrop]
    simp only [List.length_replicate, gapFirst]
    simp [gap]
    omega
  have hr : ruleChars (List.replicate (j + 1) '#' ++ ' ' :: t) = false :=
    ruleChars_head (by decide) (by decide) (by decide) (by decide)
  have hb : blankLine (List.replicate (j + 1) '#' ++ ' ' :: t) = false := blankLine_cons (by decide)
  unfold kindOf
  rw [hb, hlb, hr, hh]
  rfl

theorem kindOf_fence {info : Str} (h : infoText info) : kindOf ("```".toList ++ info) = .fence := by
  have hlb : ("```".toList ++ info).any lineBreak = false := by
    rw [List.any_append, h.2.1]; decide
  have hr : ruleChars ("```".toList ++ info) = false :=
    ruleChars_head (by decide) (by decide) (by decide) (by decide)
  have hb : blankLine ("```".toList ++ info) = false := blankLine_cons (by decide)
  have hp : "```".toList.isPrefixOf ("```".toList ++ info) = true := by
    rw [List.isPrefixOf_iff_prefix]; exact List.prefix_append _ _
  unfold kindOf
  rw [hb, hlb, hr, show headingStart ("```".toList ++ info) = false from rfl, hp]
  rfl

/-- What a reading of lines begins with. -/
inductive First (l : Str) (ls : List Str) (bs : List Block) : Prop where
  | blank (hl : kindOf l = .blank) (h : Reads ls bs)
  | heading (k : Nat) (t : Str) (cs : List Block) (e : l = List.replicate k '#' ++ ' ' :: t) (hk : 1 ≤ k) (hk' : k ≤ 6)
      (ht : headingText t) (hbs : bs = .heading k t :: cs) (h : Reads ls cs)
  | rule (cs : List Block) (hl : kindOf l = .rule) (hbs : bs = .rule :: cs) (h : Reads ls cs)
  | code (info close : Str) (body rest : List Str) (cs : List Block) (e : l = "```".toList ++ info)
      (e' : ls = body ++ close :: rest) (hi : infoText info)
      (hb : ∀ x ∈ body, closes x = false ∧ x.any lineBreak = false) (hc : closes close = true)
      (hbs : bs = .code info body :: cs) (h : Reads rest cs)
  | para (ps rest : List Str) (cs : List Block) (e : ls = ps ++ rest) (hl : kindOf l = .text)
      (hp : ∀ x ∈ ps, kindOf x = .text) (he : endsPara rest) (hbs : bs = .para (l :: ps) :: cs) (h : Reads rest cs)
  | quote (qs zs rest : List Str) (inner cs : List Block) (e : ls = qs ++ zs ++ rest) (hl : kindOf l = .quote)
      (hq : ∀ x ∈ qs, kindOf x = .quote) (hz : ∀ x ∈ zs, kindOf x = .text)
      (hc : zs ≠ [] → continues ((l :: qs).map unquoted)) (he : stops rest)
      (he' : ∀ r ∈ rest.head?, kindOf r ≠ .quote)
      (hi : Reads ((l :: qs).map unquoted ++ zs) inner) (hbs : bs = .quote inner :: cs) (h : Reads rest cs)
  | item (first : Str) (w : Nat) (num : Option Nat) (inner rest : List Str) (item cs : List Block)
      (e : ls = inner ++ rest) (hk : kindOf l = .item) (hm : marker l = some (w, num, first))
      (hn : ∀ x ∈ inner, blankLine x = false) (hz : lazies w [first] inner) (hf : first = [] → inner = [])
      (he : stops rest) (ho : outdented w rest)
      (hi : Reads (first :: inner.map (unindent w)) item) (hbs : bs = addItem num item cs) (h : Reads rest cs)
  | table (sep : Str) (rows rest : List Str) (cs : List Block) (e : ls = sep :: (rows ++ rest)) (hl : kindOf l = .text)
      (hh' : barFirst l) (hk : kindOf sep = .other) (hs : barFirst sep) (hs' : ∀ c ∈ cellsOf sep, c ≠ [] ∧ ∀ x ∈ c, x = '-')
      (hw : (cellsOf sep).length = (cellsOf l).length) (hr : ∀ r ∈ rows, kindOf r = .text ∨ barFirst r) (he : stops rest)
      (hbs : bs = .table (cellsOf l) (rows.map fun r => fit (cellsOf l).length (cellsOf r)) :: cs) (h : Reads rest cs)

theorem reads_first {l : Str} {ls : List Str} {bs : List Block} (h : Reads (l :: ls) bs) : First l ls bs := by
  generalize hx : l :: ls = x at h
  cases h with
  | nil => cases hx
  | blank hl h => cases hx; exact .blank hl h
  | heading hk hk' ht h => cases hx; exact .heading _ _ _ rfl hk hk' ht rfl h
  | rule hl h => cases hx; exact .rule _ hl rfl h
  | code hi hb hc h => cases hx; exact .code _ _ _ _ _ rfl rfl hi hb hc rfl h
  | @para ps rest cs hne hp he h =>
    cases ps with
    | nil => exact absurd rfl hne
    | cons p ps =>
      cases hx
      exact .para ps rest _ rfl (hp _ (by simp)) (fun x hx => hp x (by simp [hx])) he rfl h
  | @quote qs zs rest inner cs hne hq hz hc he he' hi h =>
    cases qs with
    | nil => exact absurd rfl hne
    | cons q qs =>
      cases hx
      exact .quote qs zs rest _ _ rfl (hq _ (by simp)) (fun x hx => hq x (by simp [hx])) hz hc he he' hi rfl h
  | item hk hm hn hz hf he ho hi h => cases hx; exact .item _ _ _ _ _ _ _ rfl hk hm hn hz hf he ho hi rfl h
  | table hh hh' hk hs hs' hw hr he h => cases hx; exact .table _ _ _ _ rfl hh hh' hk hs hs' hw hr he rfl h

/-- Prefixes of lines with a property, up to a line without it, are unique. -/
theorem span_unique {α : Type} {p : α → Prop} {a b r s : List α} (h : a ++ r = b ++ s) (ha : ∀ x ∈ a, p x) (hb : ∀ x ∈ b, p x)
    (hr : ∀ x ∈ r.head?, ¬ p x) (hs : ∀ x ∈ s.head?, ¬ p x) : a = b ∧ r = s := by
  induction a generalizing b with
  | nil =>
    cases b with
    | nil => exact ⟨rfl, h⟩
    | cons y b =>
      rw [List.nil_append] at h
      subst h
      exact absurd (hb y (by simp)) (hr y (by simp))
  | cons x a ih =>
    cases b with
    | nil =>
      rw [List.nil_append] at h
      subst h
      exact absurd (ha x (by simp)) (hs x (by simp))
    | cons y b =>
      simp only [List.cons_append, List.cons.injEq] at h
      obtain ⟨rfl, h⟩ := h
      obtain ⟨rfl, rfl⟩ := ih h (fun z hz => ha z (by simp [hz])) (fun z hz => hb z (by simp [hz]))
      exact ⟨rfl, rfl⟩

/-- The size of a list of lines. -/
def sizeL (ls : List Str) : Nat := (ls.map fun l => l.length + 1).sum

theorem sizeL_append (a b : List Str) : sizeL (a ++ b) = sizeL a + sizeL b := by simp [sizeL]

theorem sizeL_cons (l : Str) (b : List Str) : sizeL (l :: b) = l.length + 1 + sizeL b := by simp [sizeL]

theorem sizeL_unquoted (qs : List Str) : sizeL (qs.map unquoted) ≤ sizeL qs := by
  induction qs with
  | nil => exact Nat.le_refl _
  | cons q qs ih =>
    rw [List.map_cons, sizeL_cons, sizeL_cons]
    have : (unquoted q).length ≤ q.length := by
      unfold unquoted
      split <;> simp
      omega
    omega

theorem unquoted_lt {q : Str} (h : kindOf q = .quote) : (unquoted q).length < q.length := by
  have hh : q.head? = some '>' := by
    unfold kindOf at h
    repeat' split at h
    all_goals try cases h
    next hq => simpa using hq
  cases q with
  | nil => cases hh
  | cons c q =>
    simp only [List.head?_cons, Option.some.injEq] at hh
    subst hh
    unfold unquoted
    split <;> simp_all
    omega

theorem marker_lt {l first : Str} {w : Nat} {num : Option Nat} (h : marker l = some (w, num, first)) :
    first.length < l.length ∧ 2 ≤ w := by
  unfold marker at h
  dsimp only at h
  split at h
  · cases h
  · split at h
    next a content e =>
      have hle : content.length + 2 ≤ l.length := by
        have := congrArg List.length e
        simp only [List.length_drop, List.length_cons] at this
        omega
      split at h
      · cases h
      · split at h
        · cases h; omega
        · split at h
          · cases h; omega
          · cases h
    · cases h

theorem leading_spaces (w : Nat) (x : Str) : w ≤ ((spaces w ++ x).takeWhile (· == ' ')).length := by
  rw [List.takeWhile_append_of_pos (by intro c hc; rw [(List.mem_replicate.mp hc).2]; rfl)]
  simp [spaces]

theorem blankLine_spaces (w : Nat) (x : Str) : blankLine (spaces w ++ x) = blankLine x := by
  unfold blankLine spaces
  rw [List.all_append]
  have : (List.replicate w ' ').all (fun c => c == ' ' || c == '\t') = true := by
    rw [List.all_eq_true]
    intro c hc
    rw [(List.mem_replicate.mp hc).2]
    rfl
  rw [this, Bool.true_and]

theorem endsPara_not {r : List Str} (hr : endsPara r) : ∀ x ∈ r.head?, ¬ (kindOf x = .text ∨ kindOf x = .other) := by
  intro x hx hk
  rcases hr x hx with h0 | ⟨h0, _⟩
  · rcases hk with hk | hk <;> rw [hk] at h0 <;> revert h0 <;> decide
  · rcases hk with hk | hk <;> rw [hk] at h0 <;> cases h0

theorem para_not_table {ps rest l : List Str} {sep : Str} (hp : ∀ x ∈ ps, kindOf x = .text) (he : endsPara rest)
    (hs : kindOf sep = .other) : ps ++ rest ≠ sep :: l := by
  intro e
  cases ps with
  | nil =>
    rw [List.nil_append] at e
    subst e
    exact endsPara_not he sep (by simp) (.inr hs)
  | cons p ps =>
    obtain ⟨rfl, _⟩ := List.cons.inj e
    rw [hp p (by simp)] at hs
    cases hs

theorem barFirst_kind {l : Str} (h : barFirst l) : kindOf l = .text ∨ kindOf l = .other := by
  obtain ⟨h1, h2⟩ := h
  cases l with
  | nil => cases h1
  | cons c l =>
    simp only [List.head?_cons, Option.some.injEq] at h1
    subst h1
    have hb : blankLine ('|' :: l) = false := blankLine_cons (by decide)
    have hr : ruleChars ('|' :: l) = false := ruleChars_head (by decide) (by decide) (by decide) (by decide)
    have hm : marker ('|' :: l) = none := by
      have hsp : ('|' :: l).takeWhile (· == ' ') = [] := by
        rw [List.takeWhile_cons_of_neg (by decide)]
      have hds : digitsOf ('|' :: l) = [] := by
        unfold digitsOf
        rw [List.takeWhile_cons_of_neg (by decide)]
      unfold marker
      dsimp only
      rw [hsp, List.length_nil, List.drop_zero, hds, List.length_nil, List.drop_zero, if_neg (by omega)]
      split
      next a content e =>
        cases e
        split
        · rfl
        · rw [if_neg (by rintro ⟨_, h⟩; revert h; decide), if_neg (by rintro ⟨h, _⟩; simp at h)]
      · rfl
    unfold kindOf
    rw [hb, h2, hr, show headingStart ('|' :: l) = false from rfl, show "```".toList.isPrefixOf ('|' :: l) = false from rfl, hm]
    cases doubtful ('|' :: l) <;> simp

theorem stops_row {r : List Str} (h : stops r) : ∀ x ∈ r.head?, ¬ (kindOf x = .text ∨ barFirst x) := by
  intro x hx hk
  rcases hk with hk | hk
  · exact (h x hx).1 hk
  · rcases barFirst_kind hk with hk | hk
    · exact (h x hx).1 hk
    · exact (h x hx).2 hk

theorem lazies_mem {w : Nat} {before inner : List Str} (h : lazies w before inner) :
    ∀ x ∈ inner, w ≤ (x.takeWhile (· == ' ')).length ∨ kindOf x = .text := by
  induction inner generalizing before with
  | nil => intro x hx; cases hx
  | cons l ls ih =>
    intro x hx
    rcases List.mem_cons.mp hx with rfl | hx
    · by_cases hw : w ≤ (x.takeWhile (· == ' ')).length
      · exact .inl hw
      · exact .inr (h.1 (by omega)).1
    · exact ih h.2 x hx

theorem sizeL_unindent (w : Nat) (ls : List Str) : sizeL (ls.map (unindent w)) ≤ sizeL ls := by
  induction ls with
  | nil => exact Nat.le_refl _
  | cons l ls ih =>
    rw [List.map_cons, sizeL_cons, sizeL_cons]
    have : (unindent w l).length ≤ l.length := by
      unfold unindent
      split <;> simp
    omega

/-- A text has at most one reading. -/
theorem reads_unique_aux : ∀ (n : Nat) (ls : List Str) (a b : List Block), sizeL ls ≤ n → Reads ls a → Reads ls b → a = b := by
  intro n
  induction n with
  | zero =>
    intro ls a b hs h1 h2
    cases ls with
    | nil =>
      have e : ∀ x, Reads [] x → x = [] := by
        intro x h
        generalize hy : ([] : List Str) = y at h
        cases h with
        | nil => rfl
        | para hne => exact absurd (List.append_eq_nil_iff.mp hy.symm).1 hne
        | quote hne => exact absurd (List.append_eq_nil_iff.mp (List.append_eq_nil_iff.mp hy.symm).1).1 hne
        | _ => cases hy
      rw [e a h1, e b h2]
    | cons l ls => rw [sizeL_cons] at hs; omega
  | succ n ih =>
    intro ls a b hs h1 h2
    cases ls with
    | nil => exact ih [] a b (by simp [sizeL]) h1 h2
    | cons l ls =>
      have hs' := hs
      rw [sizeL_cons] at hs
      cases reads_first h1 with
      | blank hl h =>
        cases reads_first h2 with
        | blank hl' h' => exact ih _ _ _ (by omega) h h'
        | heading k t cs e hk hk' ht hbs h' => rw [e, kindOf_heading hk hk' ht] at hl; cases hl
        | rule cs hl' hbs h' => rw [hl] at hl'; cases hl'
        | code _ _ _ _ _ e _ hi _ _ _ _ => rw [e, kindOf_fence hi] at hl; cases hl
        | para _ _ _ _ hl' _ _ _ _ => rw [hl] at hl'; cases hl'
        | quote _ _ _ _ _ _ hl' _ _ _ _ _ _ _ _ => rw [hl] at hl'; cases hl'
        | item _ _ _ _ _ _ _ _ hl' _ _ _ _ _ _ _ _ _ => rw [hl] at hl'; cases hl'
        | table _ _ _ _ _ hl' _ _ _ _ _ _ _ _ _ => rw [hl] at hl'; cases hl'
      | heading k t cs e hk hk' ht hbs h =>
        have hl : kindOf l = .heading := by rw [e, kindOf_heading hk hk' ht]
        cases reads_first h2 with
        | blank hl' h' => rw [hl] at hl'; cases hl'
        | heading k2 t2 cs2 e2 hk2 hk2' ht2 hbs2 h' =>
          rw [e] at e2
          have hkt : k = k2 ∧ t = t2 := by
            have h3 := congrArg (fun s : Str => ((s.takeWhile (· == '#')).length, s.dropWhile (· == '#'))) e2
            simpa [List.takeWhile_append_of_pos, List.dropWhile_append_of_pos] using h3
          obtain ⟨rfl, rfl⟩ := hkt
          rw [hbs, hbs2, ih _ _ _ (by omega) h h']
        | rule cs hl' hbs h' => rw [hl] at hl'; cases hl'
        | code _ _ _ _ _ e _ hi _ _ _ _ => rw [e, kindOf_fence hi] at hl; cases hl
        | para _ _ _ _ hl' _ _ _ _ => rw [hl] at hl'; cases hl'
        | quote _ _ _ _ _ _ hl' _ _ _ _ _ _ _ _ => rw [hl] at hl'; cases hl'
        | item _ _ _ _ _ _ _ _ hl' _ _ _ _ _ _ _ _ _ => rw [hl] at hl'; cases hl'
        | table _ _ _ _ _ hl' _ _ _ _ _ _ _ _ _ => rw [hl] at hl'; cases hl'
      | rule cs hl hbs h =>
        cases reads_first h2 with
        | blank hl' h' => rw [hl] at hl'; cases hl'
        | heading k t cs e hk hk' ht hbs h' => rw [e, kindOf_heading hk hk' ht] at hl; cases hl
        | rule cs hl' hbs2 h' => rw [hbs, hbs2, ih _ _ _ (by omega) h h']
        | code _ _ _ _ _ e _ hi _ _ _ _ => rw [e, kindOf_fence hi] at hl; cases hl
        | para _ _ _ _ hl' _ _ _ _ => rw [hl] at hl'; cases hl'
        | quote _ _ _ _ _ _ hl' _ _ _ _ _ _ _ _ => rw [hl] at hl'; cases hl'
        | item _ _ _ _ _ _ _ _ hl' _ _ _ _ _ _ _ _ _ => rw [hl] at hl'; cases hl'
        | table _ _ _ _ _ hl' _ _ _ _ _ _ _ _ _ => rw [hl] at hl'; cases hl'
      | code info close body rest cs e e' hi hb hc hbs h =>
        have hl : kindOf l = .fence := by rw [e, kindOf_fence hi]
        cases reads_first h2 with
        | blank hl' h' => rw [hl] at hl'; cases hl'
        | heading k t cs e hk hk' ht hbs h' => rw [e, kindOf_heading hk hk' ht] at hl; cases hl
        | rule cs hl' hbs h' => rw [hl] at hl'; cases hl'
        | code info2 close2 body2 rest2 cs2 e2 e2' hi2 hb2 hc2 hbs2 h' =>
          have hinfo : info = info2 := by rw [e] at e2; exact List.append_cancel_left e2
          rw [e'] at e2'
          have hcl : ∀ (c : Str) (r : List Str), closes c = true → ∀ x ∈ (c :: r).head?, ¬ closes x = false := by
            intro c r h x hx
            simp only [List.head?_cons, Option.mem_def, Option.some.injEq] at hx
            rw [← hx, h]
            decide
          obtain ⟨rfl, hr⟩ := span_unique (p := fun x => closes x = false) e2' (fun x hx => (hb x hx).1)
            (fun x hx => (hb2 x hx).1) (hcl _ _ hc) (hcl _ _ hc2)
          cases hr
          have : sizeL rest ≤ n := by
            rw [e', sizeL_append, sizeL_cons] at hs; omega
          rw [hbs, hbs2, hinfo, ih _ _ _ this h h']
        | para _ _ _ _ hl' _ _ _ _ => rw [hl] at hl'; cases hl'
        | quote _ _ _ _ _ _ hl' _ _ _ _ _ _ _ _ => rw [hl] at hl'; cases hl'
        | item _ _ _ _ _ _ _ _ hl' _ _ _ _ _ _ _ _ _ => rw [hl] at hl'; cases hl'
        | table _ _ _ _ _ hl' _ _ _ _ _ _ _ _ _ => rw [hl] at hl'; cases hl'
      | para ps rest cs e hl hp he hbs h =>
        cases reads_first h2 with
        | blank hl' h' => rw [hl] at hl'; cases hl'
        | heading k t cs e hk hk' ht hbs h' => rw [e, kindOf_heading hk hk' ht] at hl; cases hl
        | rule cs hl' hbs h' => rw [hl] at hl'; cases hl'
        | code _ _ _ _ _ e _ hi _ _ _ _ => rw [e, kindOf_fence hi] at hl; cases hl
        | para ps2 rest2 cs2 e2 hl' hp2 he2 hbs2 h' =>
          rw [e] at e2
          have hend : ∀ r, endsPara r → ∀ x ∈ r.head?, ¬ kindOf x = .text := by
            intro r hr x hx hk
            exact endsPara_not hr x hx (.inl hk)
          obtain ⟨rfl, rfl⟩ := span_unique (p := fun x => kindOf x = .text) e2 hp hp2 (hend _ he) (hend _ he2)
          have : sizeL rest ≤ n := by rw [e, sizeL_append] at hs; omega
          rw [hbs, hbs2, ih _ _ _ this h h']
        | quote _ _ _ _ _ _ hl' _ _ _ _ _ _ _ _ => rw [hl] at hl'; cases hl'
        | item _ _ _ _ _ _ _ _ hl' _ _ _ _ _ _ _ _ _ => rw [hl] at hl'; cases hl'
        | table _ _ _ _ e2 _ _ hsep _ _ _ _ _ _ _ => exact absurd e2 (e ▸ para_not_table hp he hsep)
      | table sep rows rest cs e hl hh' hsep hs1 hs2 hw hr he hbs h =>
        cases reads_first h2 with
        | blank hl' h' => rw [hl] at hl'; cases hl'
        | heading k t cs e hk hk' ht hbs h' => rw [e, kindOf_heading hk hk' ht] at hl; cases hl
        | rule cs hl' hbs h' => rw [hl] at hl'; cases hl'
        | code _ _ _ _ _ e _ hi _ _ _ _ => rw [e, kindOf_fence hi] at hl; cases hl
        | para _ _ _ e2 hl' hp he _ _ => exact absurd e (e2 ▸ para_not_table hp he hsep)
        | quote _ _ _ _ _ _ hl' _ _ _ _ _ _ _ _ => rw [hl] at hl'; cases hl'
        | item _ _ _ _ _ _ _ _ hl' _ _ _ _ _ _ _ _ _ => rw [hl] at hl'; cases hl'
        | table sep2 rows2 rest2 cs2 e2 _ _ hsep2 _ _ _ hr2 he2 hbs2 h' =>
          rw [e] at e2
          obtain ⟨rfl, e3⟩ := List.cons.inj e2
          obtain ⟨rfl, rfl⟩ := span_unique (p := fun x => kindOf x = .text ∨ barFirst x) e3 hr hr2 (stops_row he) (stops_row he2)
          rw [e, sizeL_cons, sizeL_append] at hs
          rw [hbs, hbs2, ih _ _ _ (by omega) h h']
      | quote qs zs rest inner cs e hl hq hz hc he he' hi hbs h =>
        cases reads_first h2 with
        | blank hl' h' => rw [hl] at hl'; cases hl'
        | heading k t cs e hk hk' ht hbs h' => rw [e, kindOf_heading hk hk' ht] at hl; cases hl
        | rule cs hl' hbs h' => rw [hl] at hl'; cases hl'
        | code _ _ _ _ _ e _ hi _ _ _ _ => rw [e, kindOf_fence hi] at hl; cases hl
        | para _ _ _ _ hl' _ _ _ _ => rw [hl] at hl'; cases hl'
        | quote qs2 zs2 rest2 inner2 cs2 e2 hl' hq2 hz2 hc2 he2 he2' hi2 hbs2 h' =>
          rw [e, List.append_assoc, List.append_assoc] at e2
          have hend : ∀ zs r : List Str, (∀ x ∈ zs, kindOf x = .text) → (∀ x ∈ r.head?, kindOf x ≠ .quote) →
              ∀ x ∈ (zs ++ r).head?, ¬ kindOf x = .quote := by
            intro zs r hz hr x hx hk
            cases zs with
            | nil => exact hr x hx hk
            | cons z zs =>
              simp only [List.cons_append, List.head?_cons, Option.mem_def, Option.some.injEq] at hx
              rw [← hx, hz z (by simp)] at hk
              cases hk
          obtain ⟨rfl, e3⟩ := span_unique (p := fun x => kindOf x = .quote) e2 hq hq2 (hend _ _ hz he') (hend _ _ hz2 he2')
          obtain ⟨rfl, rfl⟩ := span_unique (p := fun x => kindOf x = .text) e3 hz hz2 (fun x hx => (he x hx).1) (fun x hx => (he2 x hx).1)
          rw [e, sizeL_append, sizeL_append] at hs
          have h3 : sizeL ((l :: qs).map unquoted ++ zs) ≤ n := by
            rw [sizeL_append, List.map_cons, sizeL_cons]
            have := sizeL_unquoted qs
            have := unquoted_lt hl
            omega
          rw [hbs, hbs2, ih _ _ _ (by omega) h h', ih _ _ _ h3 hi hi2]
        | item _ _ _ _ _ _ _ _ hl' _ _ _ _ _ _ _ _ _ => rw [hl] at hl'; cases hl'
        | table _ _ _ _ _ hl' _ _ _ _ _ _ _ _ _ => rw [hl] at hl'; cases hl'
      | item first w num inner rest item cs e hk hm hn hz hf he ho hi hbs h =>
        cases reads_first h2 with
        | blank hl' h' => rw [hk] at hl'; cases hl'
        | heading k t cs e hk1 hk' ht hbs h' => rw [e, kindOf_heading hk1 hk' ht] at hk; cases hk
        | rule cs hl' hbs h' => rw [hk] at hl'; cases hl'
        | code _ _ _ _ _ e _ hi _ _ _ _ => rw [e, kindOf_fence hi] at hk; cases hk
        | para _ _ _ _ hl' _ _ _ _ => rw [hk] at hl'; cases hl'
        | quote _ _ _ _ _ _ hl' _ _ _ _ _ _ _ _ => rw [hk] at hl'; cases hl'
        | table _ _ _ _ _ hl' _ _ _ _ _ _ _ _ _ => rw [hk] at hl'; cases hl'
        | item first2 w2 num2 inner2 rest2 item2 cs2 e2 hk2 hm2 hn2 hz2 hf2 he2 ho2 hi2 hbs2 h' =>
          rw [hm] at hm2
          cases hm2
          rw [e] at e2
          have hend : ∀ r : List Str, outdented w r → stops r →
              ∀ x ∈ r.head?, ¬ (blankLine x = false ∧ (w ≤ (x.takeWhile (· == ' ')).length ∨ kindOf x = .text)) := by
            intro r hr hst x hx ⟨hb, hw⟩
            rcases hw with hw | hw
            · cases r with
              | nil => cases hx
              | cons y r =>
                simp only [List.head?_cons, Option.mem_def, Option.some.injEq] at hx
                subst hx
                have := hr y (by simp [hb])
                omega
            · exact (hst x hx).1 hw
          obtain ⟨rfl, rfl⟩ := span_unique e2 (fun x hx => ⟨hn x hx, lazies_mem hz x hx⟩) (fun x hx => ⟨hn2 x hx, lazies_mem hz2 x hx⟩)
            (hend _ ho he) (hend _ ho2 he2)
          rw [e, sizeL_append] at hs
          have h3 : sizeL (first :: inner.map (unindent w)) ≤ n := by
            rw [sizeL_cons]
            have := (marker_lt hm).1
            have := sizeL_unindent w inner
            omega
          rw [hbs, hbs2, ih _ _ _ (by omega) h h', ih _ _ _ h3 hi hi2]

theorem reads_unique {ls : List Str} {a b : List Block} (h1 : Reads ls a) (h2 : Reads ls b) : a = b :=
  reads_unique_aux _ ls a b (Nat.le_refl _) h1 h2

end Verif
