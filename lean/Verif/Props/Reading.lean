import Verif.Spec.Shows
import Verif.Lemmas.ReadItems
import Verif.Props.Chunks
import Verif.Props.Quote
import Verif.Props.Containers
import Verif.Props.Nesting
import Verif.Lemmas.Reader
/-!
# C83: a Markdown reader finds the blocks of the document
-/

namespace Verif.Props
open Verif Spec

/-- C83: a text has at most one reading. -/
theorem C83_unique (ls : List Str) (a b : List Block) (h1 : Reads ls a) (h2 : Reads ls b) : a = b := reads_unique h1 h2

/-! ## Blocks in a row -/

theorem md_unique {env : Env} {n : Node} {s t : Str} (h1 : Md env n s) (h2 : Md env n t) : s = t := by
  unfold Md at h1 h2
  rw [h1] at h2
  simpa using h2

theorem good_zip {env : Env} {kids : List Node} {ss : List Str} {bss : List (List Block)} (hm : MdAll env kids ss)
    (hlen : kids.length = bss.length)
    (hk : ∀ p ∈ kids.zip bss, ∃ s, Md env p.1 s ∧ Good (Str.splitNL (padded p.1 s)) p.2) :
    List.Forall₂ Good ((List.zipWith padded kids ss).map Str.splitNL) bss := by
  induction hm generalizing bss with
  | nil =>
    cases bss with
    | nil => exact .nil
    | cons => cases hlen
  | @cons k s kids ss h1 h2 ih =>
    cases bss with
    | nil => cases hlen
    | cons bs bss =>
      obtain ⟨t, ht, hg⟩ := hk (k, bs) (by simp)
      obtain rfl := md_unique h1 ht
      exact .cons hg (ih (by simpa using hlen) fun p hp => hk p (by simp [hp]))

theorem chain_split {l : List Str} (h : l.IsChain fun s t => ¬ Touch s t) :
    (l.map Str.splitNL).IsChain fun a b => lastBlank a = true ∨ headBlank b = true := by
  rw [List.isChain_map]
  refine h.imp fun a b hab => ?_
  rw [touch_iff] at hab
  cases h1 : lastBlank (Str.splitNL a) <;> cases h2 : headBlank (Str.splitNL b) <;> simp_all

theorem good_kids {env : Env} {kids : List Node} {ss : List Str} {bss : List (List Block)} (hm : MdAll env kids ss)
    (hlen : kids.length = bss.length) (ha : Apart kids ss bss)
    (hk : ∀ p ∈ kids.zip bss, ∃ s, Md env p.1 s ∧ Good (Str.splitNL (padded p.1 s)) p.2) (m : Nat) :
    Good (Str.splitNL (cleaned m (blocks kids ss))) bss.flatten := by
  refine Good.squeeze ?_ (squeeze_cleaned m _)
  unfold blocks lines
  rw [lines_eq]
  by_cases hne : List.zipWith padded kids ss = []
  · have : bss = [] := by
      have h1 := (good_zip hm hlen hk).length_eq
      rw [hne] at h1
      exact List.length_eq_zero_iff.mp h1.symm
    rw [hne, this]
    exact Good.blank (by intro l hl; rw [show Str.splitNL (Str.join ['\n'] []) = [[]] from rfl] at hl; rw [List.mem_singleton.mp hl]; rfl)
  · rw [splitNL_join_flatMap hne, List.flatMap_def]
    refine good_blocks (good_zip hm hlen hk) ?_ (chain_split ha.1)
    intro L hL
    obtain ⟨s, _, rfl⟩ := List.mem_map.mp hL
    exact splitNL_ne_nil s

/-! ## Quotes -/

/-- The lines of a text without odd line breaks, as `splitlines` finds them, are those between the newlines. -/
theorem quoted_lines {ls : List Str} (h : IsLines ls) (hb : ∀ l ∈ Str.splitNL ls.flatten, l.any lineBreak = false) (hne : ls ≠ []) :
    ∃ L, (Str.splitNL ls.flatten = L ∨ Str.splitNL ls.flatten = L ++ [[]]) ∧ L ≠ [] ∧
      (Str.splitNL (quoted ls ++ ['\n']) = L.map ("> ".toList ++ ·) ++ [[]] ∨
       Str.splitNL (quoted ls ++ ['\n']) = L.map ("> ".toList ++ ·) ++ [[], []]) := by
  have hq : ∀ (body : Str), '\n' ∉ body → '\n' ∉ "> ".toList ++ body := by
    intro body h0
    rw [List.mem_append]
    rintro (h1 | h1)
    · revert h1; decide
    · exact h0 h1
  have hnl : ∀ body : Str, (∀ c ∈ body, lineBreak c = false) → '\n' ∉ body := by
    intro body h0 h1
    have := h0 _ h1
    revert this
    decide
  induction h with
  | nil => exact absurd rfl hne
  | last body hbody hne' =>
    have h0 := hnl body hbody
    refine ⟨[body], .inl ?_, by simp, .inl ?_⟩
    · simp only [List.flatten_cons, List.flatten_nil, List.append_nil]
      exact splitNL_of_noNL h0
    · simp only [quoted, List.map_cons, List.map_nil, List.flatten_cons, List.flatten_nil, List.append_nil]
      rw [splitNL_append (hq _ h0)]
      rfl
  | cons body t ls hbody ht hr hls ih =>
    have h0 := hnl body hbody
    have htn : t = ['\n'] := by
      have hodd : ∀ c, lineBreak c = true → c ≠ '\n' → c ∈ t → False := by
        intro c hc hne0 hct
        have hcm : c ∈ Str.join ['\n'] (Str.splitNL ((body ++ t) :: ls).flatten) := by
          rw [join_splitNL]
          simp [hct]
        have hmem : ∀ (L : List Str), c ∈ Str.join ['\n'] L → ∃ l ∈ L, c ∈ l := by
          intro L
          induction L with
          | nil => intro h; cases h
          | cons l L ihL =>
            intro h
            cases L with
            | nil => exact ⟨l, by simp, h⟩
            | cons l' L =>
              rw [join_cons_cons, List.mem_append, List.mem_append] at h
              rcases h with (h | h) | h
              · exact ⟨l, by simp, h⟩
              · exact absurd (List.mem_singleton.mp h) hne0
              · obtain ⟨x, hx, hcx⟩ := ihL h
                exact ⟨x, by simp [hx], hcx⟩
        obtain ⟨l, hl, hcl⟩ := hmem _ hcm
        have := hb l hl
        rw [List.any_eq_false] at this
        exact this c hcl hc
      rcases ht with rfl | ⟨c, hc, rfl⟩
      · exact absurd (hodd '\r' (by decide) (by decide) (by simp)) id
      · by_cases hcn : c = '\n'
        · rw [hcn]
        · exact absurd (hodd c hc hcn (by simp)) id
    subst htn
    have e1 : Str.splitNL ((body ++ ['\n']) :: ls).flatten = body :: Str.splitNL ls.flatten := by
      rw [List.flatten_cons, List.append_assoc, List.singleton_append, splitNL_append h0]
    have e2 : Str.splitNL (quoted ((body ++ ['\n']) :: ls) ++ ['\n']) =
        ("> ".toList ++ body) :: Str.splitNL (quoted ls ++ ['\n']) := by
      rw [show quoted ((body ++ ['\n']) :: ls) ++ ['\n'] = ("> ".toList ++ body) ++ '\n' :: (quoted ls ++ ['\n']) by
        simp [quoted], splitNL_append (hq _ h0)]
    rw [e1, e2]
    by_cases hl : ls = []
    · subst hl
      exact ⟨[body], .inr rfl, by simp, .inr rfl⟩
    · obtain ⟨L, h1, h2, h3⟩ := ih (fun l hl' => hb l (by rw [e1]; simp [hl'])) hl
      refine ⟨body :: L, ?_, by simp, ?_⟩
      · rcases h1 with h1 | h1
        · exact .inl (by rw [h1])
        · exact .inr (by rw [h1]; rfl)
      · rcases h3 with h3 | h3
        · exact .inl (by rw [h3]; rfl)
        · exact .inr (by rw [h3]; rfl)

theorem good_quoted {ls : List Str} {bs : List Block} (h : IsLines ls) (hne : bs ≠ [])
    (hg : Good (Str.splitNL ls.flatten) bs) (hc : bs.IsChain fun a b => sameList a b = false) :
    Good (Str.splitNL (quoted ls ++ ['\n'])) [.quote bs] := by
  have hr := hg.all hc
  have hls : ls ≠ [] := by
    rintro rfl
    rw [show Str.splitNL ([] : List Str).flatten = [[]] from rfl] at hr
    exact hne (reads_unique hr (.blank (by rfl) .nil))
  obtain ⟨L, h1, h2, h3⟩ := quoted_lines h (reads_noBreak hr) hls
  have hL : Reads L bs := by
    rcases h1 with h1 | h1
    · rwa [h1] at hr
    · exact reads_dropLast hr L h1
  rcases h3 with h3 | h3
  · rw [h3]
    exact (good_quote h2 hL).pad (a := []) (by simpa using h2) (by simp) (by intro l hl; rw [List.mem_singleton.mp hl]; rfl)
  · rw [h3]
    exact (good_quote h2 hL).pad (a := []) (by simpa using h2) (by simp) (by
      intro l hl
      simp only [List.mem_cons, List.not_mem_nil, or_false, or_self] at hl
      rw [hl]; rfl)

/-! ## All blocks -/

theorem padded_other {n : Node} (h : n.cls ∉ [NodeCls.bulletList, .orderedList, .codeBlock]) (s : Str) : padded n s = s := by
  unfold padded
  split <;> simp_all

theorem splitNL_padded_lists {n : Node} (h : n.cls ∈ [NodeCls.bulletList, .orderedList, .codeBlock]) (s : Str) :
    Str.splitNL (padded n s) = [[]] ++ Str.splitNL s ++ [[]] := by
  have : padded n s = '\n' :: (s ++ '\n' :: []) := by
    unfold padded
    split <;> simp_all
  rw [this, splitNL_nl, splitNL_append_gen]
  rfl

theorem empty_blank : ∀ l ∈ [([] : Str)], blankLine l = true := by simp [blankLine]

theorem filter_one {ls : List Str} {l : Str} (h : ls.filter (fun x => !blankLine x) = [l]) :
    ∃ a b, ls = a ++ [l] ++ b ∧ (∀ x ∈ a, blankLine x = true) ∧ (∀ x ∈ b, blankLine x = true) := by
  induction ls with
  | nil => cases h
  | cons x ls ih =>
    cases hb : blankLine x with
    | true =>
      rw [List.filter_cons_of_neg (by simp [hb])] at h
      obtain ⟨a, b, rfl, h1, h2⟩ := ih h
      exact ⟨x :: a, b, rfl, by simpa [hb] using h1, h2⟩
    | false =>
      rw [List.filter_cons_of_pos (by simp [hb])] at h
      obtain ⟨rfl, h'⟩ := List.cons.inj h
      refine ⟨[], ls, rfl, by simp, ?_⟩
      intro y hy
      have := List.filter_eq_nil_iff.mp h' y hy
      simpa using this

theorem good_decisions {ls : List Str} (ht : ∀ l ∈ ls, kindOf l = .text) :
    Good (Str.splitNL ("\n\n".toList.intercalate (ls.map ("> ".toList ++ ·)))) (ls.map fun l => .quote [.para [l]]) := by
  have hone : ∀ l, kindOf l = .text → Good ["> ".toList ++ l] [.quote [.para [l]]] := by
    intro l hl
    have h := (good_para (ps := [l]) (by simp) (by simpa using hl)).all (by simp)
    exact good_quote (by simp) h
  induction ls with
  | nil => exact Good.blank empty_blank
  | cons l ls ih =>
    have hl := ht l (by simp)
    have hno : '\n' ∉ "> ".toList ++ l := by
      rw [List.mem_append]
      rintro (h | h)
      · revert h; decide
      · exact kind_noNL hl (by decide) h
    cases ls with
    | nil =>
      rw [show "\n\n".toList.intercalate ([l].map ("> ".toList ++ ·)) = "> ".toList ++ l by simp [List.intercalate],
        splitNL_of_noNL hno]
      exact hone l hl
    | cons m ls =>
      have ih := ih (fun x hx => ht x (by simp [hx]))
      have e : "\n\n".toList.intercalate ((l :: m :: ls).map ("> ".toList ++ ·)) =
          ("> ".toList ++ l) ++ '\n' :: '\n' :: "\n\n".toList.intercalate ((m :: ls).map ("> ".toList ++ ·)) := by
        simp [List.intercalate]
      rw [e, splitNL_append hno, splitNL_nl]
      have h1 := (hone l hl).pad (a := []) (b := [[]]) (by simp) (by simp) empty_blank
      have h2 := h1.append ih (splitNL_ne_nil _) (.inl rfl)
      exact h2

theorem level_zero (env : Env) (n : Node) : n.toMarkdownAt env none false = n.toMarkdown env false := rfl

/-! ## Tables -/

theorem matched {α β : Type} {R : α → β → Prop} {l : List α} {m : List β} (h : List.Forall₂ R l m) :
    ∀ a ∈ l, ∃ b ∈ m, R a b := by
  induction h with
  | nil => intro a ha; cases ha
  | @cons a b l m h _ ih =>
    intro x hx
    rcases List.mem_cons.mp hx with rfl | hx
    · exact ⟨b, by simp, h⟩
    · obtain ⟨y, hy, h'⟩ := ih x hx
      exact ⟨y, by simp [hy], h'⟩

/-- The line of a row. -/
theorem cells_row {env : Env} {r : Node} {cs : List Str} (h : Cells env r cs) (hne : cs ≠ []) :
    Md env r (rowLine cs) ∧ barFirst (rowLine cs) ∧ '\n' ∉ rowLine cs ∧ cellsOf (rowLine cs) = cs.map stripped := by
  obtain ⟨cells, h1, h2, h3, h4, h5⟩ := h
  have hm : Md env r (rowLine cs) := (C31_row env r cells false h1 h2 h3 _).mpr ⟨cs, h4, rfl⟩
  have hcne : cells ≠ [] := by
    rintro rfl
    cases h4
    exact hne rfl
  obtain ⟨s, cs', e, k1, k2, _, k3⟩ := C31_one_line env r cells false h1 h2 h3 _ hm
  cases e
  have hcs : cs' = cs := by
    clear * - k1 h4
    induction h4 generalizing cs' with
    | nil => cases k1; rfl
    | @cons k c ks cs h _ ih =>
      cases k1 with
      | @cons _ c' _ cs'' k1 k2 => rw [ih _ k2, md_unique h k1]
  refine ⟨hm, barFirst_row h5, k2, ?_⟩
  rw [hcs] at k3
  exact cellsOf_row (k3 hcne)

theorem cells_ne {env : Env} {r : Node} {cs : List Str} {first : Node} {rest : List Node} (h : Cells env r cs)
    (hc : r.content = .val (first :: rest)) : cs ≠ [] ∧ cs.length = rest.length + 1 := by
  obtain ⟨cells, _, h2, _, h4, _⟩ := h
  rw [h2] at hc
  cases hc
  have := h4.length_eq
  rw [List.length_cons] at this
  exact ⟨by rintro rfl; simp at this, this.symm⟩

theorem content_cons {env : Env} {r : Node} {cs : List Str} (h : Cells env r cs) (hne : cs ≠ []) :
    ∃ first rest, r.content = .val (first :: rest) := by
  obtain ⟨cells, _, h2, _, h4, _⟩ := h
  cases h4 with
  | nil => exact absurd rfl hne
  | cons => exact ⟨_, _, h2⟩

theorem plain_rows {env : Env} {rows : List Node} {css : List (List Str)} (hr : ∀ r ∈ rows, isHeaderRow r = false)
    (hcs : List.Forall₂ (Cells env) rows css) (hw : ∀ cs ∈ css, cs ≠ []) :
    ∃ lss, List.Forall₂ (RowLines env) rows lss ∧ lss.flatten = css.map rowLine := by
  induction hcs with
  | nil => exact ⟨[], .nil, rfl⟩
  | @cons r cs rows css h _ ih =>
    obtain ⟨lss, h1, h2⟩ := ih (fun x hx => hr x (by simp [hx])) (fun x hx => hw x (by simp [hx]))
    obtain ⟨first, rest, hc⟩ := content_cons h (hw cs (by simp))
    have hf := hr r (by simp)
    unfold isHeaderRow at hf
    rw [hc] at hf
    have hf : first.cls ≠ .tableHeader := by simpa using hf
    refine ⟨[rowLine cs] :: lss, .cons ⟨_, first, rest, (cells_row h (hw cs (by simp))).1, hc, fun e => absurd e hf, fun _ => rfl⟩ h1, ?_⟩
    simp [h2]

theorem table_lines {env : Env} {head : Node} {rows : List Node} {hs : List Str} {css : List (List Str)}
    (hh : isHeaderRow head = true) (hr : ∀ r ∈ rows, isHeaderRow r = false)
    (hhs : Cells env head hs) (hcs : List.Forall₂ (Cells env) rows css) (hw : ∀ cs ∈ css, cs ≠ []) :
    ∃ lss, List.Forall₂ (RowLines env) (head :: rows) lss ∧
      lss.flatten = rowLine hs :: rowLine (List.replicate hs.length "---".toList) :: css.map rowLine := by
  obtain ⟨lss, h1, h2⟩ := plain_rows hr hcs hw
  unfold isHeaderRow at hh
  split at hh
  next first rest hc =>
    obtain ⟨hne, hlen⟩ := cells_ne hhs hc
    refine ⟨[rowLine hs, rowLine (List.replicate (rest.length + 1) "---".toList)] :: lss,
      .cons ⟨_, first, rest, (cells_row hhs hne).1, hc, fun _ => rfl, fun e => absurd (by simpa using hh) e⟩ h1, ?_⟩
    rw [List.flatten_cons, h2, hlen]
    rfl
  · cases hh

theorem table_good {env : Env} {head : Node} {rows : List Node} {hs : List Str} {css : List (List Str)}
    (hhs : Cells env head hs) (hne : hs ≠ []) (hcs : List.Forall₂ (Cells env) rows css)
    (hw : ∀ cs ∈ css, cs ≠ [] ∧ cs.length ≤ hs.length) (ht : kindOf (rowLine hs) = .text) :
    Good (rowLine hs :: rowLine (List.replicate hs.length "---".toList) :: css.map rowLine)
      [.table (hs.map stripped) (css.map fun cs => cs.map stripped ++ List.replicate (hs.length - cs.length) [])] := by
  obtain ⟨_, h2, _, h4⟩ := cells_row hhs hne
  obtain ⟨k, hk⟩ : ∃ k, hs.length = k + 1 := ⟨hs.length - 1, by have := List.length_pos_of_ne_nil hne; omega⟩
  have hrow : ∀ cs ∈ css, barFirst (rowLine cs) ∧ cellsOf (rowLine cs) = cs.map stripped := by
    intro cs hm
    obtain ⟨r, _, hc⟩ := matched hcs.flip cs hm
    obtain ⟨_, k2, _, k4⟩ := cells_row hc (hw cs hm).1
    exact ⟨k2, k4⟩
  have := good_table ht h2 (rule_kind hs.length) (rule_barFirst hs.length) (by
      rw [hk, rule_cells]
      intro c hc
      rw [(List.mem_replicate.mp hc).2]
      decide) (by rw [h4, hk, rule_cells, List.length_replicate, List.length_map, hk]) (rows := css.map rowLine) (by
      intro r hr
      obtain ⟨cs, hm, rfl⟩ := List.mem_map.mp hr
      exact (hrow cs hm).1)
  rw [h4, List.map_map] at this
  have e : css.map ((fun r => fit (hs.map stripped).length (cellsOf r)) ∘ rowLine) =
      css.map fun cs => cs.map stripped ++ List.replicate (hs.length - cs.length) [] := by
    refine List.map_congr_left fun cs hm => ?_
    have hl := (hw cs hm).2
    rw [Function.comp, (hrow cs hm).2, List.length_map]
    unfold fit
    rw [List.take_append, List.take_of_length_le (by simpa using hl), List.take_replicate, List.length_map,
      Nat.min_eq_left (by omega)]
  rw [e] at this
  exact this

theorem row_noNL {env : Env} {rows : List Node} {css : List (List Str)} (hcs : List.Forall₂ (Cells env) rows css)
    (hw : ∀ cs ∈ css, cs ≠ []) : ∀ l ∈ css.map rowLine, '\n' ∉ l := by
  intro l hl
  obtain ⟨cs, hm, rfl⟩ := List.mem_map.mp hl
  obtain ⟨r, _, hc⟩ := matched hcs.flip cs hm
  exact (cells_row hc (hw cs hm)).2.2.1

/-- Every block that shows something is read as this, also before other blocks. -/
theorem shows_good {env : Env} {n : Node} {bs : List Block} (h : Shows env n bs) (hp : Parsed n) :
    ∃ s, Md env n s ∧ Good (Str.splitNL (padded n s)) bs := by
  induction h with
  | @para n kids ss t hn hc hm hs ht =>
    refine ⟨_, (C62_paragraph env n kids hn hc (C62_parsed_marks n hp) _).mpr ⟨ss, t, hm, hs, rfl⟩, ?_⟩
    rw [padded_other (by rw [hn]; decide), splitOn_nl] at *
    rw [show t ++ "\n".toList = t ++ '\n' :: [] from rfl, splitNL_append_gen]
    exact (good_para (splitNL_ne_nil t) ht).pad (a := []) (splitNL_ne_nil t) (by simp) empty_blank
  | @blank n s hn hs hb =>
    refine ⟨s, hs, ?_⟩
    rw [padded_other (by rcases hn with hn | hn <;> rw [hn] <;> decide)]
    rw [splitOn_nl] at hb
    exact Good.blank hb
  | @line n s l hn hs hl ht =>
    refine ⟨s, hs, ?_⟩
    rw [padded_other (by
      intro h
      simp only [List.mem_cons, List.not_mem_nil, or_false] at hn h
      rcases hn with hn | hn | hn | hn <;> rw [hn] at h <;> simp at h)]
    rw [splitOn_nl] at hl
    obtain ⟨a, b, e, h1, h2⟩ := filter_one hl
    rw [e]
    exact (good_para (ps := [l]) (by simp) (by simpa using ht)).pad (by simp) h1 h2
  | @heading n kids ss k hn hl hk hc hm ht =>
    refine ⟨_, (C36_heading env n kids k hn hl hc _).mpr ⟨ss, hm, rfl⟩, ?_⟩
    rw [padded_other (by rw [hn]; decide), Int.toNat_natCast]
    have hno : '\n' ∉ List.replicate k '#' ++ ' ' :: ss.flatten := by
      have := ht.2.1
      rw [List.any_eq_false] at this
      simp only [List.mem_append, List.mem_replicate, List.mem_cons]
      rintro (⟨_, h⟩ | h | h)
      · cases h
      · cases h
      · exact this _ h (by decide)
    have e : Str.splitNL ("\n\n".toList ++ List.replicate k '#' ++ " ".toList ++ ss.flatten ++ "\n\n".toList) =
        [[], []] ++ [List.replicate k '#' ++ ' ' :: ss.flatten] ++ [[], []] := by
      rw [show "\n\n".toList ++ List.replicate k '#' ++ " ".toList ++ ss.flatten ++ "\n\n".toList =
        '\n' :: '\n' :: ((List.replicate k '#' ++ ' ' :: ss.flatten) ++ '\n' :: '\n' :: []) by simp,
        splitNL_nl, splitNL_nl, splitNL_append hno]
      rfl
    rw [e]
    exact (good_heading hk.1 hk.2 ht).pad (by simp) (by simp [blankLine]) (by simp [blankLine])
  | @rule n hn =>
    refine ⟨_, (C39_fixed env n false).2 hn, ?_⟩
    rw [padded_other (by rw [hn]; decide)]
    exact good_rule.pad (a := [[], []]) (b := [[], []]) (by simp) (by simp [blankLine]) (by simp [blankLine])
  | @code n kids ss hn hc hm hi hl ht =>
    refine ⟨_, (C35_verbatim env n kids hn (C35_attrs n hp hn) hc _).mpr ⟨ss, hm, rfl⟩, ?_⟩
    rw [splitNL_padded_lists (by rw [hn]; decide)]
    have hno : '\n' ∉ "```".toList ++ language n := by
      have := hi.2.1
      rw [List.any_eq_false] at this
      rw [List.mem_append]
      rintro (h | h)
      · revert h; decide
      · exact this _ h (by decide)
    have e : Str.splitNL ("```".toList ++ language n ++ "\n".toList ++ ss.flatten ++ "\n```".toList) =
        ("```".toList ++ language n) :: (Str.splitNL ss.flatten ++ ["```".toList]) := by
      rw [show "```".toList ++ language n ++ "\n".toList ++ ss.flatten ++ "\n```".toList =
        ("```".toList ++ language n) ++ '\n' :: (ss.flatten ++ '\n' :: "```".toList) by simp,
        splitNL_append hno, splitNL_append_gen]
      rfl
    rw [splitOn_nl] at hl ht ⊢
    rw [e]
    exact (good_code hi hl ht).pad (by simp) empty_blank empty_blank
  | @quote n kids ss bss hn hc hm hlen hk ha hne ih =>
    have hpk := parsed_kids hp hc
    obtain ⟨ls, h1, h2⟩ := C33_lines_exist (cleaned 6 (blocks kids ss))
    refine ⟨_, (C33_prefixed env n kids hn hc (fun k hk => parsed_hasType (hpk k hk)) _).mpr ⟨ss, ls, hm, h1, h2, rfl⟩, ?_⟩
    rw [padded_other (by rw [hn]; decide)]
    refine good_quoted h1 hne ?_ ha.2
    rw [h2]
    exact good_kids hm hlen ha (fun p hp' => ih p hp' (hpk p.1 (List.of_mem_zip hp').1)) 6
  | @panel n kids ss bss ty hn hty hl hc hm hlen hk ha ih =>
    have hpk := parsed_kids hp hc
    obtain ⟨ls, h1, h2⟩ := C33_lines_exist (cleaned 3 ("**".toList ++ upper env ty ++ "**\n\n".toList ++ docText kids ss))
    refine ⟨_, (C34_prefixed env n kids ty hn hty hc (fun k hk => parsed_hasType (hpk k hk)) _).mpr
      ⟨ss, ls, hm, h1, h2, rfl⟩, ?_⟩
    rw [padded_other (by rw [hn]; decide)]
    refine good_quoted h1 (by simp) ?_ ?_
    · rw [h2]
      refine Good.squeeze ?_ (squeeze_cleaned 3 _)
      rw [show "**".toList ++ upper env ty ++ "**\n\n".toList ++ docText kids ss =
        ("**".toList ++ upper env ty ++ "**".toList) ++ '\n' :: '\n' :: docText kids ss by simp,
        splitNL_append (kind_noNL hl (by decide)), splitNL_nl]
      have h3 := (good_para (ps := ["**".toList ++ upper env ty ++ "**".toList]) (by simp) (by simpa using hl)).pad (a := [])
        (b := [[]]) (by simp) (by simp) empty_blank
      exact h3.append (good_kids hm hlen ha (fun p hp' => ih p hp' (hpk p.1 (List.of_mem_zip hp').1)) 3)
        (splitNL_ne_nil _) (.inl rfl)
    · cases hb : bss.flatten with
      | nil => simp
      | cons b bs =>
        rw [List.isChain_cons_cons, ← hb]
        exact ⟨by cases b <;> rfl, ha.2⟩
  | @blocks n kids ss bss hn hc hm hlen hk ha ih =>
    have hpk := parsed_kids hp hc
    have hkt : ∀ k ∈ kids, HasType k := fun k hk => parsed_hasType (hpk k hk)
    have hg := good_kids hm hlen ha (fun p hp' => ih p hp' (hpk p.1 (List.of_mem_zip hp').1)) 3
    refine ⟨docText kids ss, ?_, ?_⟩
    · simp only [List.mem_cons, List.not_mem_nil, or_false] at hn
      rcases hn with hn | hn | hn
      · exact (C42_blocks_in_order env n kids hn hc hkt _).mpr ⟨ss, hm, rfl⟩
      · refine (C62_expand env n kids hn hc hkt (C62_parsed_marks n hp) _).mpr ⟨ss, hm, ?_⟩
        unfold Styled
        rw [parsed_expand_marks hp hn]
      · exact (C62_nested_expand env n kids hn hc hkt _).mpr ⟨ss, hm, rfl⟩
    · rw [padded_other (by
        intro h
        simp only [List.mem_cons, List.not_mem_nil, or_false] at hn h
        rcases hn with hn | hn | hn <;> rw [hn] at h <;> simp at h)]
      exact hg
  | @decisions n kids ls hn hc hm ht =>
    have hpk := parsed_kids hp hc
    refine ⟨_, (C30_decisions env n kids hn hc (fun k hk => parsed_hasType (hpk k hk)) _).mpr ⟨_, hm, rfl⟩, ?_⟩
    rw [padded_other (by rw [hn]; decide)]
    exact good_decisions ht
  | @bullets n kids items hn hc hne h =>
    have hpk := parsed_kids hp hc
    obtain ⟨T, h1, h2⟩ := items_lay h rfl (fun k hk => hpk k (List.mem_filter.mp hk).1)
    obtain ⟨ts, h3, h4⟩ := h2 0
    have hmd := list_at (num := none) hn (fun k h => by cases h) hc hp h h3 none rfl
    refine ⟨_, hmd, ?_⟩
    have hits : items ≠ [] := by
      rintro rfl
      exact hne (List.length_eq_zero_iff.mp (items_length h))
    have htne : ts ≠ [] := by
      rintro rfl
      cases hh : itemsOf kids with
      | nil => exact hne hh
      | cons => rw [hh] at h3; cases h3
    rw [splitNL_padded_lists (by rw [hn]; decide)]
    unfold lines
    rw [lines_eq, splitNL_join_flatMap (entries_ne htne), h4]
    exact (good_list h1 hits).pad (fun e => hits ((lay_nil h1).mp (List.map_eq_nil_iff.mp e))) empty_blank empty_blank
  | @numbers n kids items start hn hs hc hne h =>
    have hpk := parsed_kids hp hc
    obtain ⟨T, h1, h2⟩ := items_lay h rfl (fun k hk => hpk k (List.mem_filter.mp hk).1)
    obtain ⟨ts, h3, h4⟩ := h2 0
    have hmd := list_at (num := some start) (lvl := 0) hn (fun k h => by cases h; exact hs) hc hp h h3 none rfl
    refine ⟨_, hmd, ?_⟩
    have hits : items ≠ [] := by
      rintro rfl
      exact hne (List.length_eq_zero_iff.mp (items_length h))
    have htne : ts ≠ [] := by
      rintro rfl
      cases hh : itemsOf kids with
      | nil => exact hne hh
      | cons => rw [hh] at h3; cases h3
    rw [splitNL_padded_lists (by rw [hn]; decide)]
    unfold lines
    rw [lines_eq, splitNL_join_flatMap (entries_ne htne), h4]
    exact (good_list h1 hits).pad (fun e => hits ((lay_nil h1).mp (List.map_eq_nil_iff.mp e))) empty_blank empty_blank
  | @tasks n kids items hn hc hne h =>
    have hpk := parsed_kids hp hc
    obtain ⟨T, h1, h2⟩ := tasks_lay h (fun k hk => hpk k (List.mem_filter.mp hk).1)
    obtain ⟨es, h3, h4⟩ := h2 0
    have hmd := tasks_at (lvl := 0) hn hc hp h h3 none rfl
    refine ⟨_, hmd, ?_⟩
    have hits : items ≠ [] := fun e => hne ((tasks_nil h).mpr e)
    have htne : es ≠ [] := by
      rintro rfl
      cases hh : tasksOf kids with
      | nil => exact hne hh
      | cons => rw [hh] at h3; cases h3
    rw [padded_other (by rw [hn]; decide)]
    unfold lines
    rw [lines_eq, splitNL_join_flatMap htne, h4]
    exact good_list h1 hits
  | @table n head rows hs css hn hc hh hr hhs hcs hw ht =>
    have hpk := parsed_kids hp hc
    obtain ⟨lss, h1, h2⟩ := table_lines hh hr hhs hcs fun cs hm => (hw cs hm).1
    have hne : hs ≠ [] := by
      rintro rfl
      revert ht
      decide +kernel
    refine ⟨_, (C32_table env n (head :: rows) hn hc ?_ _).mpr ⟨lss, h1, rfl⟩, ?_⟩
    · intro r hr'
      have hcls : r.cls = .tableRow ∧ ∃ cells, r.content = .val cells := by
        rcases List.mem_cons.mp hr' with rfl | hr'
        · obtain ⟨cells, k1, k2, _⟩ := hhs
          exact ⟨k1, cells, k2⟩
        · obtain ⟨cs, _, hcs'⟩ := matched hcs r hr'
          obtain ⟨cells, k1, k2, _⟩ := hcs'
          exact ⟨k1, cells, k2⟩
      obtain ⟨k1, cells, k2⟩ := hcls
      exact ⟨by rw [k1]; decide, fun v h => (by rw [k2] at h; cases h),
        fun ks' h x hx => parsed_hasType (parsed_kids (hpk r hr') h x hx)⟩
    · rw [padded_other (by rw [hn]; decide)]
      unfold lines
      rw [h2, lines_eq, splitNL_join_flatMap (by simp)]
      have e : ∀ L : List Str, (∀ l ∈ L, '\n' ∉ l) → L.flatMap Str.splitNL = L := by
        intro L hL
        induction L with
        | nil => rfl
        | cons l L ih => rw [List.flatMap_cons, splitNL_of_noNL (hL l (by simp)), ih fun x hx => hL x (by simp [hx])]; rfl
      rw [e]
      · exact table_good hhs hne hcs hw ht
      · have hno : ∀ k, '\n' ∉ rowLine (List.replicate k "---".toList) := by
          intro k hm
          have := (rule_barFirst k).2
          rw [List.any_eq_false] at this
          exact this _ hm (by decide)
        intro l hl
        rcases List.mem_cons.mp hl with rfl | hl
        · exact (cells_row hhs hne).2.2.1
        · rcases List.mem_cons.mp hl with rfl | hl
          · exact hno _
          · exact row_noNL hcs (fun cs hm => (hw cs hm).1) l hl

/-- C83 (what is missing: see `C83_false`): the Markdown of a parsed document that shows the blocks `bs` is read as `bs`, and
as nothing else. -/
theorem C83_partial (env : Env) (n : Node) (bs : List Block) (hp : Parsed n) (hn : n.cls = .doc) (h : Shows env n bs) :
    ∃ s, Md env n s ∧ Reads (s.splitOn '\n') bs ∧ ∀ cs, Reads (s.splitOn '\n') cs → cs = bs := by
  obtain ⟨s, hm, hg⟩ := shows_good h hp
  rw [padded_other (by rw [hn]; decide)] at hg
  have hc : bs.IsChain fun a b => sameList a b = false := by
    cases h with
    | blocks _ _ _ _ _ ha => exact ha.2
    | blank => simp
    | decisions hn' => rw [hn] at hn'; cases hn'
    | _ => simp
  refine ⟨s, hm, ?_, fun cs h' => ?_⟩
  · rw [splitOn_nl]; exact hg.all hc
  · rw [splitOn_nl] at h'; exact reads_unique h' (hg.all hc)

/-- C83: a line that begins with a letter is the text of a paragraph. -/
theorem C83_plain_line (c : Char) (s : Str) (hc : c.isAlpha = true) (hs : (c :: s).any lineBreak = false) :
    kindOf (c :: s) = .text := by
  have hne : ∀ d : Char, d.isAlpha = false → c ≠ d := by rintro d hd rfl; rw [hc] at hd; cases hd
  have hg : gap c = false := by
    simp [gap, hne ' ' (by decide), hne '\t' (by decide)]
  have hdig : ¬ ('0' ≤ c ∧ c ≤ '9') := by
    rintro ⟨h1, h2⟩
    have h1 : 48 ≤ c.toNat := h1
    have h2 : c.toNat ≤ 57 := h2
    simp only [Char.isAlpha, Char.isUpper, Char.isLower, Bool.or_eq_true, Bool.and_eq_true, decide_eq_true_eq] at hc
    have e : c.toNat = c.val.toNat := rfl
    rcases hc with ⟨h3, h4⟩ | ⟨h3, h4⟩
    · have : 65 ≤ c.val.toNat := h3
      omega
    · have : 97 ≤ c.val.toNat := h3
      omega
  have hds : digitsOf (c :: s) = [] := by
    unfold digitsOf
    rw [List.takeWhile_cons_of_neg (by simpa using hdig)]
  have hsp : (c :: s).takeWhile (· == ' ') = [] := by
    rw [List.takeWhile_cons_of_neg (by simpa using hne ' ' (by decide))]
  have hm : marker (c :: s) = none := by
    unfold marker
    dsimp only
    rw [hsp, List.length_nil, List.drop_zero, hds, List.length_nil, List.drop_zero, if_neg (by omega)]
    split
    next a content e =>
      cases e
      split
      · rfl
      · rw [if_neg (by rintro ⟨_, h⟩; exact hne '-' (by decide) h), if_neg (by rintro ⟨h, _⟩; simp at h)]
    · rfl
  have hd : doubtful (c :: s) = false := by
    have h1 : "~~~".toList.isPrefixOf (c :: s) = false := by
      rw [show "~~~".toList = '~' :: "~~".toList from rfl, List.isPrefixOf]
      have : ('~' == c) = false := by simpa using fun h : '~' = c => hne '~' (by decide) h.symm
      rw [this]; rfl
    have h2 : (c :: s).all (fun c => gap c || "|-:=".toList.contains c) = false := by
      rw [List.all_cons, hg]
      have : "|-:=".toList.contains c = false := by
        simp [hne '|' (by decide), hne '-' (by decide), hne ':' (by decide), hne '=' (by decide)]
      rw [this]; rfl
    have h3 : "-+*.)".toList.contains c = false := by
      simp [hne '-' (by decide), hne '+' (by decide), hne '*' (by decide), hne '.' (by decide), hne ')' (by decide)]
    unfold doubtful
    rw [hds, h1, h2]
    simp only [List.length_nil, List.drop_zero, gapFirst, hg, h3]
    simp [hne '<' (by decide), hne '[' (by decide)]
  have hh : headingStart (c :: s) = false := by
    have : (c == '#') = false := by simpa using hne '#' (by decide)
    simp [headingStart, this]
  have hf : "```".toList.isPrefixOf (c :: s) = false := by
    rw [show "```".toList = '`' :: "``".toList from rfl, List.isPrefixOf]
    have : ('`' == c) = false := by simpa using fun h : '`' = c => hne '`' (by decide) h.symm
    rw [this]; rfl
  have hq : ((c :: s).head? == some '>') = false := by simpa using hne '>' (by decide)
  unfold kindOf
  rw [blankLine_cons hg, hs, ruleChars_head hg (hne _ (by decide)) (hne _ (by decide)) (hne _ (by decide)), hh, hf, hq, hm, hd]
  rfl

end Verif.Props
