import Verif.Lemmas.SampleChecks
import Verif.Lemmas.Tables
import Verif.Lemmas.Samples
import Verif.Props.Quote
/-!
# C31, C32, C46, C47: tables
-/

namespace Verif.Props
open Verif Verif.Spec

theorem dispatch_cell (env : Env) (n : Node) (ig : Bool) (hn : isCell n) :
    n.toMarkdown env ig = strVal (cellMd (slotItems env n.content) ig) := by
  rcases hn with hn | hn
  all_goals
    rw [toMarkdown_eq]; unfold dispatch
    simp only [show n.hd.cls = _ from hn]; rfl

theorem dispatch_row (env : Env) (n : Node) (ig : Bool) (hn : n.cls = .tableRow) :
    n.toMarkdown env ig = strVal (tableRowMd (slotItems env n.content) ig) := by
  have hn' : n.hd.cls = .tableRow := hn
  rw [toMarkdown_eq]; unfold dispatch; simp only [hn']; rfl

theorem dispatch_table (env : Env) (n : Node) (ig : Bool) (hn : n.cls = .table) :
    n.toMarkdown env ig = strVal (tableMd (slotItems env n.content) ig) := by
  have hn' : n.hd.cls = .table := hn
  rw [toMarkdown_eq]; unfold dispatch; simp only [hn']; rfl

/-- C31: a cell converts iff its children do, to the lines of its content joined by `<br>`, each with
its pipes escaped and its leading spaces as `&nbsp;`. -/
theorem C31_cell (env : Env) (n : Node) (kids : List Node) (hn : isCell n) (hc : n.content = .val kids)
    (v : Val) :
    n.toMarkdown env false = .ok v ↔ ∃ ss outs, MdAll env kids ss ∧
      List.Forall₂ CellLine (ss.flatten.splitOn '\n') outs ∧
      v = .str ("<br>".toList.intercalate outs) := by
  simp only [splitOn_nl, ← join_eq]
  rw [dispatch_cell env n false hn, hc]
  unfold cellMd
  constructor
  · intro h
    obtain ⟨s, h1, rfl⟩ := strVal_str h
    cases hd : contentToMarkdown [] false (slotItems env (.val kids)) with
    | error e => rw [hd] at h1; simp at h1
    | ok t =>
      obtain ⟨ss, h2, rfl⟩ := (content_iff env [] kids t).mp hd
      rw [hd, join_nil_eq] at h1
      obtain ⟨outs, h3, h4⟩ := (cell_eq _ _).mp (Except.ok.inj h1)
      exact ⟨ss, outs, h2, h3, by rw [h4]⟩
  · rintro ⟨ss, outs, h2, h3, rfl⟩
    rw [(content_iff env [] kids _).mpr ⟨ss, h2, rfl⟩, join_nil_eq]
    simp only [(cell_eq ss.flatten _).mpr ⟨outs, h3, rfl⟩]
    rfl

/-- Whatever a cell converts to, in either mode, is harmless inside a row. -/
theorem cell_out (env : Env) (n : Node) (ig : Bool) (hn : isCell n) (v : Val)
    (h : n.toMarkdown env ig = .ok v) :
    ∃ s md, v = .str s ∧ contentToMarkdown [] ig (slotItems env n.content) = .ok md ∧
      ∃ outs, List.Forall₂ CellLine (Str.splitNL md) outs ∧ s = Str.join "<br>".toList outs := by
  rw [dispatch_cell env n ig hn] at h
  unfold cellMd at h
  obtain ⟨s, h1, rfl⟩ := strVal_str h
  cases hd : contentToMarkdown [] ig (slotItems env n.content) with
  | error e => rw [hd] at h1; simp at h1
  | ok md =>
    rw [hd] at h1
    exact ⟨s, md, rfl, rfl, (cell_eq _ _).mp (Except.ok.inj h1)⟩

/-- The cell loop: in either mode, the conversions of the cells in the same mode. -/
theorem rowCells_ok (env : Env) (ig : Bool) (cells : List Node) (vs : List Val) :
    rowCells ig (cells.map (Node.item env)) = .ok vs ↔
      List.Forall₂ (fun k v => k.toMarkdown env ig = .ok v) cells vs := by
  induction cells generalizing vs with
  | nil =>
    simp only [List.map_nil, rowCells, List.forall₂_nil_left_iff]
    exact ⟨fun h => (Except.ok.inj h).symm, fun h => by rw [h]⟩
  | cons k ks ih =>
    rw [List.map_cons, rowCells]
    have hr : (k.item env).render none ig = k.toMarkdown env ig := rfl
    rw [hr]
    constructor
    · intro h
      cases hi : k.toMarkdown env ig with
      | error e => rw [hi] at h; simp at h
      | ok t =>
        rw [hi] at h
        simp only at h
        cases hb : rowCells ig (ks.map (Node.item env)) with
        | error e => rw [hb] at h; simp at h
        | ok rest =>
          rw [hb] at h
          rw [← Except.ok.inj h]
          exact .cons hi ((ih rest).mp hb)
    · intro h
      cases h with
      | cons h1 h2 => rw [h1, (ih _).mpr h2]

theorem cells_str {env : Env} {ig : Bool} {cells : List Node} (hk : ∀ k ∈ cells, isCell k)
    {vs : List Val} (h : List.Forall₂ (fun k v => k.toMarkdown env ig = .ok v) cells vs) :
    ∃ cs : List Str, vs = cs.map .str ∧
      List.Forall₂ (fun k c => k.toMarkdown env ig = .ok (.str c)) cells cs := by
  induction h with
  | nil => exact ⟨[], rfl, .nil⟩
  | @cons k v ks vs h _ ih =>
    obtain ⟨cs, rfl, h2⟩ := ih (fun x hx => hk x (by simp [hx]))
    obtain ⟨s, _, rfl, _⟩ := cell_out env k ig (hk k (by simp)) v h
    exact ⟨s :: cs, rfl, .cons h h2⟩

/-- C31: a row of cells converts, in either mode, iff its cells do (in the same mode), to their texts
between pipes. -/
theorem C31_row (env : Env) (n : Node) (cells : List Node) (ig : Bool) (hn : n.cls = .tableRow)
    (hc : n.content = .val cells) (hk : ∀ k ∈ cells, isCell k) (v : Val) :
    n.toMarkdown env ig = .ok v ↔ ∃ cs,
      List.Forall₂ (fun k c => k.toMarkdown env ig = .ok (.str c)) cells cs ∧
      v = .str (rowLine cs) := by
  rw [dispatch_row env n ig hn, hc, slotItems_val]
  unfold tableRowMd
  simp only [iterSlot]
  constructor
  · intro h
    obtain ⟨s, h1, rfl⟩ := strVal_str h
    cases hb : rowCells ig (cells.map (Node.item env)) with
    | error e => rw [hb] at h1; simp at h1
    | ok vs =>
      obtain ⟨cs, rfl, h2⟩ := cells_str hk ((rowCells_ok env ig cells vs).mp hb)
      rw [hb] at h1
      simp only [strJoin_str] at h1
      exact ⟨cs, h2, by rw [← Except.ok.inj h1, join_eq]; rfl⟩
  · rintro ⟨cs, h, rfl⟩
    rw [(rowCells_ok env ig cells (cs.map .str)).mpr (List.forall₂_map_right_iff.mpr h)]
    simp only [strJoin_str, join_eq]
    rfl

/-- C31: whatever is in the cells, in either mode, the row has no newline, `max n 1 + 1` pipes that
are not directly preceded by a backslash, and, read by splitting at those pipes, exactly the texts of
its cells. -/
theorem C31_one_line (env : Env) (n : Node) (cells : List Node) (ig : Bool) (hn : n.cls = .tableRow)
    (hc : n.content = .val cells) (hk : ∀ k ∈ cells, isCell k) (v : Val)
    (h : n.toMarkdown env ig = .ok v) :
    ∃ s cs, v = .str s ∧ List.Forall₂ (fun k c => k.toMarkdown env ig = .ok (.str c)) cells cs ∧
      '\n' ∉ s ∧ barePipes false s = max cells.length 1 + 1 ∧
      (cells ≠ [] → splitBare false s = [[]] ++ cs.map (fun c => " ".toList ++ c ++ " ".toList) ++ [[]]) := by
  obtain ⟨cs, h1, rfl⟩ := (C31_row env n cells ig hn hc hk v).mp h
  have hspec : ∀ c ∈ cs, Safe c ∧ '\n' ∉ c := by
    clear * - h1 hk
    induction h1 with
    | nil => simp
    | @cons k c ks cs h _ ih =>
      intro x hx
      rcases List.mem_cons.mp hx with rfl | hx
      · obtain ⟨s, md, e, _, h2⟩ := cell_out env k ig (hk k (by simp)) _ h
        cases e
        obtain ⟨h3, h4, _⟩ := cell_spec h2
        exact ⟨h3, h4⟩
      · exact ih (fun y hy => hk y (by simp [hy])) x hx
  refine ⟨_, cs, rfl, h1, ?_, ?_, ?_⟩
  · unfold rowLine
    intro hm
    rw [List.mem_append, List.mem_append] at hm
    rcases hm with (hm | hm) | hm
    · exact absurd hm (by decide)
    · rcases mem_join ((join_eq _ _).symm ▸ hm) with h | ⟨c, hc, h⟩
      · exact absurd h (by decide)
      · exact (hspec c hc).2 h
    · exact absurd hm (by decide)
  · rw [barePipes_row cs fun c hc => (hspec c hc).1, h1.length_eq]
  · intro hne
    have : cs ≠ [] := by
      intro h; subst h; cases h1; exact hne rfl
    rw [splitBare_row cs this fun c hc => (hspec c hc).1]
    rfl

example : (Samples.row [Samples.cell [Samples.para [Samples.text "a|b"], Samples.para [Samples.text "  c"]],
      Samples.hcell []]).toMarkdown Samples.env false =
    .ok (Samples.str "| a\\|b<br>&nbsp;&nbsp;c<br> |  |") := rfl

example : barePipes false "| a\\|b<br>&nbsp;&nbsp;c<br> |  |".toList = 3 := by decide

/-! ## C32 -/

theorem headerWidth_eq (env : Env) (r : Node) (first : Node) (rest : List Node)
    (hc : r.content = .val (first :: rest)) (ht : HasType first) :
    headerWidth (r.item env).content =
      .ok (if first.cls = .tableHeader then some (rest.length + 1) else none) := by
  have : (r.item env).content = kidsOf (slotItems env r.content) := by
    cases r; rfl
  rw [this, hc, kidsOf_val]
  simp only [List.map_cons, headerWidth]
  rw [item_isTypeOf env ht, show [TypeEnum.tableHeader] = [NodeCls.tableHeader.typeEnum] from rfl]
  simp only [typeEnum_mem]
  by_cases h : first.cls = .tableHeader <;> simp [h]

theorem headerWidth_bad (env : Env) (r : Node) (hp : Proper r)
    (hc : ∀ first rest, r.content ≠ .val (first :: rest)) :
    ∃ e, headerWidth (r.item env).content = .error e := by
  have : (r.item env).content = kidsOf (slotItems env r.content) := by
    cases r; rfl
  rw [this]
  cases h : r.content with
  | absent => exact ⟨_, rfl⟩
  | opt => exact ⟨_, rfl⟩
  | raw v => exact absurd h (hp.1 v)
  | val l =>
    cases l with
    | nil => exact ⟨_, rfl⟩
    | cons a l => exact absurd h (hc a l)

theorem separator_eq (n : Nat) : separatorLine n = rowLine (List.replicate n "---".toList) := by
  unfold separatorLine rowLine
  rw [join_eq]
  rfl

theorem tableLines_ok (env : Env) (rows : List Node)
    (hk : ∀ r ∈ rows, r.cls ≠ .text ∧ Proper r) (vs : List Val) :
    tableLines false (rows.map (Node.item env)) = .ok vs ↔
      ∃ lss : List (List Str), List.Forall₂ (RowLines env) rows lss ∧ vs = lss.flatten.map .str := by
  induction rows generalizing vs with
  | nil =>
    simp only [List.map_nil, tableLines]
    constructor
    · intro h; cases h; exact ⟨[], .nil, rfl⟩
    · rintro ⟨_, h, rfl⟩; cases h; rfl
  | cons r rows ih =>
    have ih := ih (fun x hx => hk x (by simp [hx]))
    obtain ⟨hcls, hp⟩ := hk r (by simp)
    rw [List.map_cons, tableLines]
    have hr : (r.item env).render none false = r.toMarkdown env false := rfl
    rw [hr]
    constructor
    · intro h
      cases hi : r.toMarkdown env false with
      | error e => rw [hi] at h; simp at h
      | ok t =>
        obtain ⟨s, rfl⟩ := toMarkdownAt_str env r (fun ht => absurd ht hcls) _ _ _ hi
        rw [hi] at h
        simp only at h
        by_cases hc : ∃ first rest, r.content = .val (first :: rest)
        · obtain ⟨first, rest, hc⟩ := hc
          rw [headerWidth_eq env r first rest hc (hp.2 _ hc first (by simp))] at h
          simp only at h
          cases hb : tableLines false (rows.map (Node.item env)) with
          | error e => rw [hb] at h; simp at h
          | ok tl =>
            obtain ⟨lss, h2, rfl⟩ := (ih tl).mp hb
            rw [hb] at h
            simp only at h
            by_cases hh : first.cls = .tableHeader
            · rw [if_pos hh] at h
              refine ⟨[s, rowLine (List.replicate (rest.length + 1) "---".toList)] :: lss,
                .cons ⟨s, first, rest, hi, hc, fun _ => rfl, fun h => absurd hh h⟩ h2, ?_⟩
              rw [← Except.ok.inj h, separator_eq]; rfl
            · rw [if_neg hh] at h
              refine ⟨[s] :: lss,
                .cons ⟨s, first, rest, hi, hc, fun h => absurd h hh, fun _ => rfl⟩ h2, ?_⟩
              rw [← Except.ok.inj h]; rfl
        · obtain ⟨e, he⟩ := headerWidth_bad env r hp (fun f l h => hc ⟨f, l, h⟩)
          rw [he] at h
          simp at h
    · rintro ⟨lss, h, rfl⟩
      cases h with
      | @cons _ ls _ lss h1 h2 =>
        obtain ⟨s, first, rest, hi, hc, ha, hb⟩ := h1
        unfold Md at hi
        rw [hi]
        simp only
        rw [headerWidth_eq env r first rest hc (hp.2 _ hc first (by simp)),
          (ih _).mpr ⟨lss, h2, rfl⟩]
        by_cases hh : first.cls = .tableHeader
        · simp only [if_pos hh, ha hh, separator_eq]; rfl
        · simp only [if_neg hh, hb hh]; rfl

/-- C32: a table converts iff every row does and has a cell, to the rows in order, each followed by a
`---` separator of the same width iff its first cell is a header cell.  (A row that is no text node,
and whose content, if given, is a list: as parsing a table gives.) -/
theorem C32_table (env : Env) (n : Node) (rows : List Node) (hn : n.cls = .table)
    (hc : n.content = .val rows) (hk : ∀ r ∈ rows, r.cls ≠ .text ∧ Proper r) (v : Val) :
    n.toMarkdown env false = .ok v ↔
      ∃ lss, List.Forall₂ (RowLines env) rows lss ∧ v = .str (lines lss.flatten) := by
  rw [dispatch_table env n false hn, hc, slotItems_val]
  unfold tableMd
  simp only [iterSlot]
  constructor
  · intro h
    obtain ⟨s, h1, rfl⟩ := strVal_str h
    cases hb : tableLines false (rows.map (Node.item env)) with
    | error e => rw [hb] at h1; simp at h1
    | ok vs =>
      obtain ⟨lss, h2, rfl⟩ := (tableLines_ok env rows hk vs).mp hb
      rw [hb] at h1
      simp only [strJoin_str] at h1
      exact ⟨lss, h2, by rw [← Except.ok.inj h1, join_eq]; rfl⟩
  · rintro ⟨lss, h, rfl⟩
    rw [(tableLines_ok env rows hk _).mpr ⟨lss, h, rfl⟩]
    simp only [strJoin_str, join_eq]
    rfl

/-- C32: a header row and its separator have the same number of unescaped pipes. -/
theorem C32_same_width (env : Env) (r first : Node) (rest : List Node) (ls : List Str)
    (hr : r.cls = .tableRow) (hc : r.content = .val (first :: rest))
    (hk : ∀ k ∈ first :: rest, isCell k) (hh : first.cls = .tableHeader)
    (h : RowLines env r ls) :
    ∃ s sep, ls = [s, sep] ∧ barePipes false sep = barePipes false s ∧
      barePipes false s = rest.length + 2 ∧ '\n' ∉ sep := by
  obtain ⟨s, first', rest', hi, hc', ha, _⟩ := h
  rw [hc] at hc'
  cases hc'
  obtain ⟨s', cs, e, _, _, h2, _⟩ := C31_one_line env r _ false hr hc hk _ hi
  cases e
  refine ⟨s, _, ha hh, ?_, by rw [h2]; simp, ?_⟩
  · rw [h2, barePipes_row]
    · simp
    · intro c hc
      rw [(List.mem_replicate.mp hc).2]
      intro e; cases e <;> rfl
  · intro hm
    unfold rowLine at hm
    rw [List.mem_append, List.mem_append] at hm
    rcases hm with (hm | hm) | hm
    · exact absurd hm (by decide)
    · rcases mem_join ((join_eq _ _).symm ▸ hm) with h | ⟨c, hc, h⟩
      · exact absurd h (by decide)
      · rw [(List.mem_replicate.mp hc).2] at h; exact absurd h (by decide)
    · exact absurd hm (by decide)

/-- C32: the number of lines of a non-empty table of rows of cells is the number of rows plus the
number of header rows. -/
theorem C32_line_count (env : Env) (n : Node) (rows : List Node) (hn : n.cls = .table)
    (hc : n.content = .val rows) (hne : rows ≠ [])
    (hk : ∀ r ∈ rows, r.cls = .tableRow ∧ Proper r ∧ ∀ ks, r.content = .val ks → ∀ k ∈ ks, isCell k)
    (s : Str) (h : n.toMarkdown env false = .ok (.str s)) :
    (s.splitOn '\n').length = rows.length + (rows.filter isHeaderRow).length := by
  obtain ⟨lss, h1, e⟩ := (C32_table env n rows hn hc
    (fun r hr => ⟨by rw [(hk r hr).1]; decide, (hk r hr).2.1⟩) _).mp h
  cases e
  have key : lss.flatten.length = rows.length + (rows.filter isHeaderRow).length ∧
      ∀ l ∈ lss.flatten, '\n' ∉ l := by
    clear h hc hne
    induction h1 with
    | nil => simp
    | @cons r ls rows lss hr _ ih =>
      obtain ⟨h2, h3⟩ := ih (fun x hx => hk x (by simp [hx]))
      obtain ⟨hcls, hp, hcell⟩ := hk r (by simp)
      have hrl := hr
      obtain ⟨s, first, rest, hi, hc, ha, hb⟩ := hr
      obtain ⟨s', cs, e, _, hnl, _, _⟩ := C31_one_line env r _ false hcls hc (hcell _ hc) _ hi
      cases e
      have hih : isHeaderRow r = decide (first.cls = .tableHeader) := by
        unfold isHeaderRow; rw [hc]
      by_cases hh : first.cls = .tableHeader
      · obtain ⟨s2, sep, e, _, _, hsep⟩ := C32_same_width env r first rest ls hcls hc (hcell _ hc) hh hrl
        have hs : s2 = s := by rw [ha hh] at e; exact (List.cons.inj e).1.symm
        subst hs
        rw [e]
        constructor
        · rw [List.flatten_cons, List.filter_cons_of_pos (by rw [hih]; simp [hh])]
          simp only [List.length_append, List.length_cons, List.length_nil, h2]
          omega
        · intro l hl
          simp only [List.flatten_cons, List.mem_append, List.mem_cons, List.not_mem_nil, or_false] at hl
          rcases hl with (rfl | rfl) | hl
          · exact hnl
          · exact hsep
          · exact h3 l hl
      · rw [hb hh]
        constructor
        · rw [List.flatten_cons, List.filter_cons_of_neg (by rw [hih]; simp [hh])]
          simp only [List.length_append, List.length_cons, List.length_nil, h2]
          omega
        · intro l hl
          simp only [List.flatten_cons, List.mem_append, List.mem_cons, List.not_mem_nil, or_false] at hl
          rcases hl with rfl | hl
          · exact hnl
          · exact h3 l hl
  unfold lines
  rw [splitOn_nl, lines_eq, splitNL_join _ key.2, key.1]
  intro h0
  rw [h0] at key
  have := List.length_pos_of_ne_nil hne
  simp at key
  omega

/-- C32: a row without cells makes the conversion of the table fail. -/
theorem C32_empty_row (env : Env) (n : Node) (rows : List Node) (hn : n.cls = .table)
    (hc : n.content = .val rows) (hk : ∀ r ∈ rows, r.cls ≠ .text ∧ Proper r)
    (r : Node) (hr : r ∈ rows) (he : r.content = .val []) (v : Val) :
    n.toMarkdown env false ≠ .ok v := by
  intro h
  obtain ⟨lss, h1, rfl⟩ := (C32_table env n rows hn hc hk v).mp h
  clear h hc hk
  induction h1 with
  | nil => cases hr
  | cons h _ ih =>
    rcases List.mem_cons.mp hr with rfl | hr
    · obtain ⟨_, _, _, _, h2, _⟩ := h
      rw [he] at h2; cases h2
    · exact ih hr

example : (Samples.table [Samples.row [Samples.hcell [Samples.text "a"], Samples.hcell [Samples.text "b"]],
      Samples.row [Samples.cell [Samples.text "1"], Samples.cell [Samples.text "2|3"]]]).toMarkdown
        Samples.env false =
    .ok (Samples.str "| a | b |\n| --- | --- |\n| 1 | 2\\|3 |") := rfl

/-! ## C46: the other reading of escapes -/

/-- The texts of the children of the cells of a row. -/
theorem row_contents (env : Env) (n : Node) (cells : List Node) (hn : n.cls = .tableRow)
    (hc : n.content = .val cells) (hk : ∀ k ∈ cells, isCell k ∧ ∃ ks, k.content = .val ks) (s : Str)
    (h : n.toMarkdown env false = .ok (.str s)) :
    ∃ cs mds, s = rowLine cs ∧ List.Forall₂ (CellText env) cells mds ∧
      List.Forall₂ (fun md c => ∃ outs, List.Forall₂ CellLine (Str.splitNL md) outs ∧
        c = Str.join "<br>".toList outs) mds cs := by
  obtain ⟨cs, h1, e⟩ := (C31_row env n cells false hn hc (fun k hk' => (hk k hk').1) _).mp h
  cases e
  refine ⟨cs, ?_⟩
  clear h hc
  induction h1 with
  | nil => exact ⟨[], rfl, .nil, .nil⟩
  | @cons k c ks cs h _ ih =>
    obtain ⟨mds, _, h2, h3⟩ := ih (fun x hx => hk x (by simp [hx]))
    obtain ⟨hcell, kids, hkids⟩ := hk k (by simp)
    obtain ⟨ss, outs, h4, h5, e⟩ := (C31_cell env k kids hcell hkids _).mp h
    rw [splitOn_nl] at h5
    rw [← join_eq] at e
    cases e
    exact ⟨ss.flatten :: mds, rfl, .cons ⟨kids, ss, hkids, h4, rfl⟩ h2, .cons ⟨outs, h5, rfl⟩ h3⟩

/-- C46, exactly: under the reading where an escaped backslash escapes nothing, a row has one extra
cell boundary for each pipe that was escaped in the cells' own content. -/
theorem C46_partial_count (env : Env) (n : Node) (cells : List Node) (hn : n.cls = .tableRow)
    (hc : n.content = .val cells) (hk : ∀ k ∈ cells, isCell k ∧ ∃ ks, k.content = .val ks) (s : Str)
    (h : n.toMarkdown env false = .ok (.str s)) :
    ∃ mds, List.Forall₂ (CellText env) cells mds ∧
      parityPipes false s = max cells.length 1 + 1 + (mds.map (escapedPipes false)).sum := by
  obtain ⟨cs, mds, rfl, h1, h2⟩ := row_contents env n cells hn hc hk s h
  refine ⟨mds, h1, ?_⟩
  rw [parityPipes_row, h1.length_eq, h2.length_eq]
  congr 2
  clear h h1
  induction h2 with
  | nil => rfl
  | @cons md c mds cs h _ ih =>
    obtain ⟨outs, h3, rfl⟩ := h
    rw [List.map_cons, List.map_cons, ih, cells_parity h3, join_splitNL]

theorem mdAll_unique {env : Env} {l : List Node} {a b : List Str} (h : MdAll env l a) (h' : MdAll env l b) :
    a = b := by
  induction h generalizing b with
  | nil => cases h'; rfl
  | cons h _ ih =>
    cases h' with
    | cons h2 t2 =>
      have : Except.ok _ = Except.ok _ := h.symm.trans h2
      cases this
      rw [ih t2]

/-- C46 (what is missing: contents with an escaped pipe, `C46_false`).  The row has the right number of
cells under that reading, too, iff no pipe in the cells' content is preceded by an odd number of
backslashes. -/
theorem C46_partial (env : Env) (n : Node) (cells : List Node) (hn : n.cls = .tableRow)
    (hc : n.content = .val cells) (hk : ∀ k ∈ cells, isCell k ∧ ∃ ks, k.content = .val ks) (s : Str)
    (h : n.toMarkdown env false = .ok (.str s)) :
    parityPipes false s = max cells.length 1 + 1 ↔
      ∀ k ∈ cells, ∀ md, CellText env k md → escapedPipes false md = 0 := by
  obtain ⟨mds, h1, h2⟩ := C46_partial_count env n cells hn hc hk s h
  have : (mds.map (escapedPipes false)).sum = 0 ↔
      ∀ k ∈ cells, ∀ md, CellText env k md → escapedPipes false md = 0 := by
    clear h2 h hc
    induction h1 with
    | nil => simp
    | @cons k md ks mds ht _ ih =>
      have hu : ∀ md', CellText env k md' → md' = md := by
        rintro md' ⟨k1, s1, e1, m1, rfl⟩
        obtain ⟨k2, s2, e2, m2, rfl⟩ := ht
        rw [e1] at e2; cases e2
        rw [mdAll_unique m1 m2]
      rw [List.map_cons, List.sum_cons, Nat.add_eq_zero_iff, ih (fun x hx => hk x (by simp [hx]))]
      constructor
      · rintro ⟨h0, hr⟩ k' hk' md' hm
        rcases List.mem_cons.mp hk' with rfl | hk'
        · rw [hu _ hm, h0]
        · exact hr k' hk' md' hm
      · exact fun hall => ⟨hall k (by simp) md ht, fun k' hk' => hall k' (by simp [hk'])⟩
  rw [← this]
  omega

/-- C46 is false of the code: a parsed one-cell row whose text is `a\|b` becomes two cells. -/
theorem C46_false : ∃ n cell s, Spec.Parsed n ∧ n.cls = .tableRow ∧ n.content = .val [cell] ∧
    isCell cell ∧ n.toMarkdown Samples.env false = .ok (.str s) ∧ parityPipes false s = 3 :=
  ⟨Samples.row [Samples.cell [Samples.text "a\\|b"]], Samples.cell [Samples.text "a\\|b"], _,
    ⟨true, Samples.j "tableRow" [("content", .list [Samples.j "tableCell" [("content", .list
      [Samples.j "text" [("text", Samples.str "a\\|b")]])]])], rfl⟩, rfl, rfl, .inl rfl, rfl, by decide⟩

/-! ## C47: carriage returns -/

theorem count_join {c : Char} {sep : Str} (h : c ∉ sep) (l : List Str) :
    (Str.join sep l).count c = (l.map (List.count c)).sum := by
  induction l with
  | nil => rfl
  | cons a l ih =>
    cases l with
    | nil => simp [Str.join]
    | cons b l =>
      rw [join_cons_cons, List.count_append, List.count_append, ih, List.count_eq_zero.mpr h]
      simp

theorem count_cellLine {l out : Str} (h : CellLine l out) : out.count '\r' = l.count '\r' := by
  obtain ⟨k, rest, rfl, hr, rfl⟩ := h
  clear hr
  rw [List.count_append, List.count_append]
  congr 1
  · rw [List.count_eq_zero.mpr, List.count_eq_zero.mpr]
    · unfold spaces; intro h; exact absurd (List.eq_of_mem_replicate h) (by decide)
    · intro h
      obtain ⟨x, hx, hm⟩ := List.mem_flatten.mp h
      rw [List.eq_of_mem_replicate hx] at hm
      exact absurd hm (by decide)
  · unfold escapePipes
    induction rest with
    | nil => rfl
    | cons c rest ih =>
      rw [List.flatMap_cons, List.count_append, ih, List.count_cons]
      by_cases hc : c = '|'
      · subst hc; simp
      · rw [if_neg hc, List.count_singleton]; omega

/-- C47, exactly: a row has as many carriage returns as the contents of its cells together. -/
theorem C47_partial_count (env : Env) (n : Node) (cells : List Node) (hn : n.cls = .tableRow)
    (hc : n.content = .val cells) (hk : ∀ k ∈ cells, isCell k ∧ ∃ ks, k.content = .val ks) (s : Str)
    (h : n.toMarkdown env false = .ok (.str s)) :
    ∃ mds, List.Forall₂ (CellText env) cells mds ∧
      s.count '\r' = (mds.map (List.count '\r')).sum := by
  obtain ⟨cs, mds, rfl, h1, h2⟩ := row_contents env n cells hn hc hk s h
  refine ⟨mds, h1, ?_⟩
  unfold rowLine
  rw [← join_eq, List.count_append, List.count_append, count_join (by decide),
    show "| ".toList.count '\r' = 0 from rfl, show " |".toList.count '\r' = 0 from rfl]
  simp only [Nat.zero_add, Nat.add_zero]
  clear h h1
  induction h2 with
  | nil => rfl
  | @cons md c mds cs h _ ih =>
    obtain ⟨outs, h3, rfl⟩ := h
    rw [List.map_cons, List.map_cons, List.sum_cons, List.sum_cons, ih, count_join (by decide)]
    congr 1
    have : outs.map (List.count '\r') = (Str.splitNL md).map (List.count '\r') := by
      clear ih
      generalize Str.splitNL md = ls at h3
      induction h3 with
      | nil => rfl
      | cons h _ ih => rw [List.map_cons, List.map_cons, ih, count_cellLine h]
    rw [this, ← count_join (sep := ['\n']) (by decide), join_splitNL]

/-- C47 (what is missing: contents with a carriage return, `C47_false`).  A row has a carriage return
iff the content of one of its cells has one. -/
theorem C47_partial (env : Env) (n : Node) (cells : List Node) (hn : n.cls = .tableRow)
    (hc : n.content = .val cells) (hk : ∀ k ∈ cells, isCell k ∧ ∃ ks, k.content = .val ks) (s : Str)
    (h : n.toMarkdown env false = .ok (.str s)) :
    '\r' ∈ s ↔ ∃ k ∈ cells, ∃ md, CellText env k md ∧ '\r' ∈ md := by
  obtain ⟨mds, h1, h2⟩ := C47_partial_count env n cells hn hc hk s h
  rw [← List.count_pos_iff, h2]
  clear h h2 hc
  induction h1 with
  | nil => simp
  | @cons k md ks mds ht _ ih =>
    have hu : ∀ md', CellText env k md' → md' = md := by
      rintro md' ⟨k1, s1, e1, m1, rfl⟩
      obtain ⟨k2, s2, e2, m2, rfl⟩ := ht
      rw [e1] at e2; cases e2
      rw [mdAll_unique m1 m2]
    rw [List.map_cons, List.sum_cons]
    have ih := ih (fun x hx => hk x (by simp [hx]))
    constructor
    · intro hp
      by_cases h0 : 0 < md.count '\r'
      · exact ⟨k, by simp, md, ht, List.count_pos_iff.mp h0⟩
      · obtain ⟨k', hk', hr⟩ := ih.mp (by omega)
        exact ⟨k', by simp [hk'], hr⟩
    · rintro ⟨k', hk', md', hm, hr⟩
      rcases List.mem_cons.mp hk' with rfl | hk'
      · have := List.count_pos_iff.mpr hr
        rw [hu _ hm] at this; omega
      · have := ih.mpr ⟨k', hk', md', hm, hr⟩
        omega

/-- C47 is false of the code: a carriage return in a text ends up in the row. -/
theorem C47_false : ∃ n cell s, Spec.Parsed n ∧ n.cls = .tableRow ∧ n.content = .val [cell] ∧
    isCell cell ∧ n.toMarkdown Samples.env false = .ok (.str s) ∧ '\r' ∈ s :=
  ⟨Samples.row [Samples.cell [Samples.text "a\rb"]], Samples.cell [Samples.text "a\rb"], _,
    ⟨true, Samples.j "tableRow" [("content", .list [Samples.j "tableCell" [("content", .list
      [Samples.j "text" [("text", Samples.str "a\rb")]])]])], rfl⟩, rfl, rfl, .inl rfl, rfl, by decide⟩

/-! ### The theorems on samples -/

/-- A header cell and a cell, with a pipe, a backslash and a carriage return in them. -/
def sampleCells : List Node :=
  [Samples.hcell [Samples.text "a\\|b"], Samples.cell [Samples.para [Samples.text "c\r"], Samples.para [Samples.text "d"]]]

theorem sampleCells_cells : ∀ k ∈ sampleCells, isCell k := by
  simp only [sampleCells, List.forall_mem_cons]; exact ⟨.inr rfl, .inl rfl, by simp⟩

theorem sampleCells_content : ∀ k ∈ sampleCells, isCell k ∧ ∃ ks, k.content = .val ks := by
  simp only [sampleCells, List.forall_mem_cons]; exact ⟨⟨.inr rfl, _, rfl⟩, ⟨.inl rfl, _, rfl⟩, by simp⟩

example := C31_cell Samples.env (Samples.cell [Samples.text "a|b\n c"]) _ (.inl rfl) rfl

example := C31_row Samples.env (Samples.row sampleCells) _ false rfl rfl sampleCells_cells

example := C31_one_line Samples.env (Samples.row sampleCells) _ false rfl rfl sampleCells_cells _ rfl

example := C32_table Samples.env (Samples.table [Samples.row sampleCells, Samples.row sampleCells]) _ rfl rfl
  (fun r hr => ⟨by simp at hr; subst hr; decide, (Samples.proper_of (kids := [Samples.row sampleCells, Samples.row sampleCells]) rfl r hr).2⟩)

example := C32_line_count Samples.env (Samples.table [Samples.row sampleCells, Samples.row sampleCells]) _ rfl rfl (by simp)
  (fun r hr => ⟨by simp at hr; subst hr; rfl, (Samples.proper_of (kids := [Samples.row sampleCells, Samples.row sampleCells]) rfl r hr).2,
    by simp at hr; subst hr; intro ks h; cases h; exact sampleCells_cells⟩) _ rfl

example := C32_empty_row Samples.env (Samples.table [Samples.row sampleCells, Samples.row []]) _ rfl rfl
  (fun r hr => ⟨by simp at hr; rcases hr with rfl | rfl <;> decide, (Samples.proper_of (kids := [Samples.row sampleCells, Samples.row []]) rfl r hr).2⟩)
  (Samples.row []) (.tail _ (.head _)) rfl

example := C46_partial_count Samples.env (Samples.row sampleCells) _ rfl rfl sampleCells_content _ rfl
example := C46_partial Samples.env (Samples.row sampleCells) _ rfl rfl sampleCells_content _ rfl
example := C47_partial_count Samples.env (Samples.row sampleCells) _ rfl rfl sampleCells_content _ rfl
example := C47_partial Samples.env (Samples.row sampleCells) _ rfl rfl sampleCells_content _ rfl

example := C32_same_width Samples.env (Samples.row sampleCells) _ _ _ rfl rfl sampleCells_cells rfl
  ⟨_, _, _, rfl, rfl, fun _ => rfl, fun h => absurd rfl h⟩

end Verif.Props
