import Verif.Lemmas.SampleChecks
import Verif.Lemmas.Lists
import Verif.Lemmas.Attrs
/-!
# C25, C26, C27, C41, C45: bullet and ordered lists
-/

namespace Verif.Props
open Verif

theorem dispatch_bullet (env : Env) (n : Node) (l : Option Int) (ig : Bool) (hn : n.cls = .bulletList) :
    n.toMarkdownAt env l ig = strVal (bulletListMd (slotItems env n.content) (l.getD 0) ig) := by
  have hn' : n.hd.cls = .bulletList := hn
  rw [toMarkdownAt_eq]; unfold dispatch; simp [hn', NodeCls.takesLevel]

theorem dispatch_ordered (env : Env) (n : Node) (l : Option Int) (ig : Bool) (hn : n.cls = .orderedList) :
    n.toMarkdownAt env l ig =
      strVal (orderedListMd env n.hd.attrs (slotItems env n.content) (l.getD 0) ig) := by
  have hn' : n.hd.cls = .orderedList := hn
  rw [toMarkdownAt_eq]; unfold dispatch; simp [hn', NodeCls.takesLevel]

/-! ## C25 -/

/-- C25: a bullet list at level `lvl` (level 0 if none is passed) converts iff the texts of its list
items exist, and then it is these texts in order, each behind `4*lvl` spaces and `- `, separated by
newlines; children that are no list items are ignored.  The text of an item is the texts of its
children, one per line (`Spec.ItemText`). -/
theorem C25_bullets (env : Env) (n : Node) (l : Option Int) (lvl : Nat) (kids : List Node)
    (hl : l.getD 0 = lvl) (hn : n.cls = .bulletList) (hc : n.content = .val kids)
    (hk : ∀ k ∈ kids, Spec.HasType k ∧ (k.cls = .listItem → Spec.Proper k)) (v : Val) :
    n.toMarkdownAt env l false = .ok v ↔
      ∃ ts, List.Forall₂ (Spec.ItemText env .bulletList lvl) (Spec.itemsOf kids) ts ∧
        v = .str (Spec.lines (ts.map fun t => Spec.spaces (4 * lvl) ++ "- ".toList ++ t)) := by
  have hj : ∀ ts : List Str, Str.join ['\n'] (ts.flatMap fun t => itemLines (Spec.spaces (4 * lvl) ++ ['-', ' ']) t) =
      Spec.lines (ts.map fun t => Spec.spaces (4 * lvl) ++ "- ".toList ++ t) := by
    intro ts
    have := itemLines_flatten_join (ts.map fun t => (Spec.spaces (4 * lvl) ++ ['-', ' '], t))
    rw [List.flatMap_map, List.map_map] at this
    exact this.trans (join_eq _ _)
  rw [dispatch_bullet env n l false hn, hl, hc, slotItems_val]
  unfold bulletListMd
  simp only [iterSlot]
  constructor
  · intro h
    obtain ⟨s, h1, rfl⟩ := strVal_str h
    cases hb : bulletLines lvl false (kids.map (Node.item env)) with
    | error e => rw [hb] at h1; simp at h1
    | ok ls =>
      rw [hb] at h1
      obtain ⟨ts, hts, rfl⟩ := (bulletLines_ok env lvl kids hk ls).mp hb
      exact ⟨ts, hts, by rw [← Except.ok.inj h1, hj]⟩
  · rintro ⟨ts, hts, rfl⟩
    rw [(bulletLines_ok env lvl kids hk _).mpr ⟨ts, hts, rfl⟩]
    simp only [strVal, hj]

/-- C25, line by line: the lines of the list are, for each item, the first line of its text behind
the bullet, and the other lines of its text as they are. -/
theorem C25_line_by_line (lvl : Nat) (ts : List Str) (hne : ts ≠ []) :
    (Spec.lines (ts.map fun t => Spec.spaces (4 * lvl) ++ "- ".toList ++ t)).splitOn '\n' =
      ts.flatMap fun t => match t.splitOn '\n' with
        | [] => []
        | first :: rest => (Spec.spaces (4 * lvl) ++ "- ".toList ++ first) :: rest := by
  simp only [splitOn_nl]
  have hm : '\n' ∉ Spec.spaces (4 * lvl) ++ "- ".toList := by
    intro h
    rcases List.mem_append.mp h with h | h
    · exact absurd (List.mem_replicate.mp h).2 (by decide)
    · exact absurd h (by decide)
  have hmark : ∀ (t m : Str), '\n' ∉ m → Str.splitNL (m ++ t) = match Str.splitNL t with
        | [] => []
        | first :: rest => (m ++ first) :: rest := by
    intro t m
    induction m with
    | nil => intro _; cases hs : Str.splitNL t <;> simp [hs]
    | cons c m ih =>
      intro hm
      simp only [List.mem_cons, not_or] at hm
      rw [List.cons_append, Str.splitNL, if_neg (fun h => hm.1 h.symm), ih hm.2]
      cases hs : Str.splitNL t with
      | nil => exact absurd hs (splitNL_ne_nil t)
      | cons a as => rfl
  induction ts with
  | nil => exact absurd rfl hne
  | cons t ts ih =>
    cases ts with
    | nil =>
      simp only [Spec.lines, lines_eq, List.map_cons, List.map_nil, Str.join, List.flatMap_cons, List.flatMap_nil,
        List.append_nil]
      exact hmark t _ hm
    | cons u us =>
      have ih := ih (by simp)
      rw [List.flatMap_cons, ← ih]
      refine Eq.trans ?_ (congrArg (· ++ _) (hmark t _ hm))
      unfold Spec.lines
      simp only [lines_eq]
      rw [List.map_cons, join_cons _ _ (by simp), List.append_assoc]
      exact splitNL_append_gen _ _

example : (Samples.bullets [Samples.item [Samples.para [Samples.text "a", Samples.hardBreak, Samples.text "b"],
      Samples.bullets [Samples.item [Samples.para [Samples.text "c"]]]],
      Samples.item [Samples.para [Samples.text "d"]]]).toMarkdown Samples.env false =
    .ok (Samples.str "- a  \nb\n    - c\n- d") := rfl

/-! ## C26 -/

theorem orderedStart_ok {n : Node} {lvl : Nat} {i : Int} (h : Spec.StartNumber n lvl i) :
    orderedStart n.hd.attrs (lvl : Int) = .ok (.int i) := by
  unfold orderedStart
  rcases h with ⟨h1, rfl⟩ | ⟨rfl, h | ⟨v, h, h2, h3, rfl⟩⟩
  · rw [if_neg (by omega)]
  · rw [if_pos (by rfl), getAttr_eq h]; rfl
  · rw [if_pos (by rfl), getAttr_eq h]
    cases v <;> first | rfl | exact absurd rfl (h2 _) | exact absurd rfl (h3 _)

/-- C26: an ordered list converts iff the texts of its list items exist, and then it is these texts
in order, numbered consecutively from its start number; children that are no list items neither
appear nor consume a number. -/
theorem C26_numbers (env : Env) (n : Node) (l : Option Int) (lvl : Nat) (start : Int)
    (kids : List Node) (hl : l.getD 0 = lvl) (hn : n.cls = .orderedList)
    (hs : Spec.StartNumber n lvl start) (hc : n.content = .val kids)
    (hk : ∀ k ∈ kids, Spec.HasType k ∧ (k.cls = .listItem → Spec.Proper k)) (v : Val) :
    n.toMarkdownAt env l false = .ok v ↔
      ∃ ts, List.Forall₂ (Spec.ItemText env .orderedList lvl) (Spec.itemsOf kids) ts ∧
        v = .str (Spec.lines (Spec.numbered lvl start ts)) := by
  rw [dispatch_ordered env n l false hn, hl, hc, slotItems_val]
  unfold orderedListMd
  rw [orderedStart_ok hs]
  simp only [iterSlot]
  constructor
  · intro h
    obtain ⟨s, h1, rfl⟩ := strVal_str h
    cases hb : orderedLines env lvl false (.int start) (kids.map (Node.item env)) with
    | error e => rw [hb] at h1; simp at h1
    | ok ls =>
      rw [hb] at h1
      obtain ⟨ts, hts, rfl⟩ := (orderedLines_ok env lvl kids hk start ls).mp hb
      exact ⟨ts, hts, by rw [← Except.ok.inj h1, ← numbered_eq]⟩
  · rintro ⟨ts, hts, rfl⟩
    rw [(orderedLines_ok env lvl kids hk start _).mpr ⟨ts, hts, rfl⟩]
    simp only [strVal, ← numbered_eq]

/-- C26: the `k`-th item of the numbered lines has number `start + k`. -/
theorem C26_kth (lvl : Nat) (start : Int) (ts : List Str) (k : Nat) :
    (Spec.numbered lvl start ts)[k]? =
      (ts[k]?).map fun t => Spec.spaces (4 * lvl) ++ (toString (start + k)).toList ++ ". ".toList ++ t := by
  induction ts generalizing start k with
  | nil => simp [Spec.numbered]
  | cons t ts ih =>
    cases k with
    | zero => simp [Spec.numbered]
    | succ k =>
      rw [Spec.numbered, List.getElem?_cons_succ, ih, List.getElem?_cons_succ,
        show start + 1 + (k : Int) = start + ((k + 1 : Nat) : Int) by omega]

/-- C26: numbers are written in decimal, without leading zeros: the digits denote the number, a
minus sign precedes them if it is negative. -/
theorem C26_decimal (k : Nat) : Nat.ofDigitChars 10 (toString (k : Int)).toList 0 = k ∧
    (toString (-(k + 1 : Nat) : Int)).toList = '-' :: (toString (k + 1 : Int)).toList := by
  rw [← ofInt_eq, ← ofInt_eq, ← ofInt_eq]
  exact ⟨Nat.ofDigitChars_ten_toDigits, rfl⟩

/-- C26: every parsed ordered list with attrs has a start number, unless `order` is a JSON boolean
(written as `True.` by the code). -/
theorem C26_start_exists (n : Node) (hp : Spec.Parsed n) (hn : n.cls = .orderedList) (lvl : Nat)
    (h : 1 ≤ lvl ∨ n.hd.attrs ≠ .opt) (hb : ∀ b, Spec.attr n "order" ≠ some (.bool b)) :
    ∃ i, Spec.StartNumber n lvl i := by
  by_cases hl : 1 ≤ lvl
  · exact ⟨1, .inl ⟨hl, rfl⟩⟩
  · have h0 : lvl = 0 := by omega
    subst h0
    rcases parsed_attrs_cases hp (by rw [hn]; decide) with h1 | h1
    · exact absurd h1 (h.resolve_left hl)
    · obtain ⟨v, hv⟩ := h1 "order" (by rw [hn]; decide)
      cases v with
      | int i => exact ⟨i, .inr ⟨rfl, .inl hv⟩⟩
      | bool b => exact absurd hv (hb b)
      | _ => exact ⟨1, .inr ⟨rfl, .inr ⟨_, hv, by simp, by simp, rfl⟩⟩⟩

example : (Samples.ordered (Samples.orderAttrs 9) [Samples.item [Samples.para [Samples.text "a"],
      Samples.ordered .opt [Samples.item [Samples.para [Samples.text "c"]]]],
      Samples.para [Samples.text "x"],
      Samples.item [Samples.para [Samples.text "d"]]]).toMarkdown Samples.env false =
    .ok (Samples.str "9. a\n    1. c\n10. d") := rfl
example : Spec.StartNumber (Samples.ordered (Samples.orderAttrs 9) []) 0 9 := .inr ⟨rfl, .inl rfl⟩

/-! ## C27 -/

/-- C27 is false of the code: no ordered list without attrs converts at level 0 (strictly or
leniently): AttributeError. -/
theorem C27_false (env : Env) (n : Node) (ig : Bool) (hn : n.cls = .orderedList)
    (ha : n.hd.attrs = .opt) : n.toMarkdown env ig = .error .attributeError := by
  show n.toMarkdownAt env none ig = _
  rw [dispatch_ordered env n none ig hn, ha]
  rfl

/-- C27_false is about parsed nodes. -/
theorem C27_false_reachable : Spec.Parsed (Samples.ordered .opt [Samples.item []]) ∧
    (Samples.ordered .opt [Samples.item []]).hd.attrs = .opt :=
  ⟨⟨true, Samples.j "orderedList" [("content", .list [Samples.j "listItem" [("content", .list [])]])], rfl⟩, rfl⟩

/-- C27 where it holds: nested (level at least 1), attrs do not matter at all; and at level 0, attrs
without `order` count from 1.  Missing from C27: a top-level list without attrs. -/
theorem C27_partial (env : Env) (n : Node) (l : Option Int) (lvl : Nat) (kids : List Node)
    (hl : l.getD 0 = lvl) (hn : n.cls = .orderedList) (hc : n.content = .val kids)
    (hk : ∀ k ∈ kids, Spec.HasType k ∧ (k.cls = .listItem → Spec.Proper k))
    (ha : 1 ≤ lvl ∨ Spec.attr n "order" = some .opt) (v : Val) :
    n.toMarkdownAt env l false = .ok v ↔
      ∃ ts, List.Forall₂ (Spec.ItemText env .orderedList lvl) (Spec.itemsOf kids) ts ∧
        v = .str (Spec.lines (Spec.numbered lvl 1 ts)) := by
  refine C26_numbers env n l lvl 1 kids hl hn ?_ hc hk v
  by_cases h : 1 ≤ lvl
  · exact .inl ⟨h, rfl⟩
  · exact .inr ⟨by omega, .inr ⟨.opt, ha.resolve_left h, by simp, by simp, rfl⟩⟩

/-- Whether the items convert does not depend on the number they start with. -/
theorem orderedLines_start {env : Env} {level : Int} {ig : Bool} {items : List Item} {a : Val} {ls : List Str}
    (h : orderedLines env level ig a items = .ok ls) (b : Val) :
    ∃ ls', orderedLines env level ig b items = .ok ls' := by
  induction items generalizing a b ls with
  | nil => exact ⟨[], rfl⟩
  | cons it items ih =>
    rw [orderedLines] at h ⊢
    cases h1 : it.isTypeOf [.listItem] with
    | error e => simp [h1] at h
    | ok t =>
      cases t with
      | false =>
        simp only [h1] at h ⊢
        exact ih h b
      | true =>
        simp only [h1] at h ⊢
        cases h2 : listItemContent .orderedList level ig it with
        | error e => simp [h2] at h
        | ok c =>
          simp only [h2] at h ⊢
          cases h3 : orderedLines env level ig (nextNum a) items with
          | error e => simp [h3] at h
          | ok r =>
            obtain ⟨r', hr'⟩ := ih h3 (nextNum b)
            rw [hr']
            exact ⟨_, rfl⟩

/-- C27, exactly when it holds: a parsed ordered list with content converts at level `lvl` iff it has
attrs or is nested, and the texts of its list items exist. -/
theorem C27_partial_exact (env : Env) (n : Node) (l : Option Int) (lvl : Nat) (kids : List Node)
    (hp : Spec.Parsed n) (hl : l.getD 0 = lvl) (hn : n.cls = .orderedList) (hc : n.content = .val kids)
    (hk : ∀ k ∈ kids, Spec.HasType k ∧ (k.cls = .listItem → Spec.Proper k)) :
    (∃ v, n.toMarkdownAt env l false = .ok v) ↔
      (1 ≤ lvl ∨ n.hd.attrs ≠ .opt) ∧
      ∃ ts, List.Forall₂ (Spec.ItemText env .orderedList lvl) (Spec.itemsOf kids) ts := by
  rw [dispatch_ordered env n l false hn, hl, hc, slotItems_val]
  unfold orderedListMd
  simp only [iterSlot]
  constructor
  · rintro ⟨v, h⟩
    obtain ⟨s, h1, rfl⟩ := strVal_str h
    have h0 : 1 ≤ lvl ∨ n.hd.attrs ≠ .opt := by
      by_cases hlv : 1 ≤ lvl
      · exact .inl hlv
      · refine .inr fun ho => ?_
        have : lvl = 0 := by omega
        subst this
        rw [ho] at h1
        simp [orderedStart, getAttr] at h1
    refine ⟨h0, ?_⟩
    cases hs : orderedStart n.hd.attrs (lvl : Int) with
    | error e => rw [hs] at h1; simp at h1
    | ok st =>
      rw [hs] at h1
      cases hb : orderedLines env lvl false st (kids.map (Node.item env)) with
      | error e => simp only [hb] at h1; cases h1
      | ok ls =>
        obtain ⟨ls', hb'⟩ := orderedLines_start hb (.int 1)
        obtain ⟨ts, hts, _⟩ := (orderedLines_ok env lvl kids hk 1 ls').mp hb'
        exact ⟨ts, hts⟩
  · rintro ⟨h0, ts, hts⟩
    have hst : ∃ st, orderedStart n.hd.attrs (lvl : Int) = .ok st := by
      unfold orderedStart
      by_cases hlv : (lvl : Int) = 0
      · rw [if_pos hlv]
        rcases parsed_attrs_cases hp (by rw [hn]; decide) with h1 | h1
        · exact absurd h1 (h0.resolve_left (by omega))
        · obtain ⟨v, hv⟩ := h1 "order" (by rw [hn]; decide)
          rw [getAttr_eq hv]
          by_cases hi : v.asInt?.isSome = true
          · exact ⟨v, by simp [hi]⟩
          · exact ⟨.int 1, by simp [hi]⟩
      · exact ⟨.int 1, if_neg hlv⟩
    obtain ⟨st, hst⟩ := hst
    obtain ⟨ls', hb'⟩ := orderedLines_start
      ((orderedLines_ok env lvl kids hk 1 _).mpr ⟨ts, hts, rfl⟩) st
    rw [hst]
    simp only [hb']
    exact ⟨_, rfl⟩

example : Spec.Parsed (Samples.ordered (Samples.orderAttrs 9) [Samples.item []]) ∧
    (∃ v, (Samples.ordered (Samples.orderAttrs 9) [Samples.item []]).toMarkdownAt Samples.env none false = .ok v) :=
  ⟨⟨true, Samples.j "orderedList" [("attrs", .dict [("order", .int 9)]), ("content", .list [Samples.j "listItem"
    [("content", .list [])]])], rfl⟩, _, rfl⟩

/-! ## C45 and C41 -/

/-- `s` occurs in `out` as whole lines, except that its first line may follow a list marker (a text
ending in `- ` or `. `) on the same line. -/
def _root_.Verif.Spec.LinesOf (s out : Str) : Prop :=
  ∃ a b, out = a ++ s ++ b ∧
    (a = [] ∨ (∃ a', a = a' ++ ['\n']) ∨ (∃ a', a = a' ++ ['-', ' ']) ∨ (∃ a', a = a' ++ ['.', ' '])) ∧
    (b = [] ∨ ∃ b', b = '\n' :: b')

theorem linesOf_refl (s : Str) : Spec.LinesOf s s := ⟨[], [], by simp, .inl rfl, .inl rfl⟩

theorem linesOf_mem {p : Str} {ps : List Str} (h : p ∈ ps) : Spec.LinesOf p (Spec.lines ps) := by
  unfold Spec.lines
  simp only [lines_eq]
  obtain ⟨l, r, rfl⟩ := List.append_of_mem h
  have hr : ∃ b, Str.join ['\n'] (p :: r) = p ++ b ∧ (b = [] ∨ ∃ b', b = '\n' :: b') := by
    cases r with
    | nil => exact ⟨[], by simp [Str.join], .inl rfl⟩
    | cons x r => exact ⟨_, by rw [join_cons_cons, List.append_assoc]; rfl, .inr ⟨_, rfl⟩⟩
  obtain ⟨b, hb, hb'⟩ := hr
  cases l with
  | nil => exact ⟨[], b, by simpa using hb, .inl rfl, hb'⟩
  | cons x l =>
    refine ⟨Str.join ['\n'] (x :: l) ++ ['\n'], b, ?_, .inr (.inl ⟨_, rfl⟩), hb'⟩
    rw [join_append _ (by simp) (by simp), hb]
    simp

theorem linesOf_trans {s t u : Str} (h1 : Spec.LinesOf s t) (h2 : Spec.LinesOf t u) : Spec.LinesOf s u := by
  obtain ⟨a, b, rfl, ha, hb⟩ := h1
  obtain ⟨a', b', rfl, ha', hb'⟩ := h2
  refine ⟨a' ++ a, b ++ b', by simp, ?_, ?_⟩
  · rcases ha with rfl | ⟨x, rfl⟩ | ⟨x, rfl⟩ | ⟨x, rfl⟩
    · simpa using ha'
    · exact .inr (.inl ⟨a' ++ x, by simp⟩)
    · exact .inr (.inr (.inl ⟨a' ++ x, by simp⟩))
    · exact .inr (.inr (.inr ⟨a' ++ x, by simp⟩))
  · rcases hb with rfl | ⟨x, rfl⟩
    · simpa using hb'
    · exact .inr ⟨x ++ b', by simp⟩

/-- The text behind a marker. -/
theorem linesOf_marker {s m t : Str}
    (hm : (∃ a', m = a' ++ ['-', ' ']) ∨ (∃ a', m = a' ++ ['.', ' '])) (h : Spec.LinesOf s t) :
    Spec.LinesOf s (m ++ t) :=
  linesOf_trans h ⟨m, [], by simp, by
    rcases hm with h | h
    · exact .inr (.inr (.inl h))
    · exact .inr (.inr (.inr h)), .inl rfl⟩

theorem wf_listOk {n : Node} (h : Spec.WellFormed n) {kids : List Node} (hc : n.content = .val kids) :
    (∀ k ∈ kids, Spec.WellFormed k) := by
  cases h with
  | leaf _ h => rw [hc] at h; simp at h
  | node _ h hk => rw [hc] at h; cases h; exact hk

theorem wf_hasType {n : Node} (h : Spec.WellFormed n) : Spec.HasType n := by
  cases h with
  | leaf ht _ => exact ht
  | node ht _ _ => exact ht

theorem wf_proper {n : Node} (h : Spec.WellFormed n) : Spec.Proper n := by
  constructor
  · intro v hv
    cases h with
    | leaf _ h => rw [hv] at h; simp at h
    | node _ h _ => rw [hv] at h; simp at h
  · intro ks hks k hk
    exact wf_hasType (wf_listOk h hks k hk)

theorem forall2_mem_left {α β : Type} {R : α → β → Prop} {l : List α} {l' : List β}
    (h : List.Forall₂ R l l') {a : α} (ha : a ∈ l) : ∃ b ∈ l', R a b := by
  induction h with
  | nil => simp at ha
  | cons h1 _ ih =>
    rcases List.mem_cons.mp ha with rfl | ha
    · exact ⟨_, by simp, h1⟩
    · obtain ⟨b, hb, hr⟩ := ih ha; exact ⟨b, by simp [hb], hr⟩

/-- C45, one step: a bullet list inside a list item of a bullet list that converts at level `lvl`
converts at level `lvl+1`, and its Markdown at that level appears as lines of the outer one. -/
theorem bullet_step (env : Env) (n item c : Node) (kids ks : List Node) (l : Option Int) (lvl : Nat)
    (hl : l.getD 0 = lvl) (hn : n.cls = .bulletList)
    (hc : n.content = .val kids)
    (hk : ∀ k ∈ kids, Spec.HasType k ∧ (k.cls = .listItem → Spec.Proper k)) (hi : item ∈ kids)
    (hic : item.cls = .listItem) (hks : item.content = .val ks) (hm : c ∈ ks) (hcc : c.cls = .bulletList)
    (s : Str) (h : n.toMarkdownAt env l false = .ok (.str s)) :
    ∃ t, c.toMarkdownAt env (some (lvl + 1 : Nat)) false = .ok (.str t) ∧ Spec.LinesOf t s := by
  obtain ⟨ts, hts, e⟩ := (C25_bullets env n l lvl kids hl hn hc hk _).mp h
  have himem : item ∈ Spec.itemsOf kids := by
    unfold Spec.itemsOf; exact List.mem_filter.mpr ⟨hi, by simp [hic]⟩
  obtain ⟨t, htm, ks', ps, hks', hps, rfl⟩ := forall2_mem_left hts himem
  rw [hks] at hks'; cases hks'
  obtain ⟨p, hpm, hp⟩ := forall2_mem_left hps hm
  refine ⟨p, hp.1 hcc, ?_⟩
  simp only [Val.str.injEq] at e
  rw [e]
  refine linesOf_trans (linesOf_marker (m := Spec.spaces (4 * lvl) ++ "- ".toList) (.inl ⟨_, rfl⟩)
    (linesOf_mem hpm)) (linesOf_mem ?_)
  exact List.mem_map.mpr ⟨_, htm, rfl⟩

/-- C45: a bullet list nested `k` levels deep (through list items) in a bullet list that converts is
rendered at level `k`: its Markdown at level `k` appears as lines of the whole. -/
theorem C45_depth (env : Env) (n m : Node) (k : Nat) (hw : Spec.WellFormed n)
    (hn : n.cls = .bulletList) (hnest : Spec.Nested .bulletList k n m)
    (l : Option Int) (lvl : Nat) (hl : l.getD 0 = lvl)
    (s : Str) (h : n.toMarkdownAt env l false = .ok (.str s)) :
    ∃ t, m.toMarkdownAt env (some (lvl + k : Nat)) false = .ok (.str t) ∧ Spec.LinesOf t s := by
  induction hnest generalizing l lvl s with
  | here n =>
    refine ⟨s, ?_, linesOf_refl s⟩
    rw [dispatch_bullet env n _ false hn] at h ⊢
    rw [hl] at h
    exact h
  | @step n item c m kids ks k hc hi hic hks hm hcc hnest ih =>
    have hwk := wf_listOk hw hc
    have hok : ∀ x ∈ kids, Spec.HasType x ∧ (x.cls = .listItem → Spec.Proper x) := by
      intro x hx
      exact ⟨wf_hasType (hwk x hx), fun _ => wf_proper (hwk x hx)⟩
    obtain ⟨t, ht, hlo⟩ := bullet_step env n item c kids ks l lvl hl hn hc hok hi hic hks hm hcc s h
    obtain ⟨u, hu, hlo2⟩ := ih (wf_listOk (hwk item hi) hks c hm) hcc
      (some (lvl + 1 : Nat)) (lvl + 1) rfl t ht
    exact ⟨u, by rw [show lvl + (k + 1) = lvl + 1 + k by omega]; exact hu, linesOf_trans hlo2 hlo⟩

/-- C45: every bullet of a list at level `k` is preceded by exactly `4*k` spaces. -/
theorem C45_indent (env : Env) (m : Node) (k : Nat) (kids : List Node) (hm : m.cls = .bulletList)
    (hc : m.content = .val kids)
    (hk : ∀ k ∈ kids, Spec.HasType k ∧ (k.cls = .listItem → Spec.Proper k)) (t : Str)
    (h : m.toMarkdownAt env (some (k : Nat)) false = .ok (.str t)) :
    ∃ ts : List Str, ts.length = (Spec.itemsOf kids).length ∧
      t = Spec.lines (ts.map fun x => List.replicate (4 * k) ' ' ++ "- ".toList ++ x) := by
  obtain ⟨ts, hts, e⟩ := (C25_bullets env m _ k kids rfl hm hc hk _).mp h
  exact ⟨ts, hts.length_eq.symm, by simpa [Spec.spaces] using e⟩

/-- Three levels, the innermost two as first children. -/
def deepList : Node :=
  Samples.bullets [Samples.item [Samples.para [Samples.text "a"], Samples.bullets
    [Samples.item [Samples.bullets [Samples.item [Samples.para [Samples.text "b"]],
      Samples.item [Samples.para [Samples.text "c"]]]]]]]

example : deepList.toMarkdown Samples.env false =
    .ok (Samples.str "- a\n    -         - b\n        - c") := rfl
theorem deepList_nested : Spec.Nested .bulletList 2 deepList (Samples.bullets [Samples.item [Samples.para [Samples.text "b"]],
      Samples.item [Samples.para [Samples.text "c"]]]) :=
  .step rfl (List.mem_singleton.mpr rfl) rfl rfl
    (List.mem_cons_of_mem _ (List.mem_singleton.mpr rfl)) rfl
    (.step rfl (List.mem_singleton.mpr rfl) rfl rfl (List.mem_singleton.mpr rfl) rfl (.here _))

/-- C41 is false of the code: a bullet list in an item of an ordered list is not indented, and
Markdown readers see a new list. -/
theorem C41_false : ∃ n, Spec.Parsed n ∧ n.cls = .orderedList ∧
    n.content = .val [Samples.item [Samples.para [Samples.text "a"],
      Samples.bullets [Samples.item [Samples.para [Samples.text "b"]]]]] ∧
    n.toMarkdown Samples.env false = .ok (Samples.str "1. a\n- b") :=
  ⟨Samples.ordered (Samples.orderAttrs 1) [Samples.item [Samples.para [Samples.text "a"],
      Samples.bullets [Samples.item [Samples.para [Samples.text "b"]]]]],
   ⟨true, Samples.j "orderedList" [("attrs", .dict [("order", .int 1)]), ("content", .list [
      Samples.j "listItem" [("content", .list [
        Samples.j "paragraph" [("content", .list [Samples.j "text" [("text", Samples.str "a")]])],
        Samples.j "bulletList" [("content", .list [Samples.j "listItem" [("content", .list [
          Samples.j "paragraph" [("content", .list [Samples.j "text" [("text", Samples.str "b")]])]])]])]])]])],
    rfl⟩, rfl, rfl, rfl⟩

/-- C41 where it holds: a list nested in a list item of a list of the same class is rendered one
level, i.e. four spaces, deeper.  Missing from C41: lists of another class, which are rendered at
level 0 (`Spec.Part`). -/
theorem C41_partial (env : Env) (n item c : Node) (kids ks : List Node) (l : Option Int) (lvl : Nat)
    (start : Int) (hl : l.getD 0 = lvl)
    (hn : n.cls = .bulletList ∨ (n.cls = .orderedList ∧ Spec.StartNumber n lvl start))
    (hc : n.content = .val kids)
    (hk : ∀ k ∈ kids, Spec.HasType k ∧ (k.cls = .listItem → Spec.Proper k)) (hi : item ∈ kids)
    (hic : item.cls = .listItem) (hks : item.content = .val ks) (hm : c ∈ ks) (hcc : c.cls = n.cls)
    (s : Str) (h : n.toMarkdownAt env l false = .ok (.str s)) :
    ∃ t, c.toMarkdownAt env (some (lvl + 1 : Nat)) false = .ok (.str t) ∧ Spec.LinesOf t s := by
  rcases hn with hn | ⟨hn, hst⟩
  · exact bullet_step env n item c kids ks l lvl hl hn hc hk hi hic hks hm (by rw [hcc, hn]) s h
  · obtain ⟨ts, hts, e⟩ := (C26_numbers env n l lvl start kids hl hn hst hc hk _).mp h
    have himem : item ∈ Spec.itemsOf kids := by
      unfold Spec.itemsOf; exact List.mem_filter.mpr ⟨hi, by simp [hic]⟩
    obtain ⟨t, htm, ks', ps, hks', hps, rfl⟩ := forall2_mem_left hts himem
    rw [hks] at hks'; cases hks'
    obtain ⟨p, hpm, hp⟩ := forall2_mem_left hps hm
    refine ⟨p, hp.1 (by rw [hcc, hn]), ?_⟩
    simp only [Val.str.injEq] at e
    rw [e]
    obtain ⟨k, hk1, hk2⟩ := List.getElem_of_mem htm
    refine linesOf_trans (linesOf_marker (m := Spec.spaces (4 * lvl) ++ (toString (start + k)).toList ++ ". ".toList)
      (.inr ⟨_, rfl⟩) (linesOf_mem hpm)) (linesOf_mem ?_)
    have := C26_kth lvl start ts k
    rw [List.getElem?_eq_getElem hk1, hk2] at this
    exact List.mem_of_getElem? this

/-- C41, what happens otherwise: any child of a list item that is no list of the same class, in
particular a list of the other class at whatever depth, is rendered at level 0: the Markdown it has on
its own, without trailing whitespace, appears as lines of the whole.  For a nested list this means that
its markers are not indented (`C25_bullets`, `C26_numbers` with level 0). -/
theorem C41_partial_other (env : Env) (n item c : Node) (kids ks : List Node) (l : Option Int) (lvl : Nat)
    (start : Int) (hl : l.getD 0 = lvl)
    (hn : n.cls = .bulletList ∨ (n.cls = .orderedList ∧ Spec.StartNumber n lvl start))
    (hc : n.content = .val kids)
    (hk : ∀ k ∈ kids, Spec.HasType k ∧ (k.cls = .listItem → Spec.Proper k)) (hi : item ∈ kids)
    (hic : item.cls = .listItem) (hks : item.content = .val ks) (hm : c ∈ ks) (hcc : c.cls ≠ n.cls)
    (s : Str) (h : n.toMarkdownAt env l false = .ok (.str s)) :
    ∃ t, c.toMarkdown env false = .ok (.str t) ∧ Spec.LinesOf (Spec.trimEnd t) s := by
  have himem : item ∈ Spec.itemsOf kids := by
    unfold Spec.itemsOf; exact List.mem_filter.mpr ⟨hi, by simp [hic]⟩
  rcases hn with hn | ⟨hn, hst⟩
  · obtain ⟨ts, hts, e⟩ := (C25_bullets env n l lvl kids hl hn hc hk _).mp h
    obtain ⟨t, htm, ks', ps, hks', hps, rfl⟩ := forall2_mem_left hts himem
    rw [hks] at hks'; cases hks'
    obtain ⟨p, hpm, hp⟩ := forall2_mem_left hps hm
    obtain ⟨u, hu, rfl⟩ := hp.2 (by rw [← hn]; exact hcc)
    refine ⟨u, hu, ?_⟩
    simp only [Val.str.injEq] at e
    rw [e]
    refine linesOf_trans (linesOf_marker (m := Spec.spaces (4 * lvl) ++ "- ".toList) (.inl ⟨_, rfl⟩)
      (linesOf_mem hpm)) (linesOf_mem ?_)
    exact List.mem_map.mpr ⟨_, htm, rfl⟩
  · obtain ⟨ts, hts, e⟩ := (C26_numbers env n l lvl start kids hl hn hst hc hk _).mp h
    obtain ⟨t, htm, ks', ps, hks', hps, rfl⟩ := forall2_mem_left hts himem
    rw [hks] at hks'; cases hks'
    obtain ⟨p, hpm, hp⟩ := forall2_mem_left hps hm
    obtain ⟨u, hu, rfl⟩ := hp.2 (by rw [← hn]; exact hcc)
    refine ⟨u, hu, ?_⟩
    simp only [Val.str.injEq] at e
    rw [e]
    obtain ⟨k, hk1, hk2⟩ := List.getElem_of_mem htm
    refine linesOf_trans (linesOf_marker (m := Spec.spaces (4 * lvl) ++ (toString (start + k)).toList ++ ". ".toList)
      (.inr ⟨_, rfl⟩) (linesOf_mem hpm)) (linesOf_mem ?_)
    have := C26_kth lvl start ts k
    rw [List.getElem?_eq_getElem hk1, hk2] at this
    exact List.mem_of_getElem? this

/-! ### The theorems on samples -/

/-- A list with a two-paragraph item, a nested list and a list of the other kind. -/
def listKids : List Node :=
  [Samples.item [Samples.para [Samples.text "a"], Samples.para [Samples.text "b"],
     Samples.bullets [Samples.item [Samples.para [Samples.text "c"]]]],
   Samples.item [Samples.ordered (Samples.orderAttrs 4) [Samples.item [Samples.para [Samples.text "d"]]]]]

example := C25_bullets Samples.env (Samples.bullets listKids) (some 2) 2 listKids rfl rfl rfl (Samples.items_of rfl)

example := C25_line_by_line 1 ["a\nb".toList, "c".toList] (by decide)

example := C26_numbers Samples.env (Samples.ordered (Samples.orderAttrs 9) listKids) none 0 9 listKids rfl rfl
  (.inr ⟨rfl, .inl rfl⟩) rfl (Samples.items_of rfl)

example := C26_start_exists (Samples.parse (Samples.j "orderedList" [("attrs", .dict [("order", .int 9)]), ("content", .list [])]))
  (Samples.parsed rfl) rfl 0 (.inr nofun) nofun

example := C27_false Samples.env (Samples.ordered .opt [Samples.item []]) false rfl rfl

example := C27_partial Samples.env (Samples.ordered .opt listKids) (some 1) 1 listKids rfl rfl rfl (Samples.items_of rfl)
  (.inl (by decide))

example := C27_partial_exact Samples.env
  (Samples.parse (Samples.j "orderedList" [("attrs", .dict [("order", .int 9)]), ("content", .list
    [Samples.j "listItem" [("content", .list [Samples.j "paragraph" [("content", .list [])]])]])])) none 0
  [Samples.item [Samples.para []]] (Samples.parsed rfl) rfl rfl rfl (Samples.items_of rfl)

example := C45_depth Samples.env deepList _ 2 (Samples.wellFormed_of 9 rfl) rfl deepList_nested none 0 rfl
  "- a\n    -         - b\n        - c".toList rfl

example := C45_indent Samples.env (Samples.bullets [Samples.item [Samples.para [Samples.text "b"]],
    Samples.item [Samples.para [Samples.text "c"]]]) 2 _ rfl rfl (Samples.items_of rfl) "        - b\n        - c".toList rfl

example := C41_partial Samples.env (Samples.bullets [Samples.item [Samples.bullets [Samples.item [Samples.para [Samples.text "b"]]]]])
  (Samples.item [Samples.bullets [Samples.item [Samples.para [Samples.text "b"]]]])
  (Samples.bullets [Samples.item [Samples.para [Samples.text "b"]]]) _ _ none 0 1 rfl (.inl rfl) rfl
  (Samples.items_of rfl) List.mem_cons_self rfl rfl List.mem_cons_self rfl "-     - b".toList rfl

example := C41_partial_other Samples.env (Samples.bullets [Samples.item [Samples.ordered (Samples.orderAttrs 4) [Samples.item [Samples.para [Samples.text "b"]]]]])
  (Samples.item [Samples.ordered (Samples.orderAttrs 4) [Samples.item [Samples.para [Samples.text "b"]]]])
  (Samples.ordered (Samples.orderAttrs 4) [Samples.item [Samples.para [Samples.text "b"]]]) _ _ none 0 1 rfl (.inl rfl) rfl
  (Samples.items_of rfl) List.mem_cons_self rfl rfl List.mem_cons_self (by decide) "- 4. b".toList rfl

end Verif.Props
