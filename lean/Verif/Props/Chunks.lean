import Mathlib.Data.List.Chain
import Verif.Spec.Chunks
import Verif.Lemmas.Chunks
import Verif.Props.Docs
import Verif.Props.Tables
import Verif.Props.Tasks
/-!
# C82: blocks are separated
-/

namespace Verif.Props
open Verif Spec

theorem chunks_blocks {kids : List Node} {ss : List Str} (h : kids.length = ss.length) :
    (List.zipWith padded kids ss).map chunks = ss.map chunks := by
  induction kids generalizing ss with
  | nil => cases ss with | nil => rfl | cons => cases h
  | cons k kids ih =>
    cases ss with
    | nil => cases h
    | cons s ss =>
      simp only [List.length_cons, Nat.add_right_cancel_iff] at h
      rw [List.zipWith_cons_cons, List.map_cons, List.map_cons, chunks_padded, ih h]

theorem chunks_empty : chunks [] = [] := by rw [chunks_eq]; exact groups_blank (by rfl) |>.trans groups_nil

/-- C82, exactly: the number of chunks of a document is that of its blocks, less one for every block that touches
the next one. -/
theorem C82_partial_count (env : Env) (n : Node) (kids : List Node) (hn : n.cls = .doc) (hc : n.content = .val kids)
    (hk : ∀ k ∈ kids, HasType k) (ss : List Str) (hss : MdAll env kids ss) (s : Str) (h : Md env n s) :
    (chunks s).length + touches (List.zipWith padded kids ss) = (ss.map fun t => (chunks t).length).sum := by
  obtain ⟨ss', h1, h2⟩ := (C42_blocks_in_order env n kids hn hc hk _).mp h
  obtain rfl := mdAll_unique hss h1
  cases h2
  rw [docText, chunks_cleaned, blocks]
  cases hss with
  | nil => simp [lines, chunks_empty, touches]
  | cons a b =>
    rw [(chunks_lines _ (by simp)).2, chunks_blocks (by simp [b.length_eq]), List.length_flatten, List.map_map]
    rfl

/-- C82, exactly when it holds: the chunks of the document are those of its blocks iff no block touches the next one. -/
theorem C82_partial (env : Env) (n : Node) (kids : List Node) (hn : n.cls = .doc) (hc : n.content = .val kids)
    (hk : ∀ k ∈ kids, HasType k) (ss : List Str) (hss : MdAll env kids ss) (s : Str) (h : Md env n s) :
    chunks s = (ss.map chunks).flatten ↔ (List.zipWith padded kids ss).IsChain fun a b => ¬ Touch a b := by
  have hcount := C82_partial_count env n kids hn hc hk ss hss s h
  obtain ⟨ss', h1, h2⟩ := (C42_blocks_in_order env n kids hn hc hk _).mp h
  obtain rfl := mdAll_unique hss h1
  cases h2
  rw [← touches_zero]
  constructor
  · intro e
    rw [e, List.length_flatten, List.map_map] at hcount
    change (ss.map fun t => (chunks t).length).sum + _ = _ at hcount
    omega
  · intro h0
    rw [docText, chunks_cleaned, blocks]
    cases hss with
    | nil => simp [lines, chunks_empty]
    | cons a b => rw [(chunks_lines _ (by simp)).1 h0, chunks_blocks (by simp [b.length_eq])]

/-! ## Which blocks touch -/

theorem lastBlank_nl (t : Str) : lastBlank (Str.splitNL (t ++ ['\n'])) = true := by
  rw [splitNL_append_gen, lastBlank_append _ _ (splitNL_ne_nil _)]
  rfl

theorem headBlank_nl (t : Str) : headBlank (Str.splitNL ('\n' :: t)) = true := by
  rw [splitNL_nl]; rfl

theorem closed_end (env : Env) (k : Node) (s : Str) (h : Md env k s) (hc : k.cls ∈ closedEnd) :
    lastBlank (Str.splitNL (padded k s)) = true := by
  have hp : (∃ t, padded k s = t ++ ['\n']) ∨ padded k s = [] := by
    unfold Md at h
    rw [toMarkdown_eq] at h
    unfold dispatch at h
    have hk : k.hd.cls = k.cls := rfl
    unfold padded
    generalize hcl : k.cls = c at *
    simp only [hk, Option.isSome_none, Bool.false_and, Bool.false_eq_true, if_false] at h
    simp only [closedEnd, List.mem_cons, List.not_mem_nil, or_false] at hc
    rcases hc with rfl | rfl | rfl | rfl | rfl | rfl | rfl | rfl | rfl | rfl | rfl <;> dsimp only at h ⊢
    · obtain ⟨u, h1, h2⟩ := strVal_str h
      cases h2
      unfold paragraphMd at h1
      split at h1 <;> try cases h1
      split at h1 <;> try cases h1
      exact .inl ⟨_, rfl⟩
    · obtain ⟨u, h1, h2⟩ := strVal_str h
      cases h2
      unfold headingMd at h1
      split at h1 <;> try cases h1
      split at h1 <;> try cases h1
      split at h1 <;> try cases h1
      exact .inl ⟨_, (List.append_assoc _ ['\n'] ['\n']).symm⟩
    · cases h; exact .inl ⟨"\n\n---\n".toList, rfl⟩
    · obtain ⟨u, h1, h2⟩ := strVal_str h
      cases h2
      unfold blockquoteMd at h1
      split at h1 <;> try cases h1
      exact .inl ⟨_, rfl⟩
    · obtain ⟨u, h1, h2⟩ := strVal_str h
      cases h2
      unfold panelMd at h1
      split at h1 <;> try cases h1
      split at h1 <;> try cases h1
      split at h1 <;> try cases h1
      exact .inl ⟨_, rfl⟩
    · exact .inl ⟨_, rfl⟩
    · exact .inl ⟨_, rfl⟩
    · exact .inl ⟨_, rfl⟩
    · obtain ⟨u, h1, h2⟩ := strVal_str h
      cases h2
      unfold blockCardMd at h1
      split at h1 <;> try cases h1
      split at h1 <;> try cases h1
      exact .inl ⟨_, rfl⟩
    · obtain ⟨u, h1, h2⟩ := strVal_str h
      cases h2
      unfold embedCardMd at h1
      split at h1 <;> try cases h1
      exact .inl ⟨_, rfl⟩
    · cases h; exact .inr rfl
  rcases hp with ⟨t, e⟩ | e
  · rw [e]; exact lastBlank_nl t
  · rw [e]; rfl

theorem closed_start (env : Env) (k : Node) (s : Str) (h : Md env k s) (hc : k.cls ∈ closedStart) :
    headBlank (Str.splitNL (padded k s)) = true := by
  have hp : (∃ t, padded k s = '\n' :: t) ∨ padded k s = [] := by
    unfold Md at h
    rw [toMarkdown_eq] at h
    unfold dispatch at h
    have hk : k.hd.cls = k.cls := rfl
    unfold padded
    generalize hcl : k.cls = c at *
    simp only [hk, Option.isSome_none, Bool.false_and, Bool.false_eq_true, if_false] at h
    simp only [closedStart, List.mem_cons, List.not_mem_nil, or_false] at hc
    rcases hc with rfl | rfl | rfl | rfl | rfl | rfl | rfl | rfl <;> dsimp only at h ⊢
    · obtain ⟨u, h1, h2⟩ := strVal_str h
      cases h2
      unfold headingMd at h1
      split at h1 <;> try cases h1
      split at h1 <;> try cases h1
      split at h1 <;> try cases h1
      exact .inl ⟨_, rfl⟩
    · cases h; exact .inl ⟨_, rfl⟩
    · exact .inl ⟨_, rfl⟩
    · exact .inl ⟨_, rfl⟩
    · exact .inl ⟨_, rfl⟩
    · obtain ⟨u, h1, h2⟩ := strVal_str h
      cases h2
      unfold blockCardMd at h1
      split at h1 <;> try cases h1
      split at h1 <;> try cases h1
      exact .inl ⟨_, rfl⟩
    · obtain ⟨u, h1, h2⟩ := strVal_str h
      cases h2
      unfold embedCardMd at h1
      split at h1 <;> try cases h1
      exact .inl ⟨_, rfl⟩
    · cases h; exact .inr rfl
  rcases hp with ⟨t, e⟩ | e
  · rw [e]; exact headBlank_nl t
  · rw [e]; rfl

/-- C82 holds for every document in which, of any two consecutive blocks, the first is one that always ends with an
empty line or the second one that always begins with one. -/
theorem C82_partial_classes (env : Env) (n : Node) (kids : List Node) (hn : n.cls = .doc) (hc : n.content = .val kids)
    (hk : ∀ k ∈ kids, HasType k) (ss : List Str) (hss : MdAll env kids ss) (s : Str) (h : Md env n s)
    (hcl : kids.IsChain fun a b => a.cls ∈ closedEnd ∨ b.cls ∈ closedStart) :
    chunks s = (ss.map chunks).flatten := by
  rw [C82_partial env n kids hn hc hk ss hss s h]
  clear h hk hc
  induction hss with
  | nil => simp
  | @cons k t kids ss a b ih =>
    cases b with
    | nil => simp
    | @cons k' t' kids ss a' b =>
      rw [List.isChain_cons_cons] at hcl
      simp only [List.zipWith_cons_cons, List.isChain_cons_cons]
      refine ⟨?_, ih hcl.2⟩
      rw [touch_iff]
      rintro ⟨h1, h2⟩
      rcases hcl.1 with h3 | h3
      · rw [closed_end env k t a h3] at h1; cases h1
      · rw [closed_start env k' t' a' h3] at h2; cases h2

/-! ## Tables and task lists always run into the following paragraph -/

theorem lastBlank_lines {l : List Str} (hne : l ≠ []) (h : ∀ t ∈ l, lastBlank (Str.splitNL t) = false) :
    lastBlank (Str.splitNL (lines l)) = false := by
  unfold lines
  rw [lines_eq, splitNL_join_flatMap hne]
  induction l with
  | nil => exact absurd rfl hne
  | cons t l ih =>
    cases l with
    | nil => simpa using h t (by simp)
    | cons u l =>
      rw [List.flatMap_cons, lastBlank_append _ _ (by simp [splitNL_ne_nil])]
      exact ih (by simp) fun x hx => h x (by simp [hx])

theorem lastBlank_of_mem {s : Str} {c : Char} (hs : '\n' ∉ s) (hc : c ∈ s) (h1 : c ≠ ' ') (h2 : c ≠ '\t') :
    lastBlank (Str.splitNL s) = false := by
  rw [splitNL_of_noNL hs]
  show blankLine s = false
  rw [Bool.eq_false_iff]
  intro hb
  have := List.all_eq_true.mp hb c hc
  simp [h1, h2] at this

theorem table_open (env : Env) (n : Node) (rows : List Node) (hn : n.cls = .table)
    (hc : n.content = .val rows) (hne : rows ≠ [])
    (hk : ∀ r ∈ rows, r.cls = .tableRow ∧ Proper r ∧ ∀ ks, r.content = .val ks → ∀ k ∈ ks, isCell k)
    (s : Str) (h : Md env n s) : lastBlank (Str.splitNL (padded n s)) = false := by
  obtain ⟨lss, h1, e⟩ := (C32_table env n rows hn hc
    (fun r hr => ⟨by rw [(hk r hr).1]; decide, (hk r hr).2.1⟩) _).mp h
  cases e
  have hp : padded n (lines lss.flatten) = lines lss.flatten := by unfold padded; rw [hn]
  rw [hp]
  have key : (rows ≠ [] → lss.flatten ≠ []) ∧ ∀ l ∈ lss.flatten, lastBlank (Str.splitNL l) = false := by
    clear h hc hne hp
    induction h1 with
    | nil => simp
    | @cons r ls rows lss hr _ ih =>
      obtain ⟨_, ih2⟩ := ih (fun x hx => hk x (by simp [hx]))
      obtain ⟨hcls, _, hcell⟩ := hk r (by simp)
      have hrl := hr
      obtain ⟨s, first, rest, hi, hc, ha, hb⟩ := hr
      obtain ⟨s', cs, e, _, hnl, _, _⟩ := C31_one_line env r _ false hcls hc (hcell _ hc) _ hi
      cases e
      obtain ⟨cs', _, e'⟩ := (C31_row env r _ false hcls hc (hcell _ hc) _).mp hi
      have hbar : ∀ cs, '|' ∈ rowLine cs := fun cs => by simp [rowLine]
      have hs : lastBlank (Str.splitNL s) = false := by
        cases e'
        exact lastBlank_of_mem hnl (hbar _) (by decide) (by decide)
      by_cases hh : first.cls = .tableHeader
      · obtain ⟨s2, sep, e, _, _, hsep⟩ := C32_same_width env r first rest ls hcls hc (hcell _ hc) hh hrl
        rw [ha hh] at e
        have e2 : sep = rowLine (List.replicate (rest.length + 1) "---".toList) := by
          have := (List.cons.inj e).2
          exact (List.cons.inj this).1.symm
        rw [ha hh]
        refine ⟨fun _ => by simp, ?_⟩
        intro l hl
        simp only [List.flatten_cons, List.mem_append, List.mem_cons, List.not_mem_nil, or_false] at hl
        rcases hl with (rfl | rfl) | hl
        · exact hs
        · rw [← e2]; exact lastBlank_of_mem hsep (e2 ▸ hbar _) (by decide) (by decide)
        · exact ih2 l hl
      · rw [hb hh]
        refine ⟨fun _ => by simp, ?_⟩
        intro l hl
        simp only [List.flatten_cons, List.mem_append, List.mem_cons, List.not_mem_nil, or_false] at hl
        rcases hl with rfl | hl
        · exact hs
        · exact ih2 l hl
  exact lastBlank_lines (key.1 hne) key.2

theorem lastBlank_of_last {s : Str} {c : Char} (h1 : c ≠ ' ') (h2 : c ≠ '\t') (h3 : c ≠ '\n') :
    lastBlank (Str.splitNL (s ++ [c])) = false := by
  obtain ⟨i, l, _, e⟩ := splitNL_snoc s c h3
  rw [e, lastBlank_append _ _ (by simp)]
  show blankLine (l ++ [c]) = false
  simp [blankLine, h1, h2]

theorem trimEnd_last (s : Str) : trimEnd s = [] ∨ ∃ t c, trimEnd s = t ++ [c] ∧ blank c = false := by
  induction s with
  | nil => exact .inl rfl
  | cons a s ih =>
    rw [trimEnd]
    split
    · exact .inl rfl
    next hb =>
      rcases ih with h | ⟨t, c, h, hc⟩
      · rw [h]
        refine .inr ⟨[], a, rfl, ?_⟩
        have hs : s.all blank = true := by
          clear hb
          induction s with
          | nil => rfl
          | cons x s ih2 =>
            rw [trimEnd] at h
            split at h
            · assumption
            · cases h
        rw [List.all_cons, hs, Bool.and_true] at hb
        simpa using hb
      · exact .inr ⟨a :: t, c, by rw [h]; rfl, hc⟩

theorem tasks_open (env : Env) (n : Node) (kids : List Node) (hn : n.cls = .taskList) (hc : n.content = .val kids)
    (hne : kids ≠ [])
    (hk : ∀ k ∈ kids, k.cls = .taskItem ∧ HasType k ∧ Proper k ∧ ∃ st, attr k "state" = some st)
    (s : Str) (h : Md env n s) : lastBlank (Str.splitNL (padded n s)) = false := by
  obtain ⟨es, h1, e⟩ := (C28_partial env n none 0 kids rfl hn hc
    (fun k hk' => ⟨(hk k hk').2.1, fun _ => (hk k hk').2.2⟩) _).mp h
  cases e
  have hp : padded n (lines es) = lines es := by unfold padded; rw [hn]
  rw [hp]
  have ht : tasksOf kids = kids := by
    unfold tasksOf
    rw [List.filter_eq_self]
    intro k hk'
    simp [(hk k hk').1]
  rw [ht] at h1
  refine lastBlank_lines (by rintro rfl; cases h1; exact hne rfl) ?_
  clear ht hp h hc hne
  induction h1 with
  | nil => simp
  | @cons k e kids es he _ ih =>
    intro t htm
    rcases List.mem_cons.mp htm with rfl | htm
    · obtain ⟨ks, ss, _, _, rfl⟩ := he.1 (hk k (by simp)).1
      rcases trimEnd_last ss.flatten with h0 | ⟨u, c, h0, hc⟩
      · rw [h0]
        refine lastBlank_of_mem (c := '-') ?_ (by simp) (by decide) (by decide)
        intro hm
        have hcb : '\n' ∉ checkbox k := by
          unfold checkbox
          split
          · split <;> decide
          · decide
        simp [spaces, hcb] at hm
      · rw [h0, ← List.append_assoc]
        refine lastBlank_of_last ?_ ?_ ?_ <;> (rintro rfl; exact absurd hc (by decide))
    · exact ih (fun x hx => hk x (by simp [hx])) t htm

theorem mdAll_append {env : Env} {a b : List Node} {ss : List Str} (h : MdAll env (a ++ b) ss) :
    ∃ s1 s2, MdAll env a s1 ∧ MdAll env b s2 ∧ ss = s1 ++ s2 := by
  induction a generalizing ss with
  | nil => exact ⟨[], ss, .nil, h, rfl⟩
  | cons k a ih =>
    cases h with
    | cons h1 h2 =>
      obtain ⟨s1, s2, h3, h4, rfl⟩ := ih h2
      exact ⟨_ :: s1, s2, .cons h1 h3, h4, rfl⟩

/-- C82 is false of every document in which a block other than text follows a table with rows, or a list of tasks, and
does not begin with a blank line (a paragraph, say): the first chunk of what follows is joined to the table or list. -/
theorem C82_joined (env : Env) (n t p : Node) (pre post rows : List Node) (hn : n.cls = .doc)
    (hc : n.content = .val (pre ++ t :: p :: post)) (hk : ∀ k ∈ pre ++ t :: p :: post, HasType k)
    (hr : t.content = .val rows) (hne : rows ≠ [])
    (ht : (t.cls = .table ∧ ∀ r ∈ rows, r.cls = .tableRow ∧ Proper r ∧ ∀ ks, r.content = .val ks → ∀ k ∈ ks, isCell k) ∨
      (t.cls = .taskList ∧ ∀ k ∈ rows, k.cls = .taskItem ∧ HasType k ∧ Proper k ∧ ∃ st, attr k "state" = some st))
    (ss : List Str) (hss : MdAll env (pre ++ t :: p :: post) ss) (s : Str) (h : Md env n s)
    (u : Str) (hu : Md env p u) (hb : ∀ l, ((padded p u).splitOn '\n').head? = some l → blankLine l = false) :
    chunks s ≠ (ss.map chunks).flatten := by
  intro hcon
  rw [C82_partial env n _ hn hc hk ss hss s h] at hcon
  obtain ⟨ss1, ss2, h1, h2, rfl⟩ : ∃ ss1 ss2, MdAll env pre ss1 ∧ MdAll env (t :: p :: post) ss2 ∧ ss = ss1 ++ ss2 := by
    exact mdAll_append hss
  rw [List.zipWith_append h1.length_eq] at hcon
  have hcon := (List.isChain_append.mp hcon).2.1
  cases h2 with
  | @cons _ st _ ss2 a h2 =>
    cases h2 with
    | @cons _ sp _ ss2 b h2 =>
      simp only [List.zipWith_cons_cons, List.isChain_cons_cons] at hcon
      refine hcon.1 ((touch_iff _ _).mpr ⟨?_, ?_⟩)
      · rcases ht with ⟨h3, h4⟩ | ⟨h3, h4⟩
        · exact table_open env t rows h3 hr hne h4 st a
        · exact tasks_open env t rows h3 hr hne h4 st a
      · have : sp = u := by
          unfold Md at b hu
          rw [b] at hu
          simpa using hu
        subst this
        rw [splitOn_nl] at hb
        cases hl : Str.splitNL (padded p sp) with
        | nil => exact absurd hl (splitNL_ne_nil _)
        | cons l ls => exact hb l (by rw [hl]; rfl)

/-- A paragraph `x` after the block. -/
def beforePara (b : Val) : Val :=
  Samples.j "doc" [("content", .list [b, Samples.j "paragraph" [("content", .list [Samples.j "text" [("text", Samples.str "x")]])]])]

/-- A table, a task list, an image, an extension, a decision, and an expand with a task list. -/
def openBlocks : List Val :=
  let para := Samples.j "paragraph" [("content", .list [Samples.j "text" [("text", Samples.str "a")]])]
  let tasks := Samples.j "taskList" [("attrs", .dict [("localId", Samples.str "l")]), ("content", .list [
    Samples.j "taskItem" [("attrs", .dict [("localId", Samples.str "i"), ("state", Samples.str "TODO")]),
      ("content", .list [Samples.j "text" [("text", Samples.str "a")]])]])]
  [Samples.j "table" [("content", .list [Samples.j "tableRow" [("content", .list [
      Samples.j "tableCell" [("content", .list [para])]])]])],
   tasks,
   Samples.j "mediaSingle" [("content", .list [Samples.j "media" [("attrs", .dict [("type", Samples.str "external"),
      ("url", Samples.str "u")])]])],
   Samples.j "extension" [("attrs", .dict [("extensionKey", Samples.str "k"), ("extensionType", Samples.str "t")])],
   Samples.j "decisionList" [("attrs", .dict [("localId", Samples.str "l")]), ("content", .list [
      Samples.j "decisionItem" [("attrs", .dict [("localId", Samples.str "i"), ("state", Samples.str "DECIDED")]),
        ("content", .list [Samples.j "text" [("text", Samples.str "a")]])]])],
   Samples.j "expand" [("content", .list [tasks])]]

def strOut (x : Except PyErr Val) : Option Str :=
  match x with
  | .ok (.str s) => some s
  | _ => none

/-- The document that `v` stands for has fewer chunks than its blocks. -/
def joins (v : Val) : Bool :=
  Samples.parses v &&
  match (Samples.parse v).content with
  | .val kids =>
    (Samples.parse v).cls == .doc && kids.all (fun k => (strOut (k.toMarkdown Samples.env false)).isSome) &&
    match strOut ((Samples.parse v).toMarkdown Samples.env false) with
    | some s => (chunks s).length < (((kids.filterMap fun k => strOut (k.toMarkdown Samples.env false)).map chunks).flatten).length
    | none => false
  | _ => false

theorem joins_sound (v : Val) (h : joins v = true) : ∃ n kids ss s, (parseNode true v).out = .ok n ∧ n.cls = .doc ∧ n.content = .val kids ∧
    MdAll Samples.env kids ss ∧ Md Samples.env n s ∧ chunks s ≠ (ss.map chunks).flatten := by
  unfold joins at h
  rw [Bool.and_eq_true] at h
  obtain ⟨h0, h⟩ := h
  split at h
  next kids hc =>
    rw [Bool.and_eq_true, Bool.and_eq_true] at h
    obtain ⟨⟨h1, h2⟩, h3⟩ := h
    split at h3
    next s hs =>
      refine ⟨Samples.parse v, kids, kids.filterMap fun k => strOut (k.toMarkdown Samples.env false), s,
        Samples.out_parse h0, by simpa using h1, hc, ?_, ?_, ?_⟩
      · clear h3 hc
        induction kids with
        | nil => exact .nil
        | cons k kids ih =>
          rw [List.all_cons, Bool.and_eq_true] at h2
          obtain ⟨t, ht⟩ := Option.isSome_iff_exists.mp h2.1
          rw [List.filterMap_cons_some (f := fun k : Node => strOut (k.toMarkdown Samples.env false)) ht]
          refine .cons ?_ (ih h2.2)
          unfold Md
          unfold strOut at ht
          split at ht <;> simp_all
      · unfold Md
        unfold strOut at hs
        split at hs <;> simp_all
      · intro e
        rw [e] at h3
        simp at h3
    · cases h3
  · cases h

/-- C82 is false of the code: tables, task lists, images, extensions, decisions, and an expand that ends with one of these,
run into the paragraph that follows. -/
theorem C82_false : ∀ b ∈ openBlocks, ∃ n kids ss s, (parseNode true (beforePara b)).out = .ok n ∧ n.cls = .doc ∧
    n.content = .val kids ∧ MdAll Samples.env kids ss ∧ Md Samples.env n s ∧ chunks s ≠ (ss.map chunks).flatten := by
  have h : (openBlocks.all fun b => joins (beforePara b)) = true := by decide +kernel
  intro b hb
  exact joins_sound _ (List.all_eq_true.mp h b hb)

/-! ### The theorems on samples -/

def chunkDoc : List Node := [Samples.para [Samples.text "a"], Samples.heading 2 [Samples.text "b"],
  Samples.bullets [Samples.item [Samples.para [Samples.text "c"]]], Samples.para [Samples.text "d", Samples.hardBreak, Samples.text "e"]]

def chunkTexts : List Str := ["a\n".toList, "\n\n## b\n\n".toList, "- c".toList, "d  \ne\n".toList]

theorem chunkDoc_md : MdAll Samples.env chunkDoc chunkTexts := .cons rfl (.cons rfl (.cons rfl (.cons rfl .nil)))

example := C82_partial_count Samples.env (Samples.doc chunkDoc) chunkDoc rfl rfl (Samples.hasTypes rfl) chunkTexts chunkDoc_md _ rfl
example := C82_partial Samples.env (Samples.doc chunkDoc) chunkDoc rfl rfl (Samples.hasTypes rfl) chunkTexts chunkDoc_md _ rfl
example := C82_partial_classes Samples.env (Samples.doc chunkDoc) chunkDoc rfl rfl (Samples.hasTypes rfl) chunkTexts chunkDoc_md _ rfl
  (by simp only [chunkDoc, List.isChain_cons_cons, List.isChain_singleton]; decide)
example : chunks "a\n\n## b\n\n- c\n\nd  \ne\n".toList =
    [["a".toList], ["## b".toList], ["- c".toList], ["d  ".toList, "e".toList]] := by decide +kernel

example := C82_joined Samples.env (Samples.doc [Samples.tasks [Samples.task "TODO" (.val [Samples.text "a"])], Samples.para [Samples.text "x"]])
  (Samples.tasks [Samples.task "TODO" (.val [Samples.text "a"])]) (Samples.para [Samples.text "x"]) [] []
  [Samples.task "TODO" (.val [Samples.text "a"])] rfl rfl (Samples.hasTypes rfl) rfl (by simp)
  (.inr ⟨rfl, by
    intro k hk
    obtain rfl := List.mem_singleton.mp hk
    have ht : HasType (Samples.task "TODO" (.val [Samples.text "a"])) :=
      Samples.hasTypes (kids := [Samples.task "TODO" (.val [Samples.text "a"])]) rfl _ (by simp)
    refine ⟨rfl, ht, ⟨fun v h => (by cases h), ?_⟩, _, rfl⟩
    intro ks h k' hk'
    cases h
    exact Samples.hasTypes (kids := [Samples.text "a"]) rfl _ hk'⟩)
  ["- [ ] a".toList, "x\n".toList] (.cons rfl (.cons rfl .nil)) "- [ ] a\nx\n".toList rfl "x\n".toList rfl
  (by intro l h; cases h; rfl)

end Verif.Props
