import Verif.Lemmas.Page
/-!
# C85: a reader of the Markdown of a document finds what the editor shows
-/

namespace Verif.Props
open Verif Spec Lemmas

/-! ## What nodes show -/

theorem seenEach_eq (env : Env) (kids : List Node) : seenEach env kids = kids.map (seen env) := by
  induction kids with
  | nil => rw [seenEach]; rfl
  | cons k kids ih => rw [seenEach, ih]; rfl

theorem seen_eq (env : Env) (n : Node) : seen env n = seenBy env n ((children n).map fun k => (k, seen env k)) := by
  obtain ⟨hd, c⟩ := n
  cases c with
  | val kids =>
    rw [seen, seenEach_eq]
    congr 1
    show kids.zip (kids.map (seen env)) = kids.map _
    induction kids with
    | nil => rfl
    | cons k kids ih => simp [ih]
  | _ => rw [seen] <;> first | rfl | (intro kids h; cases h)

theorem mapM_id {α β : Type} (f : α → Option β) (l : List α) : (l.map f).mapM id = l.mapM f := by
  induction l with
  | nil => rfl
  | cons a l ih => simp [List.mapM_cons, ih]

theorem view_fst (env : Env) (kids : List Node) : (kids.map fun k => (k, seen env k)).map Prod.fst = kids := by
  simp [List.map_map, Function.comp_def]

theorem view_snd (env : Env) (kids : List Node) : ((kids.map fun k => (k, seen env k)).map Prod.snd).mapM id = kids.mapM (seen env) := by
  rw [List.map_map]
  exact mapM_id _ _

theorem view_only (env : Env) (c : NodeCls) (kids : List Node) :
    (((kids.map fun k => (k, seen env k)).filter fun p => decide (p.1.cls = c)).map Prod.snd).mapM id =
      (kids.filter fun k => decide (k.cls = c)).mapM (seen env) := by
  rw [List.filter_map, List.map_map]
  exact mapM_id _ _

theorem seen_text {env : Env} {n : Node} {gs : List (List Glyph)} (hs : (children n).mapM (shown env) = some gs) :
    (n.cls = .paragraph ∨ (n.cls = .mediaSingle ∧ ∀ m ∈ markList n, m.cls ∈ plainMarks) →
      seen env n = some (if gs.flatten.isEmpty then [] else [.para gs.flatten])) ∧
    (n.cls = .decisionItem → seen env n = some [.para gs.flatten]) ∧
    (n.cls = .taskItem → seen env n = some [.task (isDone n) gs.flatten]) ∧
    (∀ k : Int, n.cls = .heading → attr n "level" = some (.int k) → seen env n = some [.heading k.toNat gs.flatten]) := by
  rw [seen_eq]
  unfold seenBy
  dsimp only
  rw [view_fst, hs]
  refine ⟨fun h => ?_, fun h => ?_, fun h => ?_, fun k h hk => ?_⟩
  · rcases h with h | ⟨h, h'⟩
    · rw [h]; rfl
    · have : (styleOf (markList n)).link = none := by
        unfold styleOf
        have hf : (markList n).find? (·.cls == .link) = none := by
          rw [List.find?_eq_none]
          intro m hm hc
          have := h' m hm
          rw [beq_iff_eq.mp hc] at this
          exact absurd this (by decide)
        rw [hf]
        rfl
      rw [h, this]
      simp [inLink]
  · rw [h]; rfl
  · rw [h]; rfl
  · rw [h]; simp only [hk]; rfl

theorem seen_blocks {env : Env} {n : Node} {rss : List (List Rich)} (hs : (children n).mapM (seen env) = some rss) :
    (n.cls ∈ [NodeCls.doc, .expand, .nestedExpand, .listItem, .tableCell, .tableHeader] → seen env n = some rss.flatten) ∧
    (n.cls = .blockquote → seen env n = some [.quote rss.flatten]) ∧
    (∀ ty, n.cls = .panel → strAttr n "panelType" = some ty →
      seen env n = some [.quote (.para ((upper env ty).map (.char · { strong := true })) :: rss.flatten)]) ∧
    (n.cls = .tableRow → seen env n = some [.table [rss]]) := by
  rw [seen_eq]
  unfold seenBy
  dsimp only
  rw [view_snd, hs]
  refine ⟨fun h => ?_, fun h => ?_, fun ty h hk => ?_, fun h => ?_⟩
  · simp only [List.mem_cons, List.not_mem_nil, or_false] at h
    rcases h with h | h | h | h | h | h <;> rw [h] <;> rfl
  · rw [h]; rfl
  · rw [h]; simp only [hk]; rfl
  · rw [h]; rfl

theorem seen_items {env : Env} {n : Node} {rss : List (List Rich)} (c : NodeCls)
    (hs : ((children n).filter fun k => decide (k.cls = c)).mapM (seen env) = some rss) :
    (c = .listItem → n.cls = .bulletList → seen env n = some [.bullets rss]) ∧
    (c = .listItem → n.cls = .orderedList → seen env n = some [.numbers (startOf n) rss]) ∧
    (c = .decisionItem → n.cls = .decisionList → seen env n = some (rss.map .quote)) := by
  rw [seen_eq]
  unfold seenBy
  dsimp only
  rw [← view_only] at hs
  refine ⟨?_, ?_, ?_⟩ <;> rintro rfl h <;> rw [h] <;> simp only [hs] <;> rfl

theorem tasksIn_filter (env : Env) (kids : List Node) :
    tasksIn ((tasksOf kids).map fun k => (k, seen env k)) = tasksIn (kids.map fun k => (k, seen env k)) := by
  induction kids with
  | nil => rfl
  | cons k kids ih =>
    unfold tasksOf at *
    by_cases h1 : k.cls = .taskItem
    · rw [List.filter_cons_of_pos (by simp [h1]), List.map_cons, List.map_cons, tasksIn, tasksIn, if_pos h1, if_pos h1, ih]
    · by_cases h2 : k.cls = .taskList
      · rw [List.filter_cons_of_pos (by simp [h2]), List.map_cons, List.map_cons, tasksIn, tasksIn, if_neg h1, if_neg h1,
          if_pos h2, if_pos h2, ih]
      · rw [List.filter_cons_of_neg (by simp [h1, h2]), List.map_cons, tasksIn, if_neg h1, if_neg h2, ih]

theorem seen_tasks {env : Env} {n : Node} {items : List (List Rich)} (hn : n.cls = .taskList)
    (h : tasksIn ((tasksOf (children n)).map fun k => (k, seen env k)) = some ([], items)) : seen env n = some [.bullets items] := by
  rw [seen_eq]
  unfold seenBy
  dsimp only
  rw [tasksIn_filter] at h
  rw [hn, h]

/-! ## Blocks -/

theorem richBlocks_append {uni : Char → CharClass} {a b : List Block} {x y : List Rich} (ha : richBlocks uni a = some x)
    (hb : richBlocks uni b = some y) : richBlocks uni (a ++ b) = some (x ++ y) := by
  induction a generalizing x with
  | nil =>
    rw [richBlocks] at ha
    cases ha
    exact hb
  | cons c a ih =>
    rw [richBlocks, Option.bind_eq_some_iff] at ha
    obtain ⟨r, h1, h2⟩ := ha
    obtain ⟨rs, h3, rfl⟩ := Option.map_eq_some_iff.mp h2
    rw [List.cons_append, richBlocks, h1, ih h3]
    rfl

theorem richBlocks_one {uni : Char → CharClass} {b : Block} {r : Rich} (h : richBlock uni b = some r) :
    richBlocks uni [b] = some [r] := by
  rw [richBlocks, h, richBlocks]
  rfl

theorem mapM_some_cons {α β : Type} {f : α → Option β} {a : α} {l : List α} {b : β} {bs : List β} (h : f a = some b)
    (hl : l.mapM f = some bs) : (a :: l).mapM f = some (b :: bs) := by
  simp [List.mapM_cons, h, hl]

/-- The blocks of the children, one after the other. -/
theorem blocks_seen {env : Env} {uni : Char → CharClass} {kids : List Node} {bss : List (List Block)} (hlen : kids.length = bss.length)
    (h : ∀ p ∈ kids.zip bss, ∃ rs, seen env p.1 = some rs ∧ richBlocks uni p.2 = some rs) :
    ∃ rss, kids.mapM (seen env) = some rss ∧ richBlocks uni bss.flatten = some rss.flatten := by
  induction kids generalizing bss with
  | nil =>
    cases bss with
    | nil => exact ⟨[], rfl, by rw [List.flatten_nil, richBlocks]; rfl⟩
    | cons => cases hlen
  | cons k kids ih =>
    cases bss with
    | nil => cases hlen
    | cons b bss =>
      obtain ⟨rs, h1, h2⟩ := h (k, b) (by simp)
      obtain ⟨rss, h3, h4⟩ := ih (by simpa using hlen) (fun p hp => h p (by simp [hp]))
      exact ⟨rs :: rss, mapM_some_cons h1 h3, by rw [List.flatten_cons, List.flatten_cons]; exact richBlocks_append h2 h4⟩

theorem children_val {n : Node} {kids : List Node} (h : n.content = .val kids) : children n = kids := by
  rw [children, h]

theorem parsed_children {n : Node} (hp : Parsed n) : ∀ k ∈ children n, Parsed k := by
  unfold children
  split
  · next kids e => exact parsed_kids hp e
  · simp

theorem clear_self {env : Env} {uni : Char → CharClass} {n : Node} (h : Clear env uni n) : clear env uni n := h n (.here n)

theorem clear_kid {env : Env} {uni : Char → CharClass} {n k : Node} (h : Clear env uni n) (hk : k ∈ children n) : Clear env uni k := by
  intro m hm
  unfold children at hk
  split at hk
  · next kids e => exact h m (.step e hk hm)
  · cases hk

/-! ## Paragraphs -/

theorem style_plain {env : Env} {n : Node} (s : Str) (h : ∀ m ∈ markList n, m.cls ∈ plainMarks) : Styled env n s s := by
  unfold Styled
  unfold markList at h
  split
  · next ms e =>
    rw [e] at h
    dsimp only at h
    clear e
    induction ms with
    | nil => rfl
    | cons m ms ih =>
      rw [List.foldlM_cons, C23_plain env m _ (h m (by simp))]
      exact ih fun m hm => h m (by simp [hm])
  · rfl

theorem styled_plain {env : Env} {n : Node} {s t : Str} (h : ∀ m ∈ markList n, m.cls ∈ plainMarks) (hs : Styled env n s t) : t = s := by
  have := style_plain (env := env) s h
  unfold Styled at this hs
  split at hs
  · next ms e =>
    rw [e] at this
    dsimp only at this
    rw [hs] at this
    injection this with e
    injection e
  · exact hs

/-- Without children there is no text. -/
theorem noContent_md {env : Env} {c : Slot (List Node)} {md : Str} (h : contentToMarkdown [] false (slotItems env c) = .ok md)
    (hc : ∀ l, c ≠ .val l) : md = [] := by
  cases c with
  | val l => exact absurd rfl (hc l)
  | absent => cases h
  | opt => cases h; rfl
  | raw v =>
    simp only [slotItems, contentToMarkdown, iterSlot] at h
    cases hx : v.iterLen with
    | error e => rw [hx] at h; cases h
    | ok k =>
      rw [hx] at h
      cases k with
      | zero =>
        simp only [List.replicate_zero, collect, collectPre, strJoin, List.all_nil, if_true, List.filterMap_nil] at h
        cases h
        rfl
      | succ k => cases h

/-- The Markdown of a paragraph without indentation, whatever its content. -/
theorem para_md {env : Env} {p : Node} {s : Str} (hp : Parsed p) (hn : p.cls = .paragraph)
    (hm : ∀ m ∈ markList p, m.cls ∈ plainMarks) (hs : Md env p s) :
    ∃ ss, MdAll env (children p) ss ∧ s = ss.flatten ++ "\n".toList := by
  cases hc : p.content with
  | val kids =>
    obtain ⟨ss, t, h1, h2, h3⟩ := (C62_paragraph env p kids hn hc (C62_parsed_marks p hp) _).mp hs
    rw [children_val hc]
    cases h3
    rw [styled_plain hm h2]
    exact ⟨ss, h1, rfl⟩
  | _ =>
    have hch : children p = [] := by rw [children, hc]
    rw [hch]
    refine ⟨[], .nil, ?_⟩
    have hst : addStyle env (.str []) p.hd.marks = .ok (.str []) :=
      (addStyle_iff env p (C62_parsed_marks p hp) [] _).mpr (style_plain [] hm)
    unfold Md at hs
    rw [toMarkdown_eq] at hs
    have hn' : p.hd.cls = .paragraph := hn
    unfold dispatch at hs
    simp only [hn', paragraphMd, Option.isSome_none, Bool.false_and, Bool.false_eq_true, if_false] at hs
    cases h : contentToMarkdown [] false (slotItems env p.content) with
    | error e => rw [h] at hs; cases hs
    | ok md =>
      have : md = [] := noContent_md h (by rw [hc]; intro l e; cases e)
      subst this
      simp only [h, hst] at hs
      cases hs
      rfl

/-- A readable paragraph is read as what it shows. -/
theorem para_seen {env : Env} {uni : Char → CharClass} {p : Node} {s : Str} (hp : Parsed p) (hn : p.cls = .paragraph)
    (hc : Clear env uni p) (hs : Md env p s) :
    ∃ t gs, s = t ++ "\n".toList ∧ trimEnd s = t ∧ readInline uni t = some gs ∧
      seen env p = some (if t.isEmpty then [] else [.para gs]) ∧ (∀ c ∈ t.head?, gap c = false) := by
  have hcl := clear_self hc
  unfold clear at hcl
  rw [hn] at hcl
  obtain ⟨ss, h1, rfl⟩ := para_md hp hn hcl.2 hs
  obtain ⟨gs, h2, h3, h4, h5, h6, h7⟩ := neat_read (parsed_children hp) hcl.1 h1
  refine ⟨ss.flatten, gs.flatten, rfl, ?_, h3, ?_, h6⟩
  · rw [← rstrip_eq, show ss.flatten ++ "\n".toList = ss.flatten ++ ['\n'] from rfl, rstrip_snoc_space _ _ (by decide),
      rstrip_eq, h4]
  · rw [← h5]
    exact (seen_text h2).1 (.inl hn)

/-- The Markdown of images is one line. -/
theorem images_nl {env : Env} {uni : Char → CharClass} {kids : List Node} {ss : List Str} (hp : ∀ k ∈ kids, Parsed k)
    (hk : ∀ k ∈ kids, k.cls = .media) (h : Neat env uni kids) (hm : MdAll env kids ss) : '\n' ∉ ss.flatten := by
  obtain ⟨ws, h1, h2, h3⟩ := h
  have h4 := (words_md env uni h1 none hp h2).1
  rw [mdAll_unique hm h4]
  clear hm h3 h4
  generalize (none : Option Char) = prev at h2
  induction h1 generalizing prev with
  | nil => simp
  | @cons k w kids ws hw _ ih =>
    rw [fineWords, Bool.and_eq_true] at h2
    have hkm := hk k (by simp)
    have := ih (fun k hk => hp k (by simp [hk])) (fun k h => hk k (by simp [h])) _ h2.2
    rw [List.map_cons, List.flatten_cons, List.mem_append, not_or]
    refine ⟨?_, this⟩
    have key : ∀ alt u l, w = .image alt u l → '\n' ∉ w.str := by
      rintro alt u l rfl
      have h5 := imageText_nl h2.1
      cases l with
      | none => exact h5
      | some d =>
        simp only [fineWord, Bool.and_eq_true, plainDest, List.all_eq_true, Option.all_some] at h2
        have h6 : '\n' ∉ d := fun hm => by
          have := (h2.1.1.2.2 _ hm).1.1
          simp at this
        simp [Word.str, spell, h5, h6]
    cases hw with
    | image u hn hu hm => exact key _ _ _ rfl
    | linked u h hn hu hm => exact key _ _ _ rfl
    | _ => simp_all

/-- What stands in a single media block. -/
theorem media_md {env : Env} {n : Node} {s : Str} (hn : n.cls = .mediaSingle) (hs : Md env n s) :
    ∃ ss, MdAll env (children n) ss ∧ s = ss.flatten := by
  cases hc : n.content with
  | val kids => rw [children_val hc]; exact (C62_transparent env n kids (by rw [hn]; decide) hc s).mp hs
  | _ =>
    have hch : children n = [] := by rw [children, hc]
    rw [hch]
    refine ⟨[], .nil, ?_⟩
    unfold Md at hs
    rw [toMarkdown_eq] at hs
    have hn' : n.hd.cls = .mediaSingle := hn
    unfold dispatch at hs
    simp only [hn'] at hs
    cases h : contentToMarkdown [] false (slotItems env n.content) with
    | error e => rw [h] at hs; cases hs
    | ok md =>
      have : md = [] := noContent_md h (by rw [hc]; intro l e; cases e)
      subst this
      rw [h] at hs
      cases hs
      rfl

/-! ## Lists -/

theorem text_ne {s : Str} (h : ∀ l ∈ s.splitOn '\n', kindOf l = .text) : s ≠ [] := by
  rintro rfl
  have := h [] (by simp)
  simp [kindOf, blankLine] at this

theorem items_seen {env : Env} {uni : Char → CharClass} {kind : NodeCls} {num : Option Nat} {nodes : List Node}
    {items : List (List Block)} (h : Items env kind num nodes items)
    (hk : (kind = .bulletList ∧ num = none) ∨ (kind = .orderedList ∧ num.isSome)) (hp : ∀ k ∈ nodes, Parsed k)
    (hl : ∀ k ∈ nodes, k.cls = .listItem) (hc : ∀ k ∈ nodes, Clear env uni k) :
    ∃ rs, nodes.mapM (seen env) = some rs ∧ richItems uni items = some rs := by
  have next : ∀ {num : Option Nat} {v : Option Nat}, (kind = .bulletList ∧ num = none) ∨ (kind = .orderedList ∧ num.isSome) →
      v.isSome = num.isSome → (kind = .bulletList ∧ v = none) ∨ (kind = .orderedList ∧ v.isSome) := by
    intro num v h e
    rcases h with ⟨h1, rfl⟩ | ⟨h1, h2⟩
    · exact .inl ⟨h1, by simpa using e⟩
    · exact .inr ⟨h1, by rw [e, h2]⟩
  have item1 : ∀ {item p : Node} {rs : List Rich}, item.cls = .listItem → item.content = .val [p] → seen env p = some rs →
      seen env item = some rs := by
    intro item p rs h1 h2 h3
    have := (seen_blocks (env := env) (n := item) (rss := [rs]) (by rw [children_val h2]; exact mapM_some_cons h3 rfl)).1
      (by rw [h1]; decide)
    simpa using this
  induction h with
  | nil => exact ⟨[], rfl, by rw [richItems]⟩
  | @blank num item p nodes items s hw hcn hpc hs ht _ ih =>
    obtain ⟨rs, h1, h2⟩ := ih (next hk (by simp)) (fun k hk => hp k (by simp [hk])) (fun k hk => hl k (by simp [hk]))
      (fun k hk => hc k (by simp [hk]))
    have hmem : p ∈ children item := by rw [children_val hcn]; simp
    obtain ⟨t, gs, e, ht', _, hse, _⟩ := para_seen (uni := uni) (parsed_children (hp item (by simp)) p hmem) hpc
      (clear_kid (hc item (by simp)) hmem) hs
    rw [ht] at ht'
    subst ht'
    refine ⟨[] :: rs, mapM_some_cons (item1 (hl item (by simp)) hcn hse) h1, ?_⟩
    rw [richItems, richItem, h2]
    rfl
  | @line num item p nodes items s hw hcn hpc hs ht _ ih =>
    obtain ⟨rs, h1, h2⟩ := ih (next hk (by simp)) (fun k hk => hp k (by simp [hk])) (fun k hk => hl k (by simp [hk]))
      (fun k hk => hc k (by simp [hk]))
    have hmem : p ∈ children item := by rw [children_val hcn]; simp
    obtain ⟨t, gs, e, ht', hr, hse, _⟩ := para_seen (uni := uni) (parsed_children (hp item (by simp)) p hmem) hpc
      (clear_kid (hc item (by simp)) hmem) hs
    have hne := text_ne ht
    rw [ht'] at hne ⊢
    rw [if_neg (by simpa using hne)] at hse
    refine ⟨[.para gs] :: rs, mapM_some_cons (item1 (hl item (by simp)) hcn hse) h1, ?_⟩
    rw [richItems, richItem, lines_splitOn, itemText_read hr, richBlocks, h2]
    rfl
  | @nest num item p l nodes kids items sub s hw hcn hpc hs ht hlc hlk hne' hf _ _ ihs ih =>
    obtain ⟨rs, h1, h2⟩ := ih (next hk (by simp)) (fun k hk => hp k (by simp [hk])) (fun k hk => hl k (by simp [hk]))
      (fun k hk => hc k (by simp [hk]))
    have hmem : p ∈ children item := by rw [children_val hcn]; simp
    have hmem' : l ∈ children item := by rw [children_val hcn]; simp
    obtain ⟨t, gs, e, ht', hr, hse, _⟩ := para_seen (uni := uni) (parsed_children (hp item (by simp)) p hmem) hpc
      (clear_kid (hc item (by simp)) hmem) hs
    have hne := text_ne ht
    rw [ht'] at hne ⊢
    rw [if_neg (by simpa using hne)] at hse
    have hpl := parsed_children (hp item (by simp)) l hmem'
    have hcl := clear_kid (hc item (by simp)) hmem'
    have hin : ∀ k ∈ itemsOf kids, k ∈ children l := fun k hk => by rw [children_val hlk]; exact List.mem_of_mem_filter hk
    obtain ⟨rs', h3, h4⟩ := ihs (next hk (by simp)) (fun k hk => parsed_children hpl k (hin k hk))
      (fun k hk => by simpa using (List.mem_filter.mp hk).2) (fun k hk => clear_kid hcl (hin k hk))
    have h5 := seen_items (env := env) (n := l) .listItem (by rw [children_val hlk]; exact h3)
    have key : ∃ r, seen env l = some [r] ∧ richBlock uni (listBlock (num.map fun _ => 1) sub) = some r := by
      rcases hk with ⟨rfl, rfl⟩ | ⟨rfl, hk⟩
      · exact ⟨_, h5.1 rfl hlc, by rw [Option.map_none, listBlock, richBlock, h4]; rfl⟩
      · obtain ⟨k, rfl⟩ := Option.isSome_iff_exists.mp hk
        have hst : startOf l = 1 := by
          have := clear_self (hc item (by simp))
          unfold clear at this
          rw [hl item (by simp)] at this
          exact this l hmem' hlc
        refine ⟨_, h5.2.1 rfl hlc, ?_⟩
        rw [hst, Option.map_some, listBlock, richBlock, h4]
        rfl
    obtain ⟨r, h6, h7⟩ := key
    refine ⟨[.para gs, r] :: rs, mapM_some_cons ?_ h1, ?_⟩
    · have := (seen_blocks (env := env) (n := item) (rss := [[.para gs], [r]])
        (by rw [children_val hcn]; exact mapM_some_cons hse (mapM_some_cons h6 rfl))).1 (by rw [hl item (by simp)]; decide)
      simpa using this
    · rw [richItems, richItem, lines_splitOn, itemText_read hr, richBlocks_one h7, h2]
      rfl

/-! ## Tasks -/

theorem taskBox_checkbox (k : Node) (t : Str) : taskBox (checkbox k ++ " ".toList ++ t) = some (isDone k, t) := by
  unfold checkbox isDone
  split
  · next s e =>
    have : strAttr k "state" = some s := by simp [strAttr, e]
    rw [this]
    by_cases hs : s = "DONE".toList
    · subst hs
      rw [if_pos rfl]
      rfl
    · have : (some s == some "DONE".toList) = false := by simpa using hs
      rw [this, if_neg hs]
      rfl
  · next hn =>
    have : strAttr k "state" = none := by
      unfold strAttr
      split
      · next s e => exact absurd e (hn s)
      · rfl
    rw [this]
    rfl

theorem task_seen {env : Env} {uni : Char → CharClass} {k : Node} {ks : List Node} {ss : List Str} (hk : k.cls = .taskItem)
    (hc : k.content = .val ks) (hm : MdAll env ks ss) (hp : Parsed k) (hcl : Clear env uni k) :
    ∃ gs, seen env k = some [.task (isDone k) gs] ∧
      itemText uni (checkbox k ++ " ".toList ++ trimEnd ss.flatten) = some (.task (isDone k) gs) := by
  have h := clear_self hcl
  unfold clear at h
  rw [hk] at h
  rw [← children_val hc] at hm
  obtain ⟨gs, h1, h2, h3, _⟩ := neat_read (parsed_children hp) h hm
  refine ⟨gs.flatten, (seen_text h1).2.2.1 hk, ?_⟩
  rw [itemText, taskBox_checkbox, h3]
  dsimp only
  rw [h2]
  rfl

theorem tasks_seen {env : Env} {uni : Char → CharClass} {nodes : List Node} {items : List (List Block)} (h : Tasks env nodes items)
    (hp : ∀ k ∈ nodes, Parsed k) (hc : ∀ k ∈ nodes, Clear env uni k) :
    ∃ rs, tasksIn (nodes.map fun k => (k, seen env k)) = some ([], rs) ∧ richItems uni items = some rs := by
  induction h with
  | nil => exact ⟨[], rfl, by rw [richItems]⟩
  | @line k nodes ks ss items hk hcn hm ht _ ih =>
    obtain ⟨rs, h1, h2⟩ := ih (fun k hk => hp k (by simp [hk])) (fun k hk => hc k (by simp [hk]))
    obtain ⟨gs, h3, h4⟩ := task_seen hk hcn hm (hp k (by simp)) (hc k (by simp))
    refine ⟨[.task (isDone k) gs] :: rs, ?_, ?_⟩
    · rw [List.map_cons, tasksIn, if_pos hk, h3, h1]
      rfl
    · rw [richItems, richItem, lines_splitOn, h4, richBlocks, h2]
      rfl
  | @nest k l nodes ks kids ss items sub hk hcn hm ht hl hlc hne _ _ ihs ih =>
    obtain ⟨rs, h1, h2⟩ := ih (fun k hk => hp k (by simp [hk])) (fun k hk => hc k (by simp [hk]))
    obtain ⟨gs, h3, h4⟩ := task_seen hk hcn hm (hp k (by simp)) (hc k (by simp))
    have hin : ∀ k ∈ tasksOf kids, k ∈ children l := fun k hk => by rw [children_val hlc]; exact List.mem_of_mem_filter hk
    obtain ⟨rs', h5, h6⟩ := ihs (fun k hk => parsed_children (hp l (by simp)) k (hin k hk))
      (fun k hk => clear_kid (hc l (by simp)) (hin k hk))
    have h7 := seen_tasks hl (by rw [children_val hlc]; exact h5)
    refine ⟨[.task (isDone k) gs, .bullets rs'] :: rs, ?_, ?_⟩
    · rw [List.map_cons, List.map_cons, tasksIn, if_pos hk, tasksIn, if_neg (by rw [hl]; decide), if_pos hl, h3, h7, h1]
      rfl
    · have : richBlock uni (.bullets sub) = some (.bullets rs') := by rw [richBlock, h6]; rfl
      rw [richItems, richItem, lines_splitOn, h4, richBlocks_one this, h2]
      rfl

/-! ## Tables -/

theorem cell_text {ts : List Str} {outs : List Str} (h : List.Forall₂ CellLine ts outs) (hg : ∀ t ∈ ts, ∀ c ∈ t.head?, gap c = false) :
    outs = ts.map escapePipes := by
  induction h with
  | nil => rfl
  | @cons t out ts outs h1 _ ih =>
    rw [List.map_cons, ih fun t ht => hg t (by simp [ht])]
    obtain ⟨k, rest, rfl, _, rfl⟩ := h1
    cases k with
    | zero => rfl
    | succ k =>
      have := hg (spaces (k + 1) ++ rest) (by simp) ' ' (by simp [spaces, List.replicate_succ])
      cases this

theorem escape_append (a b : Str) : escapePipes (a ++ b) = escapePipes a ++ escapePipes b := by
  simp [escapePipes, List.flatMap_append]

theorem escape_intercalate (ts : List Str) :
    "<br>".toList.intercalate (ts.map escapePipes) = escapePipes ("<br>".toList.intercalate ts) := by
  induction ts with
  | nil => rfl
  | cons t ts ih =>
    cases ts with
    | nil => simp [List.intercalate]
    | cons u us =>
      rw [List.intercalate_cons_cons, escape_append, escape_append, ← ih, List.map_cons, List.map_cons, List.intercalate_cons_cons]
      rfl

theorem intercalate_last (ts : List Str) (sep : Str) : sep.intercalate (ts ++ [[]]) = ts.flatMap (· ++ sep) := by
  induction ts with
  | nil => rfl
  | cons t ts ih =>
    cases ts with
    | nil => simp [List.intercalate]
    | cons u us =>
      rw [List.cons_append, List.cons_append, List.intercalate_cons_cons, ← List.cons_append, ih]
      rfl

theorem splitNL_paras {ts : List Str} (h : ∀ t ∈ ts, '\n' ∉ t) :
    Str.splitNL ((ts.map (· ++ "\n".toList)).flatten) = ts ++ [[]] := by
  induction ts with
  | nil => rfl
  | cons t ts ih =>
    rw [List.map_cons, List.flatten_cons, show t ++ "\n".toList ++ (ts.map (· ++ "\n".toList)).flatten =
      t ++ '\n' :: (ts.map (· ++ "\n".toList)).flatten by simp, splitNL_append (h t (by simp)),
      ih fun t ht => h t (by simp [ht])]
    rfl

theorem stripped_id {s : Str} (h1 : ∀ c ∈ s.head?, gap c = false) (h2 : ∀ c ∈ s.getLast?, gap c = false) : stripped s = s := by
  have key : ∀ t : Str, (∀ c ∈ t.head?, gap c = false) → t.dropWhile gap = t := by
    intro t h
    cases t with
    | nil => rfl
    | cons c t => rw [List.dropWhile_cons_of_neg (by simpa using h c rfl)]
  unfold stripped
  rw [key s h1, key s.reverse (by simpa using h2), List.reverse_reverse]

theorem cell_paras {env : Env} {uni : Char → CharClass} {kids : List Node} {ss : List Str} (hm : MdAll env kids ss)
    (hp : ∀ k ∈ kids, Parsed k) (hc : ∀ k ∈ kids, Clear env uni k)
    (h : ∀ k ∈ kids, k.cls = .paragraph ∧ ∀ s, Md env k s → ∃ t, s = t ++ "\n".toList ∧ '\n' ∉ t ∧ ¬ "<br>".toList <:+: t) :
    ∃ (ts : List Str) (rss : List (List Rich)), ss = ts.map (· ++ "\n".toList) ∧
      (∀ t ∈ ts, '\n' ∉ t ∧ ¬ "<br>".toList <:+: t ∧ ∀ c ∈ t.head?, gap c = false) ∧ kids.mapM (seen env) = some rss ∧
      ((ts.filter fun t => !t.isEmpty).mapM fun t => (readInline uni t).map Rich.para) = some rss.flatten := by
  induction hm with
  | nil => exact ⟨[], [], rfl, by simp, rfl, rfl⟩
  | @cons k s kids ss hs _ ih =>
    obtain ⟨ts, rss, rfl, h1, h2, h3⟩ := ih (fun k hk => hp k (by simp [hk])) (fun k hk => hc k (by simp [hk]))
      (fun k hk => h k (by simp [hk]))
    obtain ⟨hk, hk'⟩ := h k (by simp)
    obtain ⟨t', e', hnl, hbr⟩ := hk' s hs
    obtain ⟨t, gs, e, _, hr, hse, hg⟩ := para_seen (hp k (by simp)) hk (hc k (by simp)) hs
    have : t' = t := List.append_cancel_right (e'.symm.trans e)
    subst this
    refine ⟨t' :: ts, _, by rw [e]; rfl, ?_, mapM_some_cons hse h2, ?_⟩
    · intro x hx
      rcases List.mem_cons.mp hx with rfl | hx
      · exact ⟨hnl, hbr, hg⟩
      · exact h1 x hx
    · cases ht : t'.isEmpty with
      | true => rw [List.filter_cons_of_neg (by simp [ht]), if_pos rfl]; exact h3
      | false =>
        rw [List.filter_cons_of_pos (by simp [ht]), if_neg (by simp), List.flatten_cons, List.singleton_append]
        exact mapM_some_cons (by rw [hr]; rfl) h3

theorem cell_seen {env : Env} {uni : Char → CharClass} {k : Node} {c : Str} (hk : isCell k) (hp : Parsed k) (hcl : Clear env uni k)
    (hs : Md env k c) : ∃ rs, seen env k = some rs ∧ cellBlocks uni (stripped c) = some rs := by
  by_cases hreq : ∃ kids, k.content = .val kids
  case neg =>
    have hch : children k = [] := by
      unfold children
      split
      · next l e => exact absurd ⟨l, e⟩ hreq
      · rfl
    have hsn := (seen_blocks (env := env) (n := k) (rss := []) (by rw [hch]; rfl)).1 (by rcases hk with hk | hk <;> rw [hk] <;> decide)
    refine ⟨_, hsn, ?_⟩
    unfold Md at hs
    rw [dispatch_cell env k false hk] at hs
    unfold cellMd at hs
    cases h : contentToMarkdown [] false (slotItems env k.content) with
    | error e => rw [h] at hs; cases hs
    | ok md =>
      have : md = [] := noContent_md h fun l e => hreq ⟨l, e⟩
      subst this
      rw [h] at hs
      cases hs
      rfl
  obtain ⟨kids, hcn⟩ := hreq
  obtain ⟨ss, outs, h1, h2, e⟩ := (C31_cell env k kids hk hcn _).mp hs
  cases e
  have h := clear_self hcl
  unfold clear at h
  have hb := children_val hcn
  have h : ∀ k ∈ kids, k.cls = .paragraph ∧
      ∀ s, Md env k s → ∃ t, s = t ++ "\n".toList ∧ '\n' ∉ t ∧ ¬ "<br>".toList <:+: t := by
    rw [hb] at h
    rcases hk with hk | hk <;> rw [hk] at h <;> exact h
  obtain ⟨ts, rss, rfl, h3, h4, h5⟩ := cell_paras h1 (parsed_kids hp hcn) (fun k hk => clear_kid hcl (by rw [hb]; exact hk)) h
  have hsn := (seen_blocks (env := env) (n := k) (by rw [hb]; exact h4)).1 (by rcases hk with hk | hk <;> rw [hk] <;> decide)
  refine ⟨_, hsn, ?_⟩
  rw [splitOn_nl, splitNL_paras fun t ht => (h3 t ht).1] at h2
  have hgap : ∀ t ∈ ts ++ [[]], ∀ c ∈ t.head?, gap c = false := by
    intro t ht
    rcases List.mem_append.mp ht with ht | ht
    · exact (h3 t ht).2.2
    · rw [List.mem_singleton.mp ht]; simp
  have ho := cell_text h2 hgap
  subst ho
  rw [escape_intercalate]
  have hst : stripped (escapePipes ("<br>".toList.intercalate (ts ++ [[]]))) = escapePipes ("<br>".toList.intercalate (ts ++ [[]])) := by
    rw [intercalate_last]
    apply stripped_id
    · intro c hc
      cases ts with
      | nil => simp [escapePipes] at hc
      | cons t ts =>
        rw [List.flatMap_cons, escape_append, escape_append] at hc
        cases t with
        | nil =>
          have : c = '<' := by
            have : (escapePipes [] ++ escapePipes "<br>".toList ++ escapePipes (ts.flatMap (· ++ "<br>".toList))).head? = some '<' := rfl
            rw [this] at hc
            cases hc
            rfl
          subst this
          decide
        | cons a t =>
          have hg := (h3 (a :: t) (by simp)).2.2 a rfl
          rw [show escapePipes (a :: t) = (if a = '|' then ['\\', '|'] else [a]) ++ escapePipes t by
            simp [escapePipes, List.flatMap_cons]] at hc
          by_cases ha : a = '|'
          · rw [if_pos ha] at hc
            cases hc
            decide
          · rw [if_neg ha] at hc
            cases hc
            exact hg
    · intro c hc
      rcases List.eq_nil_or_concat ts with rfl | ⟨ts', t, rfl⟩
      · simp [escapePipes] at hc
      · rw [List.concat_eq_append, List.flatMap_append, escape_append, List.flatMap_singleton, escape_append,
          show escapePipes "<br>".toList = "<br".toList ++ ['>'] from rfl] at hc
        simp only [← List.append_assoc, List.getLast?_append, List.getLast?_singleton, Option.some_or, Option.mem_some_iff] at hc
        subst hc
        decide
  rw [hst, cellBlocks, unescape_escape, splitBr_intercalate (by
    intro t ht
    rcases List.mem_append.mp ht with ht | ht
    · exact (h3 t ht).2.1
    · rw [List.mem_singleton.mp ht]; simp) (by simp), List.filter_append]
  simpa using h5

theorem row_seen {env : Env} {uni : Char → CharClass} {r : Node} {cs : List Str} (h : Cells env r cs) (hp : Parsed r)
    (hc : Clear env uni r) : ∃ rss, seen env r = some [.table [rss]] ∧ (cs.map stripped).mapM (cellBlocks uni) = some rss ∧
      rss.length = cs.length := by
  obtain ⟨cells, hn, hcn, hk, hm, h0⟩ := h
  clear h0
  have hb := children_val hcn
  have key : ∃ rss, cells.mapM (seen env) = some rss ∧ (cs.map stripped).mapM (cellBlocks uni) = some rss ∧ rss.length = cs.length := by
    have hp' := parsed_kids hp hcn
    have hc' : ∀ k ∈ cells, Clear env uni k := fun k hk => clear_kid hc (by rw [hb]; exact hk)
    clear hcn hb
    induction hm with
    | nil => exact ⟨[], rfl, rfl, rfl⟩
    | @cons k c cells cs h1 _ ih =>
      obtain ⟨rss, h2, h3, h4⟩ := ih (fun k hk' => hk k (by simp [hk'])) (fun k hk => hp' k (by simp [hk]))
        (fun k hk => hc' k (by simp [hk]))
      obtain ⟨rs, h5, h6⟩ := cell_seen (hk k (by simp)) (hp' k (by simp)) (hc' k (by simp)) h1
      exact ⟨rs :: rss, mapM_some_cons h5 h2, by rw [List.map_cons]; exact mapM_some_cons h6 h3, by simp [h4]⟩
  obtain ⟨rss, h1, h2, h3⟩ := key
  exact ⟨rss, (seen_blocks (by rw [hb]; exact h1)).2.2.2 hn, h2, h3⟩

theorem mapM_pad {uni : Char → CharClass} {cs : List Str} {rss : List (List Rich)} (h : cs.mapM (cellBlocks uni) = some rss) (m : Nat) :
    (cs ++ List.replicate m []).mapM (cellBlocks uni) = some (rss ++ List.replicate m []) := by
  induction cs generalizing rss with
  | nil =>
    cases h
    induction m with
    | zero => rfl
    | succ m ih => exact mapM_some_cons rfl ih
  | cons c cs ih =>
    rw [List.mapM_cons] at h
    simp only [Option.bind_eq_bind, Option.bind_eq_some_iff, Option.pure_def, Option.some.injEq] at h
    obtain ⟨r, h1, rs, h2, rfl⟩ := h
    exact mapM_some_cons h1 (ih h2)

theorem rows_seen {env : Env} {uni : Char → CharClass} {rows : List Node} {css : List (List Str)} (h : List.Forall₂ (Cells env) rows css)
    (hp : ∀ r ∈ rows, Parsed r) (hc : ∀ r ∈ rows, Clear env uni r) (w : Nat) :
    ∃ rsss : List (List (List Rich)), ((rows.map fun k => (k, seen env k)).mapM fun (p : Node × Option (List Rich)) =>
        p.2.bind rowCells?) = some rsss ∧
      ((css.map fun cs => cs.map stripped ++ List.replicate (w - cs.length) []).mapM fun (r : List Str) =>
        r.mapM (cellBlocks uni)) = some (rsss.map fun r => r ++ List.replicate (w - r.length) []) := by
  induction h with
  | nil => exact ⟨[], rfl, rfl⟩
  | @cons r cs rows css h1 _ ih =>
    obtain ⟨rsss, h2, h3⟩ := ih (fun r hr => hp r (by simp [hr])) (fun r hr => hc r (by simp [hr]))
    obtain ⟨rss, h4, h5, h6⟩ := row_seen h1 (hp r (by simp)) (hc r (by simp))
    refine ⟨rss :: rsss, ?_, ?_⟩
    · rw [List.map_cons]
      exact mapM_some_cons (by rw [h4]; rfl) h2
    · rw [List.map_cons, List.map_cons, h6]
      exact mapM_some_cons (mapM_pad h5 _) h3

/-! ## One word -/

theorem read_one {uni : Char → CharClass} {L : List Layer} {t : Str} (h : fine uni none L t none = true) :
    readInline uni (spell L t) = some (t.map (.char · (styleL L))) := by
  have := read_inline uni [.word L t] (by simp [fineWords, fineWord, h])
  simpa [Word.str, wordGlyphs, glyphsL_eq] using this

/-! ## Code and decisions -/

theorem code_text {env : Env} {kids : List Node} {ss : List Str} (hp : ∀ k ∈ kids, Parsed k)
    (h : ∀ k ∈ kids, (wordsOf k).isSome ∧ ∀ m ∈ markList k, m.cls ∈ plainMarks) (hm : MdAll env kids ss) :
    kids.mapM wordsOf = some ss := by
  induction hm with
  | nil => rfl
  | @cons k s kids ss hs _ ih =>
    refine mapM_some_cons ?_ (ih (fun k hk => hp k (by simp [hk])) (fun k hk => h k (by simp [hk])))
    obtain ⟨h1, h2⟩ := h k (by simp)
    obtain ⟨t, h1⟩ := Option.isSome_iff_exists.mp h1
    rw [h1]
    unfold wordsOf at h1
    split at h1
    · next t' hn ht =>
      cases h1
      have h3 := (addStyle_iff env k (C62_parsed_marks k (hp k (by simp))) t _).mpr (style_plain t h2)
      have : Md env k t := by
        unfold Md
        rw [toMarkdown_eq]
        have hn' : k.hd.cls = .text := hn
        unfold dispatch
        simp only [hn', ht, textMd, Option.isSome_none, Bool.false_and, Bool.false_eq_true, if_false]
        exact h3
      rw [md_unique this hs]
    · cases h1

theorem decision_seen {env : Env} {uni : Char → CharClass} {k : Node} {l : Str} (hk : k.cls = .decisionItem) (hp : Parsed k)
    (hc : Clear env uni k) (hs : Md env k ("> ".toList ++ l)) :
    ∃ gs, seen env k = some [.para gs] ∧ readInline uni l = some gs := by
  have h := clear_self hc
  unfold clear at h
  rw [hk] at h
  obtain ⟨h, hnl⟩ := h
  unfold Md at hs
  rw [dispatch_decision env k false hk] at hs
  unfold decisionItemMd at hs
  cases hd : contentToMarkdown [] false (slotItems env k.content) with
  | error e => rw [hd] at hs; cases hs
  | ok T =>
    rw [hd] at hs
    have hall : ∃ ss, MdAll env (children k) ss ∧ T = ss.flatten := by
      by_cases hv : ∃ kids, k.content = .val kids
      · obtain ⟨kids, e⟩ := hv
        rw [e] at hd
        obtain ⟨ss, h1, h2⟩ := (content_iff env [] kids T).mp hd
        refine ⟨ss, by rw [children_val e]; exact h1, ?_⟩
        rw [h2, join_nil_eq]
      · have : T = [] := noContent_md hd fun l e => hv ⟨l, e⟩
        subst this
        have hch : children k = [] := by
          unfold children
          split
          · next l e => exact absurd ⟨l, e⟩ hv
          · rfl
        exact ⟨[], by rw [hch]; exact .nil, rfl⟩
    obtain ⟨ss, h1, rfl⟩ := hall
    obtain ⟨gs, h2, h3, h4, _⟩ := neat_read (parsed_children hp) h h1
    have hn := hnl ss h1
    rw [← rstrip_eq] at h4
    have e1 : Str.splitNL ss.flatten = [ss.flatten] := splitNL_of_noNL hn
    simp only [h4, e1, decisionLoop] at hs
    refine ⟨gs.flatten, (seen_text h2).2.1 hk, ?_⟩
    cases he : ss.flatten.isEmpty with
    | true =>
      rw [he] at hs
      cases hs
    | false =>
      rw [he] at hs
      have : "> ".toList ++ ss.flatten = "> ".toList ++ l := by
        simpa [strVal, Str.join] using hs
      have : ss.flatten = l := List.append_cancel_left this
      rw [← this]
      exact h3

theorem decisions_seen {env : Env} {uni : Char → CharClass} {nodes : List Node} {ls : List Str}
    (hm : MdAll env nodes (ls.map ("> ".toList ++ ·))) (hk : ∀ k ∈ nodes, k.cls = .decisionItem)
    (hp : ∀ k ∈ nodes, Parsed k) (hc : ∀ k ∈ nodes, Clear env uni k) :
    ∃ rss, nodes.mapM (seen env) = some rss ∧ richBlocks uni (ls.map fun l => .quote [.para [l]]) = some (rss.map .quote) := by
  induction ls generalizing nodes with
  | nil =>
    cases hm
    exact ⟨[], rfl, by rw [List.map_nil, richBlocks]; rfl⟩
  | cons l ls ih =>
    cases hm with
    | @cons k _ nodes _ hs hm =>
      obtain ⟨rss, h1, h2⟩ := ih hm (fun k hk' => hk k (by simp [hk']))
        (fun k hk => hp k (by simp [hk])) (fun k hk => hc k (by simp [hk]))
      obtain ⟨gs, h3, h4⟩ := decision_seen (hk k (by simp)) (hp k (by simp)) (hc k (by simp)) hs
      refine ⟨[.para gs] :: rss, mapM_some_cons h3 h1, ?_⟩
      have h5 : richBlock uni (.para [l]) = some (.para gs) := by
        rw [richBlock, show lines [l] = l by simp [lines, List.intercalate], h4]
        rfl
      have h6 : richBlock uni (.quote [.para [l]]) = some (.quote [.para gs]) := by
        rw [richBlock, richBlocks_one h5]
        rfl
      rw [List.map_cons, List.map_cons, richBlocks, h6, h2]
      rfl

theorem mem_join_iff_some {sep : Str} {c : Char} {ls : List Str} (h : c ∈ Str.join sep ls) : c ∈ sep ∨ ∃ l ∈ ls, c ∈ l := by
  induction ls with
  | nil => simp [Str.join] at h
  | cons a ls ih =>
    cases ls with
    | nil => exact .inr ⟨a, by simp, by simpa [Str.join] using h⟩
    | cons b ls =>
      simp only [Str.join, List.mem_append] at h
      rcases h with (h | h) | h
      · exact .inr ⟨a, by simp, h⟩
      · exact .inl h
      · rcases ih h with h | ⟨l, hl, h⟩
        · exact .inl h
        · exact .inr ⟨l, by simp [hl], h⟩

theorem mem_splitNL {s : Str} {c : Char} (h : c ∈ s) (hc : c ≠ '\n') : ∃ l ∈ Str.splitNL s, c ∈ l := by
  rw [← join_splitNL s] at h
  rcases mem_join_iff_some h with h | h
  · exact absurd (by simpa using h) hc
  · exact h

theorem gap_cases {c : Char} (h : gap c = true) : c = ' ' ∨ c = '\t' := by
  simpa [gap] using h

/-! ## C85 -/

theorem shows_seen {env : Env} {uni : Char → CharClass} {n : Node} {bs : List Block} (h : Shows env n bs) (hp : Parsed n)
    (hc : Clear env uni n) : ∃ rs, seen env n = some rs ∧ richBlocks uni bs = some rs := by
  have kid : ∀ {n : Node} {kids : List Node}, n.content = .val kids → Parsed n → Clear env uni n →
      (∀ k ∈ kids, Parsed k) ∧ ∀ k ∈ kids, Clear env uni k := fun e hp hc =>
    ⟨parsed_kids hp e, fun k hk => clear_kid hc (by rw [children_val e]; exact hk)⟩
  have self := fun {n : Node} (hc : Clear env uni n) => clear_self hc
  unfold clear at self
  induction h with
  | @para n kids ss t hn hcn hm hs ht =>
    have hmd : Md env n (t ++ "\n".toList) :=
      (C62_paragraph env n kids hn hcn (C62_parsed_marks n hp) _).mpr ⟨ss, t, hm, hs, rfl⟩
    obtain ⟨t', gs, e, _, hr, hse, _⟩ := para_seen hp hn hc hmd
    have : t = t' := List.append_cancel_right e
    subst this
    rw [if_neg (by simpa using text_ne ht)] at hse
    exact ⟨_, hse, richBlocks_one (by rw [richBlock, lines_splitOn, hr]; rfl)⟩
  | @blank n s hn hs hb =>
    rcases hn with hn | hn
    · obtain ⟨t, gs, e, ht, _, hse, _⟩ := para_seen hp hn hc hs
      have : t = [] := by
        rw [← ht, ← rstrip_eq, rstrip_nil_iff]
        intro c hm
        rw [splitOn_nl] at hb
        by_cases hc : c = '\n'
        · subst hc; decide
        · obtain ⟨l, hl, hcl⟩ := mem_splitNL hm hc
          have := hb l hl
          rw [blankLine, List.all_eq_true] at this
          have := this c hcl
          rcases gap_cases this with rfl | rfl <;> decide
      subst this
      exact ⟨_, hse, by rw [richBlocks]; rfl⟩
    · have := self hc
      rw [hn] at this
      exact this.elim
  | @line n s l hn hs hl ht =>
    have h := self hc
    have card : ∀ u, fine uni none [.link u] u none = true → (s = "\n[".toList ++ u ++ "](".toList ++ u ++ ")\n".toList) →
        richBlocks uni [.para [l]] = some [.para (u.map (.char · { link := some u }))] := by
      intro u hf e
      have hno : '\n' ∉ spell [.link u] u := by
        have h1 := fine_nl uni _ _ _ _ hf
        simp [spell, h1]
      have e' : s = '\n' :: (spell [.link u] u ++ '\n' :: []) := by
        rw [e]
        simp [spell]
      rw [e', splitOn_nl, splitNL_nl, splitNL_append hno] at hl
      have hl : l = spell [.link u] u := by
        rw [List.filter_cons_of_neg (by simp [blankLine])] at hl
        have hb : blankLine (spell [.link u] u) = false := by simp [spell, blankLine]
        rw [List.filter_cons_of_pos (by rw [hb]; rfl)] at hl
        exact (List.cons.inj hl).1.symm
      refine richBlocks_one ?_
      rw [richBlock, show lines [l] = l by simp [lines, List.intercalate], hl, read_one hf]
      rfl
    simp only [List.mem_cons, List.not_mem_nil, or_false] at hn
    rcases hn with hn | hn | hn | hn <;> rw [hn] at h
    · obtain ⟨ss, h1, rfl⟩ := media_md hn hs
      obtain ⟨gs, h2, h3, h4, h5, h6, h7⟩ := neat_read (parsed_children hp) h.1 h1
      have hse := (seen_text h2).1 (.inr ⟨hn, h.2.1⟩)
      have hne : ss.flatten ≠ [] := by
        intro e
        rw [e] at hl
        simp [blankLine] at hl
      have e : ss.flatten = l := by
        rw [splitOn_nl, splitNL_of_noNL (images_nl (parsed_children hp) h.2.2 h.1 h1)] at hl
        by_cases hb : blankLine ss.flatten = true
        · simp [hb] at hl
        · simpa [hb] using hl
      rw [h5, if_neg (by simpa using hne)] at hse
      exact ⟨_, hse, richBlocks_one (by rw [richBlock, show lines [l] = l by simp [lines, List.intercalate], ← e, h3]; rfl)⟩
    · exact h.elim
    · obtain ⟨u, h1, h2⟩ := h
      have := C38_blockCard env n u false hn (strAttr_some h1)
      refine ⟨_, ?_, card u h2 (md_unique hs this)⟩
      rw [seen_eq, seenBy, hn]
      simp only [h1]
      rfl
    · obtain ⟨u, h1, h2⟩ := h
      have := C38_embedCard env n u false hn (strAttr_some h1)
      refine ⟨_, ?_, card u h2 (md_unique hs this)⟩
      rw [seen_eq, seenBy, hn]
      simp only [h1]
      rfl
  | @heading n kids ss k hn hl hk hcn hm ht =>
    have h := self hc
    rw [hn] at h
    rw [← children_val hcn] at hm
    obtain ⟨gs, h1, h2, _⟩ := neat_read (parsed_children hp) h hm
    exact ⟨_, (seen_text h1).2.2.2 k hn hl, richBlocks_one (by rw [richBlock, h2]; rfl)⟩
  | @rule n hn =>
    refine ⟨[.rule], ?_, richBlocks_one (by rw [richBlock])⟩
    rw [seen_eq, seenBy, hn]
  | @code n kids ss hn hcn hm hi hl ht =>
    have h := self hc
    rw [hn] at h
    rw [← children_val hcn] at hm
    have h1 := code_text (parsed_children hp) h hm
    refine ⟨[.code (language n) (ss.flatten.splitOn '\n')], ?_, richBlocks_one (by rw [richBlock])⟩
    rw [seen_eq, seenBy, hn]
    dsimp only
    rw [view_fst, h1]
    rfl
  | @quote n kids ss bss hn hcn hm hlen hk ha hne ih =>
    obtain ⟨h1, h2⟩ := kid hcn hp hc
    obtain ⟨rss, h3, h4⟩ := blocks_seen (env := env) (uni := uni) hlen
      (fun p hp' => ih p hp' (h1 _ (List.of_mem_zip hp').1) (h2 _ (List.of_mem_zip hp').1))
    exact ⟨_, (seen_blocks (by rw [children_val hcn]; exact h3)).2.1 hn, richBlocks_one (by rw [richBlock, h4]; rfl)⟩
  | @panel n kids ss bss ty hn hty hl hcn hm hlen hk ha ih =>
    obtain ⟨h1, h2⟩ := kid hcn hp hc
    obtain ⟨rss, h3, h4⟩ := blocks_seen (env := env) (uni := uni) hlen
      (fun p hp' => ih p hp' (h1 _ (List.of_mem_zip hp').1) (h2 _ (List.of_mem_zip hp').1))
    have hst : strAttr n "panelType" = some ty := by simp [strAttr, hty]
    have h := self hc
    rw [hn] at h
    refine ⟨_, (seen_blocks (by rw [children_val hcn]; exact h3)).2.2.1 ty hn hst, richBlocks_one ?_⟩
    have h5 := read_one (h ty hst)
    rw [richBlock, richBlocks, richBlock, show lines ["**".toList ++ upper env ty ++ "**".toList] =
      spell [.wrap '*' 2] (upper env ty) by simp [lines, List.intercalate, spell, List.replicate], h5, h4]
    rfl
  | @blocks n kids ss bss hn hcn hm hlen hk ha ih =>
    obtain ⟨h1, h2⟩ := kid hcn hp hc
    obtain ⟨rss, h3, h4⟩ := blocks_seen (env := env) (uni := uni) hlen
      (fun p hp' => ih p hp' (h1 _ (List.of_mem_zip hp').1) (h2 _ (List.of_mem_zip hp').1))
    refine ⟨_, (seen_blocks (by rw [children_val hcn]; exact h3)).1 ?_, h4⟩
    simp only [List.mem_cons, List.not_mem_nil, or_false] at hn
    rcases hn with hn | hn | hn <;> rw [hn] <;> decide
  | @decisions n kids ls hn hcn hm ht =>
    obtain ⟨h1, h2⟩ := kid hcn hp hc
    obtain ⟨rss, h3, h4⟩ := decisions_seen (uni := uni) hm (fun k hk => by simpa using (List.mem_filter.mp hk).2)
      (fun k hk => h1 k (List.mem_of_mem_filter hk)) (fun k hk => h2 k (List.mem_of_mem_filter hk))
    exact ⟨_, (seen_items .decisionItem (by rw [children_val hcn]; exact h3)).2.2 rfl hn, h4⟩
  | @bullets n kids items hn hcn hne h =>
    obtain ⟨h1, h2⟩ := kid hcn hp hc
    obtain ⟨rss, h3, h4⟩ := items_seen (uni := uni) h (.inl ⟨rfl, rfl⟩) (fun k hk => h1 k (List.mem_of_mem_filter hk))
      (fun k hk => by simpa using (List.mem_filter.mp hk).2) (fun k hk => h2 k (List.mem_of_mem_filter hk))
    exact ⟨_, (seen_items .listItem (by rw [children_val hcn]; exact h3)).1 rfl hn, richBlocks_one (by rw [richBlock, h4]; rfl)⟩
  | @numbers n kids items start hn hs hcn hne h =>
    obtain ⟨h1, h2⟩ := kid hcn hp hc
    obtain ⟨rss, h3, h4⟩ := items_seen (uni := uni) h (.inr ⟨rfl, rfl⟩) (fun k hk => h1 k (List.mem_of_mem_filter hk))
      (fun k hk => by simpa using (List.mem_filter.mp hk).2) (fun k hk => h2 k (List.mem_of_mem_filter hk))
    have hst : startOf n = start := by
      rcases hs with ⟨h, _⟩ | ⟨_, h | ⟨v, h, h5, h6, h7⟩⟩
      · omega
      · simp [startOf, h]
      · have : startOf n = 1 := by
          unfold startOf
          rw [h]
          cases v <;> first | rfl | exact absurd rfl (h5 _)
        omega
    have := (seen_items .listItem (by rw [children_val hcn]; exact h3)).2.1 rfl hn
    rw [hst] at this
    exact ⟨_, this, richBlocks_one (by rw [richBlock, h4]; rfl)⟩
  | @tasks n kids items hn hcn hne h =>
    obtain ⟨h1, h2⟩ := kid hcn hp hc
    obtain ⟨rss, h3, h4⟩ := tasks_seen (uni := uni) h (fun k hk => h1 k (List.mem_of_mem_filter hk))
      (fun k hk => h2 k (List.mem_of_mem_filter hk))
    exact ⟨_, seen_tasks hn (by rw [children_val hcn]; exact h3), richBlocks_one (by rw [richBlock, h4]; rfl)⟩
  | @table n head rows hs css hn hcn hh hr hhs hcs hw ht =>
    obtain ⟨h1, h2⟩ := kid hcn hp hc
    obtain ⟨hss, h3, h4, h5⟩ := row_seen hhs (h1 head (by simp)) (h2 head (by simp))
    obtain ⟨rsss, h6, h7⟩ := rows_seen (uni := uni) hcs (fun r hr => h1 r (by simp [hr])) (fun r hr => h2 r (by simp [hr])) hs.length
    refine ⟨[.table (hss :: rsss.map fun r => r ++ List.replicate (hs.length - r.length) [])], ?_, richBlocks_one ?_⟩
    · rw [seen_eq, seenBy, hn]
      dsimp only
      rw [children_val hcn, List.map_cons, mapM_some_cons (b := hss) (by rw [h3]; rfl) h6]
      dsimp only [Option.bind]
      rw [h5]
    · rw [richBlock, mapM_some_cons h4 h7]
      rfl

/-- C85 (what is missing: see `C83_false`, `C84_false`): if a parsed document shows the blocks `bs` and its inline content is
readable, a reader of its Markdown finds exactly what the editor shows: the same blocks, and in them the same characters with the
same style. -/
theorem C85_partial (env : Env) (uni : Char → CharClass) (n : Node) (bs : List Block) (hp : Parsed n) (hn : n.cls = .doc)
    (h : Shows env n bs) (hc : Clear env uni n) :
    ∃ s rs, Md env n s ∧ seen env n = some rs ∧ (∃ cs, Reads (s.splitOn '\n') cs ∧ richBlocks uni cs = some rs) ∧
      ∀ cs, Reads (s.splitOn '\n') cs → richBlocks uni cs = some rs := by
  obtain ⟨s, h1, h2, h3⟩ := C83_partial env n bs hp hn h
  obtain ⟨rs, h4, h5⟩ := shows_seen h hp hc
  exact ⟨s, rs, h1, h4, ⟨bs, h2, h5⟩, fun cs hcs => by rw [h3 cs hcs]; exact h5⟩

end Verif.Props
