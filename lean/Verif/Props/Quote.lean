import Verif.Lemmas.Attrs
import Verif.Lemmas.Lines
import Verif.Props.Docs
/-!
# C33-C36: block quotes, panels, code blocks, headings
-/

namespace Verif.Props
open Verif

/-! ## Specification -/

/-- What a reader of a fenced block takes for its code: the lines after the opening line, up to the
first line that starts with three back ticks. -/
def _root_.Verif.Spec.readFence (s : Str) : Str :=
  Spec.lines ((s.splitOn '\n').tail.takeWhile fun l => !("```".toList.isPrefixOf l))

/-! ## Lemmas -/

theorem indent_quoted {ls : List Str} (h : Spec.IsLines ls) :
    Str.indentAll ['>', ' '] ls.flatten = Spec.quoted ls := by
  unfold Str.indentAll Spec.quoted
  rw [splitKeep_isLines_flatten h]
  rfl

theorem isLines_exists (s : Str) : ∃ ls, Spec.IsLines ls ∧ ls.flatten = s :=
  ⟨_, isLines_split s, splitKeep_flatten s⟩

theorem iter_add (f : Nat → Nat) (a b k : Nat) : Spec.iter f a (Spec.iter f b k) = Spec.iter f (b + a) k := by
  induction b generalizing k with
  | zero => rw [Nat.zero_add]; rfl
  | succ b ih => rw [Nat.succ_add]; exact ih (f k)

theorem cleaned_cleaned (a b : Nat) (s : Str) :
    Spec.cleaned a (Spec.cleaned b s) = Spec.cleaned (b + a) s := by
  unfold Spec.cleaned Spec.mapRuns
  rw [mapRunsGo_comp]
  congr 1
  funext k
  exact iter_add _ a b k

theorem dispatch_blockquote (env : Env) (n : Node) (ig : Bool) (hn : n.cls = .blockquote) :
    n.toMarkdown env ig = strVal (blockquoteMd (slotItems env n.content) ig) := by
  have hn' : n.hd.cls = .blockquote := hn
  rw [toMarkdown_eq]; unfold dispatch; simp only [hn']; rfl

theorem dispatch_panel (env : Env) (n : Node) (ig : Bool) (hn : n.cls = .panel) :
    n.toMarkdown env ig = strVal (panelMd env n.hd.attrs (slotItems env n.content) ig) := by
  have hn' : n.hd.cls = .panel := hn
  rw [toMarkdown_eq]; unfold dispatch; simp only [hn']; rfl

theorem dispatch_code (env : Env) (n : Node) (ig : Bool) (hn : n.cls = .codeBlock) :
    n.toMarkdown env ig = strVal (codeBlockMd n.hd.attrs (slotItems env n.content) ig) := by
  have hn' : n.hd.cls = .codeBlock := hn
  rw [toMarkdown_eq]; unfold dispatch; simp only [hn']; rfl

theorem dispatch_heading (env : Env) (n : Node) (ig : Bool) (hn : n.cls = .heading) :
    n.toMarkdown env ig = strVal (headingMd n.hd.attrs (slotItems env n.content) ig) := by
  have hn' : n.hd.cls = .heading := hn
  rw [toMarkdown_eq]; unfold dispatch; simp only [hn']; rfl

/-! ## C33 -/

/-- C33: a block quote converts iff its children do, and the result is the text of the children (six
passes of blank-line clean-up) with every line prefixed, and a newline. -/
theorem C33_prefixed (env : Env) (n : Node) (kids : List Node) (hn : n.cls = .blockquote)
    (hc : n.content = .val kids) (hk : ∀ k ∈ kids, Spec.HasType k) (v : Val) :
    n.toMarkdown env false = .ok v ↔
      ∃ ss ls, Spec.MdAll env kids ss ∧ Spec.IsLines ls ∧
        ls.flatten = Spec.cleaned 6 (Spec.blocks kids ss) ∧ v = .str (Spec.quoted ls ++ ['\n']) := by
  rw [dispatch_blockquote env n false hn, hc]
  unfold blockquoteMd
  constructor
  · intro h
    obtain ⟨s, h1, rfl⟩ := strVal_str h
    cases hd : docContentToMarkdown false (slotItems env (.val kids)) with
    | error e => rw [hd] at h1; simp at h1
    | ok t =>
      obtain ⟨ss, h2, rfl⟩ := (docContent_iff env kids hk t).mp hd
      rw [hd] at h1
      simp only [Except.ok.injEq, strip_eq] at h1
      obtain ⟨ls, hl, hf⟩ := isLines_exists (Spec.cleaned 3 (Spec.docText kids ss))
      refine ⟨ss, ls, h2, hl, ?_, ?_⟩
      · rw [hf]; exact cleaned_cleaned 3 3 _
      · rw [← h1, ← indent_quoted hl, hf]; rfl
  · rintro ⟨ss, ls, h2, hl, hf, rfl⟩
    rw [(docContent_iff env kids hk _).mpr ⟨ss, h2, rfl⟩]
    simp only [strip_eq, strVal]
    have : Spec.mapRuns (Spec.iter Spec.shrink 3) (Spec.docText kids ss) = ls.flatten := by
      rw [hf]; exact cleaned_cleaned 3 3 _
    rw [this, indent_quoted hl]

/-- C33: quoting loses nothing: whatever text was quoted, every line of the quoted text starts with
`> `, and removing those two characters from every line gives the text back. -/
theorem C33_recover (ls ls' : List Str) (h : Spec.IsLines ls) (h' : Spec.IsLines ls')
    (e : ls'.flatten = Spec.quoted ls) :
    (∀ l ∈ ls', "> ".toList <+: l) ∧ (ls'.map (List.drop 2)).flatten = ls.flatten := by
  have hl : ls' = ls.map ("> ".toList ++ ·) := by
    rw [← splitKeep_isLines_flatten h', e]
    exact splitKeep_isLines_flatten
      (isLines_prefix (pre := "> ".toList) (by decide) (by decide) h)
  subst hl
  constructor
  · intro l hl
    obtain ⟨x, _, rfl⟩ := List.mem_map.mp hl
    exact ⟨x, rfl⟩
  · rw [List.map_map]
    have : (List.drop 2 ∘ fun x => "> ".toList ++ x) = (id : Str → Str) := rfl
    rw [this, List.map_id]

/-- Every text has lines. -/
theorem C33_lines_exist (s : Str) : ∃ ls, Spec.IsLines ls ∧ ls.flatten = s := isLines_exists s

example : (Samples.quote [Samples.para [Samples.text "a", Samples.hardBreak, Samples.text "b"],
      Samples.para [Samples.text "c"]]).toMarkdown Samples.env false =
    .ok (Samples.str "> a  \n> b\n> \n> c\n\n") := rfl

/-! ## C34 -/

/-- C34: a panel converts iff its children do, to the quoted lines of the label, a blank line and the
text of the children. -/
theorem C34_prefixed (env : Env) (n : Node) (kids : List Node) (ty : Str) (hn : n.cls = .panel)
    (hty : Spec.attr n "panelType" = some (.str ty)) (hc : n.content = .val kids)
    (hk : ∀ k ∈ kids, Spec.HasType k) (v : Val) :
    n.toMarkdown env false = .ok v ↔
      ∃ ss ls, Spec.MdAll env kids ss ∧ Spec.IsLines ls ∧
        ls.flatten = Spec.cleaned 3
          ("**".toList ++ upper env ty ++ "**\n\n".toList ++ Spec.docText kids ss) ∧
        v = .str (Spec.quoted ls ++ ['\n']) := by
  have hj : ∀ s, Str.join [Str.nl] [['*', '*'] ++ upper env ty ++ ['*', '*'], [], s] =
      "**".toList ++ upper env ty ++ "**\n\n".toList ++ s := by
    intro s; simp [Str.join]
  rw [dispatch_panel env n false hn, hc]
  unfold panelMd
  simp only [getAttr_eq hty, Val.asStr?]
  constructor
  · intro h
    obtain ⟨s, h1, rfl⟩ := strVal_str h
    cases hd : docContentToMarkdown false (slotItems env (.val kids)) with
    | error e => rw [hd] at h1; simp at h1
    | ok t =>
      obtain ⟨ss, h2, rfl⟩ := (docContent_iff env kids hk t).mp hd
      rw [hd] at h1
      simp only [Except.ok.injEq, strip_eq, hj] at h1
      obtain ⟨ls, hl, hf⟩ := isLines_exists (Spec.cleaned 3
          ("**".toList ++ upper env ty ++ "**\n\n".toList ++ Spec.docText kids ss))
      refine ⟨ss, ls, h2, hl, hf, ?_⟩
      rw [← h1, ← indent_quoted hl, hf]; rfl
  · rintro ⟨ss, ls, h2, hl, hf, rfl⟩
    rw [(docContent_iff env kids hk _).mpr ⟨ss, h2, rfl⟩]
    simp only [strip_eq, strVal, hj]
    have : Spec.mapRuns (Spec.iter Spec.shrink 3)
        ("**".toList ++ upper env ty ++ "**\n\n".toList ++ Spec.docText kids ss) = ls.flatten := hf.symm
    rw [this, indent_quoted hl]

theorem mapRunsGo_noNL (f : Nat → Nat) (h0 : f 0 = 0) {a : Str} (ha : '\n' ∉ a) (s : Str) :
    Spec.mapRunsGo f 0 (a ++ s) = a ++ Spec.mapRunsGo f 0 s := by
  induction a with
  | nil => rfl
  | cons c cs ih =>
    simp only [List.mem_cons, not_or] at ha
    rw [List.cons_append, Spec.mapRunsGo, if_neg (fun h => ha.1 h.symm), h0, ih ha.2]
    rfl

theorem mapRunsGo_noHead (f : Nat → Nat) (h0 : f 0 = 0) {r : Str} (hr : NoHead r) (k : Nat) :
    Spec.mapRunsGo f k r = List.replicate (f k) '\n' ++ Spec.mapRunsGo f 0 r := by
  cases r with
  | nil => simp [Spec.mapRunsGo, h0]
  | cons c cs =>
    rw [Spec.mapRunsGo, Spec.mapRunsGo, if_neg (hr c cs rfl), if_neg (hr c cs rfl), h0]
    rfl

theorem exists_run (s : Str) : ∃ j r, NoHead r ∧ s = List.replicate j '\n' ++ r := by
  induction s with
  | nil => exact ⟨0, [], by simp [NoHead], rfl⟩
  | cons c cs ih =>
    by_cases hc : c = '\n'
    · obtain ⟨j, r, hr, rfl⟩ := ih
      exact ⟨j + 1, r, hr, by rw [hc]; rfl⟩
    · exact ⟨0, c :: cs, by intro a as h; simp at h; rw [← h.1]; exact hc, rfl⟩

theorem iter_shrink_two (m k : Nat) (h : 2 ≤ k) : 2 ≤ Spec.iter Spec.shrink m k := by
  induction m generalizing k with
  | zero => exact h
  | succ m ih => apply ih; unfold Spec.shrink; omega

theorem noHead_iff (r : Str) : (∀ t, r ≠ '\n' :: t) ↔ NoHead r := by
  unfold NoHead
  constructor
  · rintro h c cs rfl rfl; exact h cs rfl
  · rintro h t rfl; exact h _ t rfl rfl

/-- C34: for a label without line breaks, the quoted text is the label, at least two newlines, and
the text of the children (without its leading newlines, cleaned up). -/
theorem C34_label_then_content (label text : Str) (hl : '\n' ∉ label) :
    ∃ j k rest, 2 ≤ k ∧ text = List.replicate j '\n' ++ rest ∧ (∀ t, rest ≠ '\n' :: t) ∧
      Spec.cleaned 3 ("**".toList ++ label ++ "**\n\n".toList ++ text) =
        "**".toList ++ label ++ "**".toList ++ List.replicate k '\n' ++ Spec.cleaned 3 rest := by
  obtain ⟨j, rest, hr, rfl⟩ := exists_run text
  refine ⟨j, Spec.iter Spec.shrink 3 (2 + j), rest, iter_shrink_two 3 _ (by omega), rfl,
    (noHead_iff rest).mpr hr, ?_⟩
  have e : "**".toList ++ label ++ "**\n\n".toList ++ (List.replicate j '\n' ++ rest) =
      ("**".toList ++ label ++ "**".toList) ++ (List.replicate (2 + j) '\n' ++ rest) := by
    rw [show List.replicate (2 + j) '\n' = '\n' :: '\n' :: List.replicate j '\n' by
      rw [Nat.add_comm]; rfl]
    simp
  rw [e]
  unfold Spec.cleaned Spec.mapRuns
  rw [mapRunsGo_noNL _ (iter_shrink_zero 3) (by simp [hl]), mapRunsGo_replicate, Nat.zero_add,
    mapRunsGo_noHead _ (iter_shrink_zero 3) hr]
  simp

/-- C34: for a label without line breaks, a panel starts with the quoted label and a quoted blank
line. -/
theorem C34_label (env : Env) (n : Node) (kids : List Node) (ty : Str) (hn : n.cls = .panel)
    (hty : Spec.attr n "panelType" = some (.str ty)) (hc : n.content = .val kids)
    (hk : ∀ k ∈ kids, Spec.HasType k) (hl : ∀ c ∈ upper env ty, Spec.lineBreak c = false) (s : Str)
    (h : n.toMarkdown env false = .ok (.str s)) :
    "> **".toList ++ upper env ty ++ "**\n> \n".toList <+: s := by
  obtain ⟨ss, ls, _, hls, hf, he⟩ := (C34_prefixed env n kids ty hn hty hc hk _).mp h
  have hnl : '\n' ∉ upper env ty := fun hm => absurd (hl _ hm) (by decide)
  obtain ⟨j, k, rest, hk2, _, _, e⟩ := C34_label_then_content (upper env ty) (Spec.docText kids ss) hnl
  rw [e] at hf
  obtain ⟨k, rfl⟩ := Nat.exists_eq_add_of_le hk2
  have hsplit : ls = ("**".toList ++ upper env ty ++ "**".toList ++ ['\n']) :: (['\n']) ::
      Str.splitLinesKeep (List.replicate k '\n' ++ Spec.cleaned 3 rest) := by
    rw [← splitKeep_isLines_flatten hls, hf]
    have hbody : ∀ c ∈ "**".toList ++ upper env ty ++ "**".toList, Spec.lineBreak c = false := by
      intro c hcm
      simp only [List.mem_append] at hcm
      rcases hcm with (hcm | hcm) | hcm
      · revert c; decide
      · exact hl c hcm
      · revert c; decide
    have ht : Spec.IsTerminator ['\n'] := .inr ⟨'\n', by decide, rfl⟩
    have := splitKeep_term _ ['\n'] ('\n' :: (List.replicate k '\n' ++ Spec.cleaned 3 rest)) hbody ht
      (by intro h; simp at h)
    have h2 := splitKeep_term [] ['\n'] (List.replicate k '\n' ++ Spec.cleaned 3 rest) (by simp) ht
      (by intro h; simp at h)
    rw [show 2 + k = k + 1 + 1 by omega]
    simp only [List.replicate_succ]
    simp only [List.append_assoc, List.cons_append, List.nil_append] at this h2 ⊢
    rw [this, h2]
  simp only [Val.str.injEq] at he
  rw [he, hsplit]
  unfold Spec.quoted
  simp only [List.map_cons, List.flatten_cons]
  exact ⟨_, by simp; rfl⟩

/-- The labels of the six panel types. -/
theorem C34_types (env : Env) :
    upper env "info".toList = "INFO".toList ∧ upper env "note".toList = "NOTE".toList ∧
    upper env "tip".toList = "TIP".toList ∧ upper env "warning".toList = "WARNING".toList ∧
    upper env "error".toList = "ERROR".toList ∧ upper env "success".toList = "SUCCESS".toList ∧
    upper env "custom".toList = "CUSTOM".toList := ⟨rfl, rfl, rfl, rfl, rfl, rfl, rfl⟩

example : (Samples.panel "info" [Samples.para [Samples.text "a"],
      Samples.para [Samples.text "c"]]).toMarkdown Samples.env false =
    .ok (Samples.str "> **INFO**\n> \n> a\n> \n> c\n\n") := rfl
example : Spec.attr (Samples.panel "info" []) "panelType" = some (Samples.str "info") := rfl

/-! ## C35 -/

theorem codeLang_eq {n : Node} (ha : n.hd.attrs = .opt ∨ ∃ v, Spec.attr n "language" = some v) :
    codeLang n.hd.attrs = .ok (Spec.language n) := by
  unfold codeLang Spec.language
  rcases ha with ha | ⟨v, hv⟩
  · rw [ha]
    simp only [Spec.attr, ha]
  · have hg := getAttr_eq hv
    cases hs : n.hd.attrs with
    | val a =>
      rw [hs] at hg
      simp only [hg, hv]
      cases v <;> simp [Val.asStr?]
      next l => split <;> rfl
    | _ => simp [Spec.attr, hs] at hv

/-- C35: a code block converts iff its children do, to the opening fence with the language, the
concatenated children verbatim, and the closing fence. -/
theorem C35_verbatim (env : Env) (n : Node) (kids : List Node) (hn : n.cls = .codeBlock)
    (ha : n.hd.attrs = .opt ∨ ∃ v, Spec.attr n "language" = some v) (hc : n.content = .val kids)
    (v : Val) :
    n.toMarkdown env false = .ok v ↔ ∃ ss, Spec.MdAll env kids ss ∧
      v = .str ("```".toList ++ Spec.language n ++ "\n".toList ++ ss.flatten ++ "\n```".toList) := by
  rw [dispatch_code env n false hn, hc]
  unfold codeBlockMd
  rw [codeLang_eq ha]
  constructor
  · intro h
    obtain ⟨s, h1, rfl⟩ := strVal_str h
    cases hd : contentToMarkdown [] false (slotItems env (.val kids)) with
    | error e => rw [hd] at h1; simp at h1
    | ok t =>
      obtain ⟨ss, h2, rfl⟩ := (content_iff env [] kids t).mp hd
      rw [hd, join_nil_eq] at h1
      exact ⟨ss, h2, by rw [← Except.ok.inj h1]; rfl⟩
  · rintro ⟨ss, h, rfl⟩
    rw [(content_iff env [] kids _).mpr ⟨ss, h, rfl⟩, join_nil_eq]
    rfl

/-- C35: the condition on the attrs holds of every parsed code block. -/
theorem C35_attrs (n : Node) (hp : Spec.Parsed n) (hn : n.cls = .codeBlock) :
    n.hd.attrs = .opt ∨ ∃ v, Spec.attr n "language" = some v := by
  rcases parsed_attrs_cases hp (by rw [hn]; decide) with h | h
  · exact .inl h
  · exact .inr (h _ (by rw [hn]; decide))

theorem takeWhile_append_neg {α : Type} (p : α → Bool) (l : List α) (a : α) (ha : p a = false) :
    (l ++ [a]).takeWhile p = l.takeWhile p := by
  induction l with
  | nil => simp [ha]
  | cons b l ih => simp only [List.cons_append, List.takeWhile_cons, ih]

theorem takeWhile_prefix_eq {α : Type} (p : α → Bool) (l : List α) (h : l.takeWhile p = l) :
    ∀ a ∈ l, p a = true := by
  induction l with
  | nil => simp
  | cons b l ih =>
    rw [List.takeWhile_cons] at h
    split at h
    · next hb =>
      intro a ha
      rcases List.mem_cons.mp ha with rfl | ha
      · exact hb
      · exact ih (List.cons.inj h).2 a ha
    · simp at h

theorem takeWhile_all {α : Type} (p : α → Bool) (l : List α) (h : ∀ a ∈ l, p a = true) :
    l.takeWhile p = l := by
  induction l with
  | nil => rfl
  | cons b l ih =>
    rw [List.takeWhile_cons, if_pos (h b (by simp)), ih (fun a ha => h a (by simp [ha]))]

/-- The second half of C35, exactly: a reader of the fenced block recovers the code iff no line of
the code starts with three back ticks.  (What is missing from C35: the fence is never lengthened, so
code that contains such a line is not recovered, `C35_false`.) -/
theorem C35_partial_recover (lang code : Str) (hl : '\n' ∉ lang) :
    Spec.readFence ("```".toList ++ lang ++ "\n".toList ++ code ++ "\n```".toList) = code ↔
      ∀ l ∈ code.splitOn '\n', ¬ "```".toList <+: l := by
  rw [splitOn_nl]
  have e : Str.splitNL ("```".toList ++ lang ++ "\n".toList ++ code ++ "\n```".toList) =
      ("```".toList ++ lang) :: (Str.splitNL code ++ ["```".toList]) := by
    have h1 := splitNL_append_gen code "```".toList
    have h2 := splitNL_append (a := "```".toList ++ lang) (by simp [hl]) (code ++ '\n' :: "```".toList)
    have : "```".toList ++ lang ++ "\n".toList ++ code ++ "\n```".toList =
      ("```".toList ++ lang) ++ '\n' :: (code ++ '\n' :: "```".toList) := by simp
    rw [this, h2, h1]
    rfl
  unfold Spec.readFence Spec.lines
  rw [splitOn_nl, lines_eq]
  rw [e, List.tail_cons, takeWhile_append_neg _ _ _ (by decide)]
  have hp : ∀ l : Str, (!("```".toList.isPrefixOf l)) = true ↔ ¬ "```".toList <+: l := by
    intro l; rw [← List.isPrefixOf_iff_prefix, Bool.not_eq_true', Bool.not_eq_true]
  constructor
  · intro h l hlm
    rw [← hp]
    apply takeWhile_prefix_eq _ _ _ l hlm
    have hne : (Str.splitNL code).takeWhile (fun l => !("```".toList.isPrefixOf l)) ≠ [] := by
      intro hnil
      rw [hnil] at h
      simp only [Str.join] at h
      rw [← h] at hnil
      simp [Str.splitNL] at hnil
    have := splitNL_join hne (fun a ha => splitNL_noNL code a (List.takeWhile_subset _ ha))
    rw [h] at this
    exact this.symm
  · intro h
    rw [takeWhile_all _ _ (fun l hlm => (hp l).mpr (h l hlm)), join_splitNL]

/-- The second half of C35 is false of the code: a parsed code block whose own content closes the
fence early. -/
theorem C35_false : ∃ n s code, Spec.Parsed n ∧ n.cls = .codeBlock ∧
    n.content = .val [Samples.text code] ∧ n.toMarkdown Samples.env false = .ok (.str s) ∧
    Spec.readFence s ≠ code.toList := by
  refine ⟨Samples.code .opt [Samples.text "a\n```\nb"], _, "a\n```\nb",
    ⟨true, Samples.j "codeBlock" [("content", .list [Samples.j "text" [("text", Samples.str "a\n```\nb")]])], rfl⟩,
    rfl, rfl, rfl, by decide⟩

example : (Samples.code (Samples.attrs [("language", Samples.str "python"), ("uniqueId", .opt),
      ("localId", .opt)]) [Samples.text "x = 1\n", Samples.text "y"]).toMarkdown Samples.env false =
    .ok (Samples.str "```python\nx = 1\ny\n```") := rfl

/-! ## C36 -/

/-- C36: a heading of level `k` converts iff its children do, to two newlines, `k` times `#`, a
space, the concatenated children, and two newlines. -/
theorem C36_heading (env : Env) (n : Node) (kids : List Node) (k : Int) (hn : n.cls = .heading)
    (hl : Spec.attr n "level" = some (.int k)) (hc : n.content = .val kids) (v : Val) :
    n.toMarkdown env false = .ok v ↔ ∃ ss, Spec.MdAll env kids ss ∧
      v = .str ("\n\n".toList ++ List.replicate k.toNat '#' ++ " ".toList ++ ss.flatten ++
        "\n\n".toList) := by
  have hrep : Str.rep ['#'] k = List.replicate k.toNat '#' := by
    unfold Str.rep
    rw [List.flatten_replicate_singleton]
  rw [dispatch_heading env n false hn, hc]
  unfold headingMd
  simp only [getAttr_eq hl, Val.asInt?]
  constructor
  · intro h
    obtain ⟨s, h1, rfl⟩ := strVal_str h
    cases hd : contentToMarkdown [] false (slotItems env (.val kids)) with
    | error e => rw [hd] at h1; simp at h1
    | ok t =>
      obtain ⟨ss, h2, rfl⟩ := (content_iff env [] kids t).mp hd
      rw [hd, join_nil_eq, hrep] at h1
      exact ⟨ss, h2, by rw [← Except.ok.inj h1]; simp⟩
  · rintro ⟨ss, h, rfl⟩
    rw [(content_iff env [] kids _).mpr ⟨ss, h, rfl⟩, join_nil_eq, hrep]
    simp [strVal]

/-- C36: the heading occupies a single line (between two empty ones on both sides) iff no child's
Markdown contains a newline. -/
theorem C36_single_line (k : Int) (ss : List Str) :
    ("\n\n".toList ++ List.replicate k.toNat '#' ++ " ".toList ++ ss.flatten ++
        "\n\n".toList).splitOn '\n' =
      [[], [], List.replicate k.toNat '#' ++ " ".toList ++ ss.flatten, [], []] ↔
    ∀ s ∈ ss, '\n' ∉ s := by
  have e : "\n\n".toList ++ List.replicate k.toNat '#' ++ " ".toList ++ ss.flatten ++ "\n\n".toList =
      ([] : Str) ++ '\n' :: (([] : Str) ++ '\n' :: ((List.replicate k.toNat '#' ++ " ".toList ++ ss.flatten) ++
        '\n' :: (([] : Str) ++ '\n' :: ([] : Str)))) := by simp
  rw [splitOn_nl, e, splitNL_append_gen, splitNL_append_gen, splitNL_append_gen, splitNL_append_gen]
  simp only [Str.splitNL, List.cons_append, List.nil_append, List.cons.injEq, true_and]
  constructor
  · intro h s hs hn
    have h' : Str.splitNL (List.replicate k.toNat '#' ++ " ".toList ++ ss.flatten) =
        [List.replicate k.toNat '#' ++ " ".toList ++ ss.flatten] := by
      have := List.append_cancel_right (bs := [[], []]) (as := Str.splitNL _) (cs := [_]) h
      exact this
    have := splitNL_noNL (List.replicate k.toNat '#' ++ " ".toList ++ ss.flatten) _
      (by rw [h']; exact List.mem_singleton.mpr rfl)
    exact this (List.mem_append_right _ (List.mem_flatten.mpr ⟨s, hs, hn⟩))
  · intro h
    rw [splitNL_of_noNL]
    · rfl
    · simp only [List.mem_append, List.mem_replicate, List.mem_flatten, not_or, not_and]
      refine ⟨⟨fun _ h => absurd h (by decide), by decide⟩, ?_⟩
      rintro ⟨l, hl, hn⟩
      exact h l hl hn

/-- C36: every parsed heading has a level. -/
theorem C36_level (n : Node) (hp : Spec.Parsed n) (hn : n.cls = .heading) :
    ∃ v, Spec.attr n "level" = some v :=
  parsed_attr hp (by rw [hn]; decide) (by rw [hn]; decide)

example : (Samples.heading 3 [Samples.text "a"]).toMarkdown Samples.env false =
    .ok (Samples.str "\n\n### a\n\n") := rfl

/-! ### The theorems on samples -/

example := C33_prefixed Samples.env (Samples.quote [Samples.para [Samples.text "a"], Samples.para [Samples.text "b"]])
  _ rfl rfl (Samples.hasTypes rfl)

example := C34_prefixed Samples.env (Samples.panel "info" [Samples.para [Samples.text "a"], Samples.para [Samples.text "b"]])
  _ "info".toList rfl rfl rfl (Samples.hasTypes rfl)

example := C34_label_then_content "INFO".toList "\n\na\n".toList (by decide)

example := C34_label Samples.env (Samples.panel "info" [Samples.para [Samples.text "a"]]) _ "info".toList rfl rfl rfl
  (Samples.hasTypes rfl) (by decide) "> **INFO**\n> \n> a\n\n".toList rfl

example := C35_verbatim Samples.env (Samples.code .opt [Samples.text "x = 1\n", Samples.text "y"]) _ rfl (.inl rfl) rfl

example := C35_attrs (Samples.parse (Samples.j "codeBlock" [("attrs", .dict [("language", Samples.str "c")])]))
  (Samples.parsed rfl) rfl

example := C35_partial_recover "python".toList "x = 1\ny".toList (by decide)

example := C36_heading Samples.env (Samples.heading 3 [Samples.text "a"]) _ 3 rfl rfl rfl

example := C36_level (Samples.parse (Samples.j "heading" [("attrs", .dict [("level", .int 2)])])) (Samples.parsed rfl) rfl

example := C33_recover ["a\n".toList, "b".toList] ["> a\n".toList, "> b".toList]
  (.cons "a".toList "\n".toList _ (by decide) (.inr ⟨_, by decide, rfl⟩) nofun (.last _ (by decide) (by decide)))
  (.cons "> a".toList "\n".toList _ (by decide) (.inr ⟨_, by decide, rfl⟩) nofun (.last _ (by decide) (by decide))) rfl

end Verif.Props
