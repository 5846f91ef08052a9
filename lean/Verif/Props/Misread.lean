import Verif.Props.Reading
/-!
# C83: documents whose Markdown is read as something else, and a document that is read as it should
-/

namespace Verif.Props
open Verif Spec

namespace Doc
def text (s : String) : Val := Samples.j "text" [("text", Samples.str s)]
def para (l : List Val) : Val := Samples.j "paragraph" [("content", .list l)]
def p (s : String) : Val := para [text s]
def brk : Val := Samples.j "hardBreak" []
def item (l : List Val) : Val := Samples.j "listItem" [("content", .list l)]
def bullets (l : List Val) : Val := Samples.j "bulletList" [("content", .list l)]
def numbers (l : List Val) : Val := Samples.j "orderedList" [("attrs", .dict [("order", .int 1)]), ("content", .list l)]
def code (s : String) : Val := Samples.j "codeBlock" [("content", .list [text s])]
def tasks (l : List Val) : Val := Samples.j "taskList" [("attrs", .dict [("localId", Samples.str "l")]), ("content", .list l)]
def task (s : String) : Val :=
  Samples.j "taskItem" [("attrs", .dict [("localId", Samples.str "t"), ("state", Samples.str "TODO")]), ("content", .list [text s])]
def decisions (l : List String) : Val :=
  Samples.j "decisionList" [("attrs", .dict [("localId", Samples.str "l")]), ("content", .list (l.map fun s =>
    Samples.j "decisionItem" [("attrs", .dict [("localId", Samples.str "i"), ("state", Samples.str "DECIDED")]),
      ("content", .list [text s])]))]
def cell (s : String) : Val := Samples.j "tableCell" [("content", .list [p s])]
def hcell (s : String) : Val := Samples.j "tableHeader" [("content", .list [p s])]
def row (l : List Val) : Val := Samples.j "tableRow" [("content", .list l)]
def table (l : List Val) : Val := Samples.j "table" [("content", .list l)]
def doc (l : List Val) : Val := Samples.j "doc" [("version", .int 1), ("content", .list l)]
end Doc

def line (s : String) : Block := .para [s.toList]

/-- Documents, the blocks they should be read as, and the blocks they are read as. -/
def misread : List (Val × List Block × List Block) := [
  -- two lists
  (Doc.doc [Doc.bullets [Doc.item [Doc.p "a"]], Doc.bullets [Doc.item [Doc.p "b"]]],
    [.bullets [[line "a"]], .bullets [[line "b"]]], [.bullets [[line "a"], [line "b"]]]),
  -- a task list and a list
  (Doc.doc [Doc.tasks [Doc.task "a"], Doc.bullets [Doc.item [Doc.p "b"]]],
    [.bullets [[line "[ ] a"]], .bullets [[line "b"]]], [.bullets [[line "[ ] a"], [line "b"]]]),
  -- code with two empty lines in a row
  (Doc.doc [Doc.code "a\n\n\nb"],
    [.code [] ["a".toList, [], [], "b".toList]], [.code [] ["a".toList, [], "b".toList]]),
  -- code with fences in it
  (Doc.doc [Doc.code "```\n\na\n\n```"],
    [.code [] ["```".toList, [], "a".toList, [], "```".toList]], [.code [] [], line "a", .code [] []]),
  -- plain text that is Markdown
  (Doc.doc [Doc.p "# a"], [line "# a"], [.heading 1 ['a']]),
  (Doc.doc [Doc.p "- a"], [line "- a"], [.bullets [[line "a"]]]),
  (Doc.doc [Doc.p "7. a"], [line "7. a"], [.numbers 7 [[line "a"]]]),
  (Doc.doc [Doc.p "> a"], [line "> a"], [.quote [line "a"]]),
  (Doc.doc [Doc.p "---"], [line "---"], [.rule]),
  (Doc.doc [Doc.para [Doc.text "a", Doc.brk, Doc.text "- b"]],
    [.para ["a  ".toList, "- b".toList]], [line "a  ", .bullets [[line "b"]]]),
  -- a list in an item of a list of the other kind
  (Doc.doc [Doc.numbers [Doc.item [Doc.p "a", Doc.bullets [Doc.item [Doc.p "b"]]]]],
    [.numbers 1 [[line "a", .bullets [[line "b"]]]]], [.numbers 1 [[line "a"]], .bullets [[line "b"]]]),
  -- two paragraphs, or a paragraph and code, in an item
  (Doc.doc [Doc.bullets [Doc.item [Doc.p "a", Doc.p "b"]]],
    [.bullets [[line "a", line "b"]]], [.bullets [[.para ["a".toList, "b".toList]]]]),
  (Doc.doc [Doc.bullets [Doc.item [Doc.p "a", Doc.code "b"]]],
    [.bullets [[line "a", .code [] ["b".toList]]]], [.bullets [[line "a"]], .code [] ["b".toList]]),
  -- tasks, decisions, a table before a paragraph
  (Doc.doc [Doc.tasks [Doc.task "a"], Doc.p "b"],
    [.bullets [[line "[ ] a"]], line "b"], [.bullets [[.para ["[ ] a".toList, "b".toList]]]]),
  (Doc.doc [Doc.decisions ["a"], Doc.p "b"], [.quote [line "a"], line "b"], [.quote [.para ["a".toList, "b".toList]]]),
  (Doc.doc [Doc.table [Doc.row [Doc.hcell "a"], Doc.row [Doc.cell "b"]], Doc.p "c"],
    [.table ["a<br>".toList] [["b<br>".toList]], line "c"], [.table ["a<br>".toList] [["b<br>".toList], ["c".toList]]]),
  -- a table with a header column, one without a header, one with too many cells
  (Doc.doc [Doc.table [Doc.row [Doc.hcell "a", Doc.cell "b"], Doc.row [Doc.hcell "c", Doc.cell "d"]]],
    [.table ["a<br>".toList, "b<br>".toList] [["c<br>".toList, "d<br>".toList]]],
    [.table ["a<br>".toList, "b<br>".toList] [["c<br>".toList, "d<br>".toList], ["---".toList, "---".toList]]]),
  (Doc.doc [Doc.table [Doc.row [Doc.cell "a"], Doc.row [Doc.cell "b"]]],
    [.table [[]] [["a<br>".toList], ["b<br>".toList]]], [.para ["| a<br> |".toList, "| b<br> |".toList]]),
  (Doc.doc [Doc.table [Doc.row [Doc.hcell "a"], Doc.row [Doc.cell "b", Doc.cell "c"]]],
    [.table ["a<br>".toList, []] [["b<br>".toList, "c<br>".toList]]], [.table ["a<br>".toList] [["b<br>".toList]]])]

/-- The document parses, and its Markdown is read as `found`, which is not `expected`. -/
def misreads (v : Val) (expected found : List Block) : Bool :=
  Samples.parses v && (Samples.parse v).cls == .doc &&
  match strOut ((Samples.parse v).toMarkdown Samples.env false) with
  | some s => readsAs s found && !blocksEq found expected
  | none => false

theorem misreads_sound (v : Val) (expected found : List Block) (h : misreads v expected found = true) :
    ∃ n s, (parseNode true v).out = .ok n ∧ n.cls = .doc ∧ Md Samples.env n s ∧ Reads (s.splitOn '\n') found ∧
      ¬ Reads (s.splitOn '\n') expected := by
  unfold misreads at h
  rw [Bool.and_eq_true, Bool.and_eq_true] at h
  obtain ⟨⟨h0, h1⟩, h2⟩ := h
  split at h2
  next s hs =>
    rw [Bool.and_eq_true] at h2
    refine ⟨Samples.parse v, s, Samples.out_parse h0, by simpa using h1, ?_, ?_, ?_⟩
    · unfold Md
      unfold strOut at hs
      split at hs <;> simp_all
    · rw [splitOn_nl]; exact readsAs_sound h2.1
    · intro he
      rw [splitOn_nl] at he
      have := reads_unique (readsAs_sound h2.1) he
      rw [(blocksEq_iff found expected).mpr this] at h2
      exact absurd h2.2 (by decide)
  · cases h2

/-- C83 is false of the code: each of these documents is read as other blocks than its own. -/
theorem C83_false : ∀ e ∈ misread, ∃ n s, (parseNode true e.1).out = .ok n ∧ n.cls = .doc ∧ Md Samples.env n s ∧
    Reads (s.splitOn '\n') e.2.2 ∧ ¬ Reads (s.splitOn '\n') e.2.1 := by
  have h : (misread.all fun e => misreads e.1 e.2.1 e.2.2) = true := by decide +kernel
  intro e he
  exact misreads_sound _ _ _ (List.all_eq_true.mp h e he)

/-- `Apart`, as a program. -/
def apartB (kids : List Node) (ss : List Str) (bss : List (List Block)) : Bool :=
  (go fun s t => lastBlank (Str.splitNL s) || headBlank (Str.splitNL t)) (List.zipWith padded kids ss) &&
  (go fun a b => !sameList a b) bss.flatten
where go {α : Type} (r : α → α → Bool) : List α → Bool
  | a :: b :: l => r a b && go r (b :: l)
  | _ => true

theorem go_sound {α : Type} (r : α → α → Bool) : ∀ l : List α, apartB.go r l = true → l.IsChain fun a b => r a b = true
  | [], _ => by simp
  | [a], _ => by simp
  | a :: b :: l, h => by
    rw [apartB.go, Bool.and_eq_true] at h
    rw [List.isChain_cons_cons]
    exact ⟨h.1, go_sound r (b :: l) h.2⟩

theorem apartB_sound {kids : List Node} {ss : List Str} {bss : List (List Block)} (h : apartB kids ss bss = true) :
    Apart kids ss bss := by
  unfold apartB at h
  rw [Bool.and_eq_true] at h
  refine ⟨(go_sound _ _ h.1).imp fun a b hab => ?_, (go_sound _ _ h.2).imp fun a b hab => by simpa using hab⟩
  rw [touch_iff]
  rintro ⟨h1, h2⟩
  rw [h1, h2] at hab
  cases hab

/-! ### A document that is read as it should -/

/-- A heading, a paragraph with a hard break, a nested list, a numbered list, a quote with a list, code, a rule. -/
def planJson : Val := Doc.doc [
  Samples.j "heading" [("attrs", .dict [("level", .int 2)]), ("content", .list [Doc.text "Plan"])],
  Doc.para [Doc.text "one", Doc.brk, Doc.text "two"],
  Doc.bullets [Doc.item [Doc.p "a", Doc.bullets [Doc.item [Doc.p "b"]]], Doc.item [Doc.para [Doc.text "c", Doc.brk, Doc.text "k"]]],
  Doc.numbers [Doc.item [Doc.p "d"], Doc.item [Doc.p "e"]],
  Samples.j "blockquote" [("content", .list [Doc.p "f", Doc.bullets [Doc.item [Doc.p "g"]]])],
  Doc.code "x\n\ny",
  Samples.j "rule" []]

def planKids : List Node := [
  Samples.heading 2 [Samples.text "Plan"],
  Samples.para [Samples.text "one", Samples.hardBreak, Samples.text "two"],
  Samples.bullets [Samples.item [Samples.para [Samples.text "a"], Samples.bullets [Samples.item [Samples.para [Samples.text "b"]]]],
    Samples.item [Samples.para [Samples.text "c", Samples.hardBreak, Samples.text "k"]]],
  Samples.ordered (Samples.orderAttrs 1) [Samples.item [Samples.para [Samples.text "d"]], Samples.item [Samples.para [Samples.text "e"]]],
  Samples.quote [Samples.para [Samples.text "f"], Samples.bullets [Samples.item [Samples.para [Samples.text "g"]]]],
  Samples.code .opt [Samples.text "x\n\ny"],
  .mk ⟨.rule, Samples.str "rule", none, none, .opt, .absent⟩ .absent]

def planTexts : List Str := ["\n\n## Plan\n\n".toList, "one  \ntwo\n".toList, "- a\n    - b\n- c  \nk".toList, "1. d\n2. e".toList,
  "> f\n> \n> - g\n\n".toList, "```\nx\n\ny\n```".toList, "\n\n---\n\n".toList]

def planBlocks : List (List Block) := [
  [.heading 2 "Plan".toList],
  [.para ["one  ".toList, "two".toList]],
  [.bullets [[line "a", .bullets [[line "b"]]], [.para ["c  ".toList, "k".toList]]]],
  [.numbers 1 [[line "d"], [line "e"]]],
  [.quote [line "f", .bullets [[line "g"]]]],
  [.code [] ["x".toList, [], "y".toList]],
  [.rule]]

theorem plan_md : MdAll Samples.env planKids planTexts :=
  .cons rfl (.cons rfl (.cons rfl (.cons rfl (.cons rfl (.cons rfl (.cons rfl .nil))))))

theorem plan_parsed : Parsed (Samples.doc planKids) := ⟨true, planJson, rfl⟩

theorem plan_shows : Shows Samples.env (Samples.doc planKids) planBlocks.flatten := by
  refine .blocks (by decide) rfl plan_md rfl ?_ ?_
  · intro p hp
    simp only [planKids, planBlocks, List.zip_cons_cons, List.zip_nil_right, List.mem_cons, List.not_mem_nil, or_false] at hp
    rcases hp with rfl | rfl | rfl | rfl | rfl | rfl | rfl
    · exact .heading (k := 2) (ss := ["Plan".toList]) rfl rfl (by decide) rfl (.cons rfl .nil) ⟨by decide, by decide, by decide, by decide⟩
    · exact .para (kids := [Samples.text "one", Samples.hardBreak, Samples.text "two"])
        (ss := ["one".toList, "  \n".toList, "two".toList]) (t := "one  \ntwo".toList) rfl rfl (.cons rfl (.cons rfl (.cons rfl .nil)))
        rfl (by decide +kernel)
    · exact .bullets rfl rfl (by decide) (.nest (by decide) rfl rfl (s := "a\n".toList) rfl (by decide +kernel) rfl rfl (by decide)
        (by simp) (.line (by decide) rfl rfl (s := "b\n".toList) rfl (by decide +kernel) .nil)
        (.line (by decide) rfl rfl (s := "c  \nk\n".toList) rfl (by decide +kernel) .nil))
    · exact .numbers rfl (.inr ⟨rfl, .inl rfl⟩) rfl (by decide)
        (.line (by decide) rfl rfl (s := "d\n".toList) rfl (by decide +kernel)
        (.line (by decide) rfl rfl (s := "e\n".toList) rfl (by decide +kernel) .nil))
    · refine .quote (bss := [[line "f"], [.bullets [[line "g"]]]]) rfl rfl (.cons rfl (.cons rfl .nil)) rfl ?_ ?_ (by simp)
      · intro p hp
        simp only [List.zip_cons_cons, List.zip_nil_right, List.mem_cons, List.not_mem_nil, or_false] at hp
        rcases hp with rfl | rfl
        · exact .para (kids := [Samples.text "f"]) (ss := ["f".toList]) (t := "f".toList) rfl rfl (.cons rfl .nil) rfl
            (by decide +kernel)
        · exact .bullets rfl rfl (by decide) (.line (by decide) rfl rfl (s := "g\n".toList) rfl (by decide +kernel) .nil)
      · refine apartB_sound (ss := ["f\n".toList, "- g".toList]) ?_
        decide +kernel
    · exact .code (ss := ["x\n\ny".toList]) rfl rfl (.cons rfl .nil) ⟨by decide, by decide, by decide, by decide⟩ (by decide +kernel)
        (by unfold Tidy; decide +kernel)
    · exact .rule rfl
  · refine apartB_sound ?_
    decide +kernel

example : ∃ s, Md Samples.env (Samples.doc planKids) s ∧ Reads (s.splitOn '\n') planBlocks.flatten ∧
    ∀ cs, Reads (s.splitOn '\n') cs → cs = planBlocks.flatten :=
  C83_partial Samples.env (Samples.doc planKids) planBlocks.flatten plan_parsed rfl plan_shows

/-- A panel, a task list with a nested one, decisions, a table. -/
def workJson : Val := Doc.doc [
  Samples.j "panel" [("attrs", .dict [("panelType", Samples.str "info")]), ("content", .list [Doc.p "a"])],
  Doc.tasks [Doc.task "b", Doc.tasks [Doc.task "c"], Doc.task "d"],
  Samples.j "rule" [],
  Doc.decisions ["e"],
  Samples.j "rule" [],
  Doc.table [Doc.row [Doc.hcell "f", Doc.hcell "g"], Doc.row [Doc.cell "h|i", Doc.cell "j"], Doc.row [Doc.cell "k"]]]

def workBlocks : List (List Block) := [
  [.quote [line "**INFO**", line "a"]],
  [.bullets [[line "[ ] b", .bullets [[line "[ ] c"]]], [line "[ ] d"]]],
  [.rule],
  [.quote [line "e"]],
  [.rule],
  [.table ["f<br>".toList, "g<br>".toList] [["h\\|i<br>".toList, "j<br>".toList], ["k<br>".toList, []]]]]

def workKids : List Node :=
  match (Samples.parse workJson).content with
  | .val kids => kids
  | _ => []

def workTexts : List Str := workKids.filterMap fun k => strOut (k.toMarkdown Samples.env false)

theorem work_shows : Shows Samples.env (Samples.parse workJson) workBlocks.flatten := by
  refine .blocks (kids := workKids) (ss := workTexts) (by decide) rfl
    (.cons rfl (.cons rfl (.cons rfl (.cons rfl (.cons rfl (.cons rfl .nil)))))) rfl ?_ (apartB_sound (by decide +kernel))
  intro p hp
  have e : workKids.zip workBlocks = [(workKids.getD 0 (Samples.para []), [.quote [line "**INFO**", line "a"]]),
      (workKids.getD 1 (Samples.para []), [.bullets [[line "[ ] b", .bullets [[line "[ ] c"]]], [line "[ ] d"]]]), (workKids.getD 2 (Samples.para []), [.rule]),
      (workKids.getD 3 (Samples.para []), [.quote [line "e"]]), (workKids.getD 4 (Samples.para []), [.rule]),
      (workKids.getD 5 (Samples.para []),
        [.table ["f<br>".toList, "g<br>".toList] [["h\\|i<br>".toList, "j<br>".toList], ["k<br>".toList, []]]])] := rfl
  rw [e] at hp
  simp only [List.mem_cons, List.not_mem_nil, or_false] at hp
  rcases hp with rfl | rfl | rfl | rfl | rfl | rfl
  · refine .panel (ty := "info".toList) (kids := [Samples.para [Samples.text "a"]]) (ss := ["a\n".toList]) (bss := [[line "a"]])
      rfl rfl (by decide +kernel) rfl (.cons rfl .nil) rfl ?_ (apartB_sound (by decide +kernel))
    intro q hq
    obtain rfl := List.mem_singleton.mp hq
    exact .para (kids := [Samples.text "a"]) (ss := ["a".toList]) (t := "a".toList) rfl rfl (.cons rfl .nil) rfl (by decide +kernel)
  · exact .tasks rfl rfl (by decide)
      (.nest (ks := [Samples.text "b"]) (ss := ["b".toList]) rfl rfl (.cons rfl .nil) (by decide +kernel) rfl rfl (by decide)
        (.line (ks := [Samples.text "c"]) (ss := ["c".toList]) rfl rfl (.cons rfl .nil) (by decide +kernel) .nil)
        (.line (ks := [Samples.text "d"]) (ss := ["d".toList]) rfl rfl (.cons rfl .nil) (by decide +kernel) .nil))
  · exact .rule rfl
  · exact .decisions (ls := ["e".toList]) rfl rfl (.cons rfl .nil) (by decide +kernel)
  · exact .rule rfl
  · exact .table (hs := ["f<br>".toList, "g<br>".toList]) (css := [["h\\|i<br>".toList, "j<br>".toList], ["k<br>".toList]]) rfl rfl rfl
      (by decide +kernel)
      ⟨_, rfl, rfl, List.forall_mem_cons.mpr ⟨.inr rfl, List.forall_mem_cons.mpr ⟨.inr rfl, by simp⟩⟩, .cons rfl (.cons rfl .nil), by decide +kernel⟩
      (.cons ⟨_, rfl, rfl, List.forall_mem_cons.mpr ⟨.inl rfl, List.forall_mem_cons.mpr ⟨.inl rfl, by simp⟩⟩, .cons rfl (.cons rfl .nil), by decide +kernel⟩
        (.cons ⟨_, rfl, rfl, List.forall_mem_cons.mpr ⟨.inl rfl, by simp⟩, .cons rfl .nil, by decide +kernel⟩ .nil))
      (by decide +kernel) (by decide +kernel)

example : ∃ s, Md Samples.env (Samples.parse workJson) s ∧ Reads (s.splitOn '\n') workBlocks.flatten ∧
    ∀ cs, Reads (s.splitOn '\n') cs → cs = workBlocks.flatten :=
  C83_partial Samples.env _ workBlocks.flatten (Samples.parsed (by decide +kernel)) rfl work_shows

end Verif.Props
