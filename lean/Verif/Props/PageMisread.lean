import Verif.Props.Page
import Verif.Props.WordsMisread
/-!
# C85: pages that are read as something else, and pages that are read as they should
-/

namespace Verif.Props
open Verif Spec Lemmas

/-! ## `Clear`, as a program -/

/-- The word of an inline node. -/
def wordFor (env : Env) (n : Node) : Word :=
  match n.cls with
  | .hardBreak => .brk
  | .media => .image (imageAlt n) ((imageUrl n).getD []) (styleOf (markList n)).link
  | .text => .word ((layersOf [] (markList n)).getD [])
      (match n.hd.text with | some (.str t) => t | _ => [])
  | .emoji => .word [] (((strAttr n "text").or (strAttr n "shortName")).getD [])
  | .status => .word [.tick] ((strAttr n "text").getD [])
  | .inlineCard => .word [.link ((strAttr n "url").getD [])] ((strAttr n "url").getD [])
  | .date => .word [] ((strOut (n.toMarkdown env false)).getD [])
  | _ => .word [] ((strAttr n "text").getD [])

def neatB (env : Env) (uni : Char → CharClass) (kids : List Node) : Bool :=
  let ws := kids.map (wordFor env)
  wordsB env kids ws && fineWords uni none ws && (ws.flatMap Word.str).getLast?.all fun c => !blank c

def mdB (env : Env) (k : Node) (f : Str → Bool) : Bool :=
  match strOut (k.toMarkdown env false) with
  | some s => f s
  | none => false

def oneLineB (s : Str) : Bool :=
  s.getLast? == some '\n' && !s.dropLast.contains '\n' && !decide ("<br>".toList <:+: s.dropLast)

def clearB (env : Env) (uni : Char → CharClass) (n : Node) : Bool :=
  match n.cls with
  | .paragraph => neatB env uni (children n) && (markList n).all fun m => decide (m.cls ∈ plainMarks)
  | .mediaSingle => neatB env uni (children n) && (markList n).all (fun m => decide (m.cls ∈ plainMarks)) &&
      (children n).all fun k => k.cls == .media
  | .heading | .taskItem => neatB env uni (children n)
  | .decisionItem => neatB env uni (children n) && (children n).all fun k => mdB env k fun s => !s.contains '\n'
  | .codeBlock => (children n).all fun k => (wordsOf k).isSome && (markList k).all fun m => decide (m.cls ∈ plainMarks)
  | .panel => (strAttr n "panelType").all fun ty => fine uni none [.wrap '*' 2] (upper env ty) none
  | .blockCard | .embedCard => (strAttr n "url").any fun u => fine uni none [.link u] u none
  | .listItem => (children n).all fun k => !(k.cls == .orderedList) || startOf k == 1
  | .tableCell | .tableHeader => (children n).all fun k => k.cls == .paragraph && mdB env k oneLineB
  | .mediaGroup | .extension => false
  | _ => true

mutual
def clearAllB (env : Env) (uni : Char → CharClass) : Node → Bool
  | .mk hd (.val kids) => clearB env uni (.mk hd (.val kids)) && clearEachB env uni kids
  | .mk hd c => clearB env uni (.mk hd c)
def clearEachB (env : Env) (uni : Char → CharClass) : List Node → Bool
  | [] => true
  | k :: kids => clearAllB env uni k && clearEachB env uni kids
end

theorem neatB_sound {env : Env} {uni : Char → CharClass} {kids : List Node} (h : neatB env uni kids = true) : Neat env uni kids := by
  unfold neatB at h
  rw [Bool.and_eq_true, Bool.and_eq_true] at h
  refine ⟨_, wordsB_sound h.1.1, h.1.2, fun c hc => ?_⟩
  have := h.2
  rw [Option.mem_def.mp hc] at this
  simpa using this

theorem mdB_sound {env : Env} {k : Node} {f : Str → Bool} (h : mdB env k f = true) : ∀ s, Md env k s → f s = true := by
  intro s hs
  unfold mdB at h
  unfold Md at hs
  rw [hs] at h
  exact h

theorem noNL_all {env : Env} {kids : List Node} (h : (kids.all fun k => mdB env k fun s => !s.contains '\n') = true) :
    ∀ ss, MdAll env kids ss → '\n' ∉ ss.flatten := by
  intro ss hm
  induction hm with
  | nil => simp
  | @cons k s kids ss hs hm ih =>
    rw [List.all_cons, Bool.and_eq_true] at h
    have h1 := mdB_sound h.1 s hs
    rw [List.flatten_cons, List.mem_append, not_or]
    exact ⟨by simpa using h1, ih h.2⟩

theorem clearB_sound {env : Env} {uni : Char → CharClass} {n : Node} (h : clearB env uni n = true) : clear env uni n := by
  unfold clearB at h
  unfold clear
  split at h
  · next hn =>
    rw [hn]
    rw [Bool.and_eq_true] at h
    exact ⟨neatB_sound h.1, fun m hm => by simpa using List.all_eq_true.mp h.2 m hm⟩
  · next hn =>
    rw [hn]
    rw [Bool.and_eq_true, Bool.and_eq_true] at h
    exact ⟨neatB_sound h.1.1, fun m hm => by simpa using List.all_eq_true.mp h.1.2 m hm,
      fun k hk => by simpa using List.all_eq_true.mp h.2 k hk⟩
  · next hn => rw [hn]; exact neatB_sound h
  · next hn => rw [hn]; exact neatB_sound h
  · next hn =>
    rw [hn]
    rw [Bool.and_eq_true] at h
    exact ⟨neatB_sound h.1, noNL_all h.2⟩
  · next hn =>
    rw [hn]
    intro k hk
    have := List.all_eq_true.mp h k hk
    rw [Bool.and_eq_true] at this
    exact ⟨this.1, fun m hm => by simpa using List.all_eq_true.mp this.2 m hm⟩
  · next hn =>
    rw [hn]
    intro ty hty
    rw [hty] at h
    exact h
  · next hn =>
    rw [hn]
    obtain ⟨u, h1, h2⟩ := (Option.any_eq_true _ _).mp h
    exact ⟨u, h1, h2⟩
  · next hn =>
    rw [hn]
    obtain ⟨u, h1, h2⟩ := (Option.any_eq_true _ _).mp h
    exact ⟨u, h1, h2⟩
  · next hn =>
    rw [hn]
    intro k hk he
    have := List.all_eq_true.mp h k hk
    simpa [he] using this
  all_goals first
    | exact absurd h (by decide)
    | (next hn =>
        rw [hn]
        intro k hk
        have := List.all_eq_true.mp h k hk
        rw [Bool.and_eq_true] at this
        refine ⟨beq_iff_eq.mp this.1, fun s hs => ?_⟩
        have := mdB_sound this.2 s hs
        unfold oneLineB at this
        rw [Bool.and_eq_true, Bool.and_eq_true] at this
        refine ⟨s.dropLast, (List.dropLast_append_getLast? '\n' (beq_iff_eq.mp this.1.1)).symm, ?_, ?_⟩
        · simpa using this.1.2
        · simpa using this.2)
    | (split <;> trivial)

mutual
theorem clearAllB_sound {env : Env} {uni : Char → CharClass} : ∀ n : Node, clearAllB env uni n = true → Clear env uni n
  | .mk hd (.val kids), h => by
    rw [clearAllB, Bool.and_eq_true] at h
    intro m hm
    cases hm with
    | here => exact clearB_sound h.1
    | step hc hk hb => cases hc; exact clearEachB_sound kids h.2 _ hk m hb
  | .mk hd .absent, h => by
    unfold clearAllB at h
    intro m hm
    cases hm with
    | here => exact clearB_sound h
    | step hc hk hb => cases hc
  | .mk hd .opt, h => by
    unfold clearAllB at h
    intro m hm
    cases hm with
    | here => exact clearB_sound h
    | step hc hk hb => cases hc
  | .mk hd (.raw v), h => by
    unfold clearAllB at h
    intro m hm
    cases hm with
    | here => exact clearB_sound h
    | step hc hk hb => cases hc
theorem clearEachB_sound {env : Env} {uni : Char → CharClass} : ∀ kids : List Node, clearEachB env uni kids = true →
    ∀ k ∈ kids, Clear env uni k
  | [], _ => by simp
  | k :: kids, h => by
    rw [clearEachB, Bool.and_eq_true] at h
    intro k' hk
    rcases List.mem_cons.mp hk with e | hk
    · rw [e]; exact clearAllB_sound k h.1
    · exact clearEachB_sound kids h.2 _ hk
end

/-! ## Comparing what is seen -/

mutual
def richEq : Rich → Rich → Bool
  | .para a, .para b => a == b
  | .heading k t, .heading j u => k == j && t == u
  | .rule, .rule => true
  | .code i a, .code j b => i == j && a == b
  | .quote a, .quote b => richesEq a b
  | .bullets a, .bullets b => richItemsEq a b
  | .numbers k a, .numbers j b => k == j && richItemsEq a b
  | .task k a, .task j b => k == j && a == b
  | .table a, .table b => richRowsEq a b
  | _, _ => false
def richesEq : List Rich → List Rich → Bool
  | [], [] => true
  | a :: l, b :: m => richEq a b && richesEq l m
  | _, _ => false
def richItemsEq : List (List Rich) → List (List Rich) → Bool
  | [], [] => true
  | a :: l, b :: m => richesEq a b && richItemsEq l m
  | _, _ => false
def richRowsEq : List (List (List Rich)) → List (List (List Rich)) → Bool
  | [], [] => true
  | a :: l, b :: m => richItemsEq a b && richRowsEq l m
  | _, _ => false
end

mutual
theorem richEq_iff : ∀ a b : Rich, richEq a b = true ↔ a = b
  | .para a, b => by cases b <;> simp [richEq]
  | .heading k t, b => by cases b <;> simp [richEq]
  | .rule, b => by cases b <;> simp [richEq]
  | .code i a, b => by cases b <;> simp [richEq]
  | .quote a, b => by cases b <;> simp [richEq, richesEq_iff a]
  | .bullets a, b => by cases b <;> simp [richEq, richItemsEq_iff a]
  | .numbers k a, b => by cases b <;> simp [richEq, richItemsEq_iff a]
  | .task k a, b => by cases b <;> simp [richEq]
  | .table a, b => by cases b <;> simp [richEq, richRowsEq_iff a]
theorem richesEq_iff : ∀ a b : List Rich, richesEq a b = true ↔ a = b
  | [], b => by cases b <;> simp [richesEq]
  | a :: l, b => by cases b <;> simp [richesEq, richEq_iff a, richesEq_iff l]
theorem richItemsEq_iff : ∀ a b : List (List Rich), richItemsEq a b = true ↔ a = b
  | [], b => by cases b <;> simp [richItemsEq]
  | a :: l, b => by cases b <;> simp [richItemsEq, richesEq_iff a, richItemsEq_iff l]
theorem richRowsEq_iff : ∀ a b : List (List (List Rich)), richRowsEq a b = true ↔ a = b
  | [], b => by cases b <;> simp [richRowsEq]
  | a :: l, b => by cases b <;> simp [richRowsEq, richItemsEq_iff a, richRowsEq_iff l]
end

/-! ## Pages that are read as something else -/

/-- An image in its block, with the marks of the image and of the block. -/
def Doc.picture (ms ns : List Val) : Val := Samples.j "mediaSingle" [("content", .list [Samples.j "media" [("attrs", .dict [
  ("type", Samples.str "external"), ("url", Samples.str "u"), ("alt", Samples.str "a")]), ("marks", .list ms)]]), ("marks", .list ns)]

def words (s : String) : Rich := .para (run s)

/-- Documents, what they show, and what a reader of their Markdown finds. -/
def misreadPage : List (Val × List Rich × List Rich) := [
  -- a numbered list in a numbered list, starting with 5
  (Doc.doc [Doc.numbers [Doc.item [Doc.p "a", Samples.j "orderedList" [("attrs", .dict [("order", .int 5)]),
      ("content", .list [Doc.item [Doc.p "b"]])]]]],
    [.numbers 1 [[words "a", .numbers 5 [[words "b"]]]]], [.numbers 1 [[words "a", .numbers 1 [[words "b"]]]]]),
  -- the text of an item looks like a check box
  (Doc.doc [Doc.bullets [Doc.item [Doc.p "[ ] a"]]], [.bullets [[words "[ ] a"]]], [.bullets [[.task false (run "a")]]]),
  -- the text of a cell looks like a line break
  (Doc.doc [Doc.table [Doc.row [Doc.hcell "a"], Doc.row [Doc.cell "b<br>c"]]],
    [.table [[[words "a"]], [[words "b<br>c"]]]], [.table [[[words "a"]], [[words "b", words "c"]]]]),
  -- a list in a cell
  (Doc.doc [Doc.table [Doc.row [Doc.hcell "a"], Doc.row [Samples.j "tableCell" [("content", .list [Doc.bullets [Doc.item [Doc.p "b"]]])]]]],
    [.table [[[words "a"]], [[.bullets [[words "b"]]]]]], [.table [[[words "a"]], [[words "- b"]]]]),
  -- two strong texts next to each other in a heading
  (Doc.doc [Samples.j "heading" [("attrs", .dict [("level", .int 1)]),
      ("content", .list [Doc.styled "a" [Doc.mark "strong"], Doc.styled "b" [Doc.mark "strong"]])]],
    [.heading 1 (run "ab" { strong := true })], [.heading 1 (run "a****b" { strong := true })]),
  -- two lists
  (Doc.doc [Doc.bullets [Doc.item [Doc.p "a"]], Doc.bullets [Doc.item [Doc.p "b"]]],
    [.bullets [[words "a"]], .bullets [[words "b"]]], [.bullets [[words "a"], [words "b"]]]),
  -- an image in a block with a link
  (Doc.doc [Doc.picture [] [Doc.linkTo "v"]], [.para [.image ['a'] ['u'] (some ['v'])]], [.para [.image ['a'] ['u'] none]]),
  -- an image with a link that has a title
  (Doc.doc [Doc.picture [Doc.titled "w" "t"] []],
    [.para [.image ['a'] ['u'] (some ['w'])]], [.para (run "t" { link := some ['w'] })])]

def misreadsPage (uni : Char → CharClass) (v : Val) (expected found : List Rich) : Bool :=
  Samples.parses v && (Samples.parse v).cls == .doc && !richesEq expected found &&
  (match seen Samples.env (Samples.parse v) with | some rs => richesEq rs expected | none => false) &&
  match strOut ((Samples.parse v).toMarkdown Samples.env false) with
  | some s => match readLines (s.length + 2) (Str.splitNL s) with
    | some cs => match richBlocks uni cs with
      | some rs => richesEq rs found
      | none => false
    | none => false
  | none => false

/-- C85 is false of the code: each of these documents shows one thing, and a reader of its Markdown finds another. -/
theorem C85_false : ∀ e ∈ misreadPage, ∃ n s cs, (parseNode true e.1).out = .ok n ∧ n.cls = .doc ∧ Md Samples.env n s ∧
    seen Samples.env n = some e.2.1 ∧ Reads (s.splitOn '\n') cs ∧ richBlocks (fun _ => .other) cs = some e.2.2 ∧ e.2.1 ≠ e.2.2 := by
  have h : (misreadPage.all fun e => misreadsPage (fun _ => .other) e.1 e.2.1 e.2.2) = true := by decide +kernel
  intro e he
  have h := List.all_eq_true.mp h e he
  unfold misreadsPage at h
  rw [Bool.and_eq_true, Bool.and_eq_true, Bool.and_eq_true, Bool.and_eq_true] at h
  obtain ⟨⟨⟨⟨h0, h1⟩, h2⟩, h3⟩, h4⟩ := h
  split at h3
  · next rs hr =>
    split at h4
    · next s hs =>
      split at h4
      · next cs hc =>
        split at h4
        · next rs' hr' =>
          refine ⟨Samples.parse e.1, s, cs, Samples.out_parse h0, by simpa using h1, strOut_some hs, ?_, ?_, ?_, ?_⟩
          · rw [hr, (richesEq_iff _ _).mp h3]
          · rw [splitOn_nl]; exact readLines_sound _ _ _ hc
          · rw [hr', (richesEq_iff _ _).mp h4]
          · intro e'
            rw [(richesEq_iff _ _).mpr e'] at h2
            exact absurd h2 (by decide)
        · cases h4
      · cases h4
    · cases h4
  · cases h3

/-! ## Pages that are read as they should -/

theorem plan_clear : Clear Samples.env (fun _ => .other) (Samples.doc planKids) := clearAllB_sound _ (by decide +kernel)
theorem work_clear : Clear Samples.env (fun _ => .other) (Samples.parse workJson) := clearAllB_sound _ (by decide +kernel)

example : ∃ s rs, Md Samples.env (Samples.doc planKids) s ∧ seen Samples.env (Samples.doc planKids) = some rs ∧
    ∃ cs, Reads (s.splitOn '\n') cs ∧ richBlocks (fun _ => .other) cs = some rs := by
  obtain ⟨s, rs, h1, h2, h3, _⟩ := C85_partial Samples.env _ _ _ plan_parsed rfl plan_shows plan_clear
  exact ⟨s, rs, h1, h2, h3⟩

example : ∃ s rs, Md Samples.env (Samples.parse workJson) s ∧ seen Samples.env (Samples.parse workJson) = some rs ∧
    ∃ cs, Reads (s.splitOn '\n') cs ∧ richBlocks (fun _ => .other) cs = some rs := by
  obtain ⟨s, rs, h1, h2, h3, _⟩ := C85_partial Samples.env _ _ _ (Samples.parsed (by decide +kernel)) rfl work_shows work_clear
  exact ⟨s, rs, h1, h2, h3⟩

/-- What they show, in full. -/
example : (seen Samples.env (Samples.doc planKids)).any (richesEq · [
    .heading 2 (run "Plan"), .para (run "one" ++ [.brk] ++ run "two"),
    .bullets [[words "a", .bullets [[words "b"]]], [.para (run "c" ++ [.brk] ++ run "k")]], .numbers 1 [[words "d"], [words "e"]],
    .quote [words "f", .bullets [[words "g"]]], .code [] ["x".toList, [], "y".toList], .rule]) = true := by decide +kernel

example : (seen Samples.env (Samples.parse workJson)).any (richesEq · [
    .quote [.para (run "INFO" { strong := true }), words "a"],
    .bullets [[.task false (run "b"), .bullets [[.task false (run "c")]]], [.task false (run "d")]],
    .rule, .quote [words "e"], .rule,
    .table [[[words "f"], [words "g"]], [[words "h|i"], [words "j"]], [[words "k"], []]]]) = true := by decide +kernel

/-- Styled text in a heading, an item, a task that is done, a cell; a card; an image with a link. -/
def teamJson : Val := Doc.doc [
  Doc.picture [Doc.linkTo "v"] [],
  Samples.j "heading" [("attrs", .dict [("level", .int 1)]), ("content", .list [Doc.text "The ", Doc.styled "team" [Doc.mark "strong"]])],
  Doc.bullets [Doc.item [Doc.para [Doc.styled "f(x)" [Doc.mark "code"], Doc.text " is ", Doc.styled "here" [Doc.linkTo "u"]]]],
  Samples.j "blockCard" [("attrs", .dict [("url", Samples.str "https://a.b")])],
  Samples.j "taskList" [("attrs", .dict [("localId", Samples.str "l")]), ("content", .list [
    Samples.j "taskItem" [("attrs", .dict [("localId", Samples.str "t"), ("state", Samples.str "DONE")]),
      ("content", .list [Doc.styled "a" [Doc.mark "em"]])]])],
  Samples.j "rule" [],
  Doc.table [Doc.row [Doc.hcell "f"], Doc.row [Samples.j "tableCell" [("content", .list [Doc.p "x",
    Doc.para [Doc.styled "g" [Doc.mark "strike"]]])]]]]

def teamBlocks : List (List Block) := [
  [line "[![a](u)](v)"],
  [.heading 1 "The **team**".toList],
  [.bullets [[line "`` f(x) `` is [here](u)"]]],
  [line "[https://a.b](https://a.b)"],
  [.bullets [[line "[x] *a*"]]],
  [.rule],
  [.table ["f<br>".toList] [["x<br>~~g~~<br>".toList]]]]

def teamKids : List Node :=
  match (Samples.parse teamJson).content with
  | .val kids => kids
  | _ => []

def teamTexts : List Str := teamKids.filterMap fun k => strOut (k.toMarkdown Samples.env false)

theorem team_shows : Shows Samples.env (Samples.parse teamJson) teamBlocks.flatten := by
  refine .blocks (kids := teamKids) (ss := teamTexts) (by decide) rfl
    (.cons rfl (.cons rfl (.cons rfl (.cons rfl (.cons rfl (.cons rfl (.cons rfl .nil))))))) rfl ?_ (apartB_sound (by decide +kernel))
  intro p hp
  have e : teamKids.zip teamBlocks = [(teamKids.getD 0 (Samples.para []), [line "[![a](u)](v)"]),
      (teamKids.getD 1 (Samples.para []), [.heading 1 "The **team**".toList]),
      (teamKids.getD 2 (Samples.para []), [.bullets [[line "`` f(x) `` is [here](u)"]]]),
      (teamKids.getD 3 (Samples.para []), [line "[https://a.b](https://a.b)"]),
      (teamKids.getD 4 (Samples.para []), [.bullets [[line "[x] *a*"]]]), (teamKids.getD 5 (Samples.para []), [.rule]),
      (teamKids.getD 6 (Samples.para []), [.table ["f<br>".toList] [["x<br>~~g~~<br>".toList]]])] := rfl
  rw [e] at hp
  simp only [List.mem_cons, List.not_mem_nil, or_false] at hp
  rcases hp with rfl | rfl | rfl | rfl | rfl | rfl | rfl
  · exact .line (s := "[![a](u)](v)".toList) (by decide) rfl (by decide +kernel) (by decide +kernel)
  · exact .heading (k := 1) (ss := ["The ".toList, "**team**".toList]) rfl rfl (by decide) rfl (.cons rfl (.cons rfl .nil))
      ⟨by decide, by decide, by decide, by decide⟩
  · exact .bullets rfl rfl (by decide) (.line (by decide) rfl rfl (s := "`` f(x) `` is [here](u)\n".toList) rfl (by decide +kernel) .nil)
  · exact .line (s := "\n[https://a.b](https://a.b)\n".toList) (by decide) rfl (by decide +kernel) (by decide +kernel)
  · exact .tasks rfl rfl (by decide) (.line (ss := ["*a*".toList]) rfl rfl (.cons rfl .nil) (by decide +kernel) .nil)
  · exact .rule rfl
  · exact .table (hs := ["f<br>".toList]) (css := [["x<br>~~g~~<br>".toList]]) rfl rfl rfl (by decide +kernel)
      ⟨_, rfl, rfl, List.forall_mem_cons.mpr ⟨.inr rfl, by simp⟩, .cons rfl .nil, by decide +kernel⟩
      (.cons ⟨_, rfl, rfl, List.forall_mem_cons.mpr ⟨.inl rfl, by simp⟩, .cons rfl .nil, by decide +kernel⟩ .nil)
      (by decide +kernel) (by decide +kernel)

theorem team_clear : Clear Samples.env (fun _ => .other) (Samples.parse teamJson) := clearAllB_sound _ (by decide +kernel)

example : ∃ s rs, Md Samples.env (Samples.parse teamJson) s ∧ seen Samples.env (Samples.parse teamJson) = some rs ∧
    ∃ cs, Reads (s.splitOn '\n') cs ∧ richBlocks (fun _ => .other) cs = some rs := by
  obtain ⟨s, rs, h1, h2, h3, _⟩ := C85_partial Samples.env _ _ _ (Samples.parsed (by decide +kernel)) rfl team_shows team_clear
  exact ⟨s, rs, h1, h2, h3⟩

example : (seen Samples.env (Samples.parse teamJson)).any (richesEq · [
    .para [.image ['a'] ['u'] (some ['v'])],
    .heading 1 (run "The " ++ run "team" { strong := true }),
    .bullets [[.para (run "f(x)" { code := true } ++ run " is " ++ run "here" { link := some ['u'] })]],
    .para (run "https://a.b" { link := some "https://a.b".toList }),
    .bullets [[.task true (run "a" { em := true })]], .rule,
    .table [[[words "f"]], [[words "x", .para (run "g" { strike := true })]]]]) = true := by decide +kernel

/-- The names of the panels of the editor are fine. -/
example (uni : Char → CharClass) : ∀ ty ∈ ["info", "note", "warning", "success", "error", "custom"],
    fine uni none [.wrap '*' 2] (upper Samples.env ty.toList) none = true := by
  have key : ∀ t ∈ ["INFO", "NOTE", "WARNING", "SUCCESS", "ERROR", "CUSTOM"], fine uni none [.wrap '*' 2] t.toList none = true := by
    simp [fine, spell, calm, literal, loose, classOf, free, Char.isAlphanum, Char.isAlpha, Char.isUpper, Char.isLower, Char.isDigit]
  have up : ∀ ty ∈ ["info", "note", "warning", "success", "error", "custom"],
      ∃ t ∈ ["INFO", "NOTE", "WARNING", "SUCCESS", "ERROR", "CUSTOM"], upper Samples.env ty.toList = t.toList := by decide +kernel
  intro ty hty
  obtain ⟨t, h1, h2⟩ := up ty hty
  rw [h2]
  exact key t h1

end Verif.Props
