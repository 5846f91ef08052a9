import Verif.Props.Words
import Verif.Props.Misread
/-!
# C84: inline content that is read as something else, and a paragraph that is read as it should
-/

namespace Verif.Props
open Verif Spec Lemmas

namespace Doc
def mark (t : String) : Val := Samples.j t []
def linkTo (u : String) : Val := Samples.j "link" [("attrs", .dict [("href", Samples.str u)])]
def titled (u t : String) : Val := Samples.j "link" [("attrs", .dict [("href", Samples.str u), ("title", Samples.str t)])]
def styled (s : String) (ms : List Val) : Val := Samples.j "text" [("text", Samples.str s), ("marks", .list ms)]
end Doc

/-- Characters of one style. -/
def run (s : String) (style : Style := {}) : List Glyph := s.toList.map (.char · style)

/-- Paragraphs, and what a reader finds in them. -/
def misreadInline : List (Val × List Glyph) := [
  -- two strong texts next to each other
  (Doc.para [Doc.styled "a" [Doc.mark "strong"], Doc.styled "b" [Doc.mark "strong"]], run "a****b" { strong := true }),
  -- the same with code
  (Doc.para [Doc.styled "a" [Doc.mark "code"], Doc.styled "b" [Doc.mark "code"]], run "a ```` b" { code := true }),
  -- strong text that ends with a space
  (Doc.para [Doc.styled "a " [Doc.mark "strong"], Doc.text "b"], run "**a **b"),
  -- strong text that ends with punctuation, before a letter
  (Doc.para [Doc.styled "(a)" [Doc.mark "strong"], Doc.text "s"], run "**(a)**s"),
  -- a strong link after a letter
  (Doc.para [Doc.text "x", Doc.styled "a" [Doc.linkTo "u", Doc.mark "strong"]],
    run "x**" ++ run "a" { link := some ['u'] } ++ run "**"),
  -- a link with code, its marks in the order of the editor
  (Doc.para [Doc.styled "a" [Doc.linkTo "u", Doc.mark "code"]], run "[a](u)" { code := true }),
  -- strong code, its marks in the order of the editor
  (Doc.para [Doc.styled "a" [Doc.mark "strong", Doc.mark "code"]], run "**a**" { code := true }),
  -- a link with a title
  (Doc.para [Doc.styled "a" [Doc.titled "u" "b"]], run "b" { link := some ['u'] }),
  -- plain text that is Markdown
  (Doc.para [Doc.text "*a*"], run "a" { em := true }),
  (Doc.para [Doc.text "2*3 and 4*5"], run "2" ++ run "3 and 4" { em := true } ++ run "5"),
  (Doc.para [Doc.text "_a_"], run "a" { em := true }),
  (Doc.para [Doc.text "~~a~~"], run "a" { strike := true }),
  (Doc.para [Doc.text "`a`"], run "a" { code := true }),
  (Doc.para [Doc.text "[a](u)"], run "a" { link := some ['u'] }),
  (Doc.para [Doc.text "![a](u)"], [.image ['a'] ['u'] none]),
  -- strong text with two stars in it
  (Doc.para [Doc.styled "a**b" [Doc.mark "strong"]], run "a" { strong := true } ++ run "b**")]

/-- The paragraph parses, its Markdown is read as `found`, and that is not what the nodes show. -/
def misreadsInline (uni : Char → CharClass) (v : Val) (found : List Glyph) : Bool :=
  Samples.parses v && (Samples.parse v).cls == .paragraph &&
  match (Samples.parse v).content, strOut ((Samples.parse v).toMarkdown Samples.env false) with
  | .val kids, some s =>
    s.getLast? == some '\n' && readInline uni s.dropLast == some found &&
    match kids.mapM (shown Samples.env) with
    | some gs => gs.flatten != found
    | none => false
  | _, _ => false

/-- C84 is false of the code: the Markdown of each of these paragraphs is read as other characters, or characters of other
style, than the paragraph shows. -/
theorem C84_false : ∀ e ∈ misreadInline, ∃ n kids s gs, (parseNode true e.1).out = .ok n ∧ n.cls = .paragraph ∧
    n.content = .val kids ∧ Md Samples.env n (s ++ "\n".toList) ∧ kids.mapM (shown Samples.env) = some gs ∧
    readInline (fun _ => .other) s = some e.2 ∧ e.2 ≠ gs.flatten := by
  have h : (misreadInline.all fun e => misreadsInline (fun _ => .other) e.1 e.2) = true := by decide +kernel
  intro e he
  have h := List.all_eq_true.mp h e he
  unfold misreadsInline at h
  rw [Bool.and_eq_true, Bool.and_eq_true] at h
  obtain ⟨⟨h0, h1⟩, h2⟩ := h
  split at h2
  next kids s hk hs =>
    rw [Bool.and_eq_true, Bool.and_eq_true] at h2
    obtain ⟨⟨h3, h4⟩, h5⟩ := h2
    split at h5
    next gs hg =>
      refine ⟨Samples.parse e.1, kids, s.dropLast, gs, Samples.out_parse h0, by simpa using h1, hk, ?_, hg,
        beq_iff_eq.mp h4, (bne_iff_ne.mp h5).symm⟩
      have e1 : s.dropLast ++ "\n".toList = s := List.dropLast_append_getLast? '\n' (beq_iff_eq.mp h3)
      rw [e1]
      unfold Md
      unfold strOut at hs
      split at hs <;> simp_all
    · cases h5
  · cases h2

/-! ## A paragraph that is read as it should -/

/-- See **the _plan_** (`x_1`), [*here*](u) …: text, strong, strong and emphasized, code, link, break, mention, status, date, card. -/
def goodJson : Val := Doc.para [
  Doc.text "See ", Doc.styled "the " [Doc.mark "underline"], Doc.styled "plan" [Doc.mark "em", Doc.mark "strong", Doc.mark "strike"],
  Doc.text " for x_1 (", Doc.styled "f(*p)[0]" [Doc.mark "code"], Doc.text "), 2 * 3! ",
  Doc.styled "here" [Doc.linkTo "https://a.b/c_d?e=1", Doc.mark "em"], Doc.brk,
  Samples.j "mention" [("attrs", .dict [("id", Samples.str "i"), ("text", Samples.str "@Ann")])],
  Doc.text " ", Samples.j "status" [("attrs", .dict [("text", Samples.str "IN PROGRESS"), ("color", Samples.str "blue")])],
  Doc.text " ", Samples.j "date" [("attrs", .dict [("timestamp", Samples.str "1609459200000")])],
  Doc.text ", ", Samples.j "inlineCard" [("attrs", .dict [("url", Samples.str "https://a.b")])]]

def goodWords : List Word := [
  .word [] "See ".toList, .word [] "the ".toList, .word [.wrap '~' 2, .wrap '*' 3] "plan".toList,
  .word [] " for x_1 (".toList, .word [.code] "f(*p)[0]".toList, .word [] "), 2 * 3! ".toList,
  .word [.wrap '*' 1, .link "https://a.b/c_d?e=1".toList] "here".toList, .brk,
  .word [] "@Ann".toList, .word [] " ".toList, .word [.tick] "IN PROGRESS".toList, .word [] " ".toList,
  .word [] "2021-01-01".toList, .word [] ", ".toList, .word [.link "https://a.b".toList] "https://a.b".toList]

theorem good_fine : fineWords (fun _ => .other) none goodWords = true := by decide +kernel

/-- `WordOf`, as a program. -/
def wordOfB (env : Env) (n : Node) (w : Word) : Bool :=
  match w with
  | .brk => n.cls == .hardBreak
  | .image alt u l => n.cls == .media && imageUrl n == some u && alt == imageAlt n &&
      layersOf [] (markList n) == some (l.toList.map .link)
  | .word L t =>
    match n.cls with
    | .text => strOut (match n.hd.text with | some v => .ok v | none => .error .attributeError) == some t &&
        layersOf [] (markList n) == some L && (L.isEmpty || t.any fun c => !blank c)
    | .emoji => L.isEmpty && (strAttr n "text").or (strAttr n "shortName") == some t
    | .mention => L.isEmpty && strAttr n "text" == some t
    | .date => L.isEmpty && strOut (n.toMarkdown env false) == some t
    | .status => L == [.tick] && strAttr n "text" == some t
    | .inlineCard => L == [.link t] && strAttr n "url" == some t
    | _ => false

theorem strOut_some {x : Except PyErr Val} {s : Str} (h : strOut x = some s) : x = .ok (.str s) := by
  unfold strOut at h
  split at h <;> simp_all

theorem wordOfB_sound {env : Env} {n : Node} {w : Word} (h : wordOfB env n w = true) : WordOf env n w := by
  unfold wordOfB at h
  cases w with
  | brk => exact .brk n (beq_iff_eq.mp h)
  | image alt u l =>
    simp only [Bool.and_eq_true, beq_iff_eq] at h
    obtain ⟨⟨⟨h1, h2⟩, rfl⟩, h4⟩ := h
    cases l with
    | none => exact .image n u h1 h2 h4
    | some d => exact .linked n u d h1 h2 h4
  | word L t =>
    simp only at h
    split at h <;> (try rw [Bool.and_eq_true] at h)
    · next hn =>
      rw [Bool.and_eq_true, Bool.or_eq_true] at h
      obtain ⟨⟨h1, h2⟩, h3⟩ := h
      refine .text n t L hn ?_ (beq_iff_eq.mp h2) ?_
      · have := strOut_some (beq_iff_eq.mp h1)
        split at this
        · next v hv => rw [hv]; cases this; rfl
        · cases this
      · rcases h3 with h3 | h3
        · exact .inl (List.isEmpty_iff.mp h3)
        · right
          obtain ⟨c, h4, h5⟩ := List.any_eq_true.mp h3
          exact ⟨c, h4, by simpa using h5⟩
    · next hn => rw [List.isEmpty_iff.mp h.1]; exact .emoji n t hn (beq_iff_eq.mp h.2)
    · next hn => rw [List.isEmpty_iff.mp h.1]; exact .mention n t hn (beq_iff_eq.mp h.2)
    · next hn => rw [List.isEmpty_iff.mp h.1]; exact .date n t hn (strOut_some (beq_iff_eq.mp h.2))
    · next hn => rw [beq_iff_eq.mp h.1]; exact .status n t hn (beq_iff_eq.mp h.2)
    · next hn => rw [beq_iff_eq.mp h.1]; exact .card n t hn (beq_iff_eq.mp h.2)
    · cases h

def wordsB (env : Env) : List Node → List Word → Bool
  | [], [] => true
  | n :: ns, w :: ws => wordOfB env n w && wordsB env ns ws
  | _, _ => false

theorem wordsB_sound {env : Env} : ∀ {ns : List Node} {ws : List Word}, wordsB env ns ws = true →
    List.Forall₂ (WordOf env) ns ws
  | [], [], _ => .nil
  | n :: ns, w :: ws, h => by
    rw [wordsB, Bool.and_eq_true] at h
    exact .cons (wordOfB_sound h.1) (wordsB_sound h.2)

def goodKids : List Node := match (Samples.parse goodJson).content with | .val kids => kids | _ => []

theorem good_checks : (Samples.parses goodJson && wordsB Samples.env goodKids goodWords &&
    (match (Samples.parse goodJson).content with | .val _ => true | _ => false)) = true := by decide +kernel

/-- The paragraph meets the conditions of `C84_partial`, whatever characters outside ASCII are. -/
example (uni : Char → CharClass) : fineWords uni none goodWords = true := by
  simp [goodWords, fineWords, fineWord, fine, spell, calm, literal, loose, classOf, free, plainDest, Word.str, unpad, Char.isAlphanum,
    Char.isAlpha, Char.isUpper, Char.isLower, Char.isDigit]

example : ∃ (ss : List Str) (gs : List (List Glyph)), MdAll Samples.env goodKids ss ∧
    goodKids.mapM (shown Samples.env) = some gs ∧ readInline (fun _ => .other) ss.flatten = some gs.flatten := by
  have h := good_checks
  rw [Bool.and_eq_true, Bool.and_eq_true] at h
  have hc : (Samples.parse goodJson).content = .val goodKids := by
    have := h.2
    unfold goodKids
    split at this
    · next e => rw [e]
    · cases this
  obtain ⟨ss, gs, h1, h2, h3, _⟩ := C84_partial Samples.env (fun _ => .other) (Samples.parse goodJson) goodKids goodWords
    ⟨true, goodJson, Samples.out_parse h.1.1⟩ hc (wordsB_sound h.1.2) good_fine
  exact ⟨ss, gs, h1, h2, h3⟩

/-- What a reader finds in it, in full. -/
example : readInline (fun _ => .other) (goodWords.flatMap Word.str) = some (
    run "See the " ++ run "plan" { strong := true, em := true, strike := true } ++ run " for x_1 (" ++
    run "f(*p)[0]" { code := true } ++ run "), 2 * 3! " ++
    run "here" { em := true, link := some "https://a.b/c_d?e=1".toList } ++ [.brk] ++ run "@Ann " ++
    run "IN PROGRESS" { code := true } ++ run " 2021-01-01, " ++ run "https://a.b" { link := some "https://a.b".toList }) := by
  decide +kernel

end Verif.Props
