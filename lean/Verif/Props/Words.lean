import Verif.Lemmas.ReadInline
import Verif.Props.Containers
import Verif.Props.Quote
import Verif.Props.Atoms
/-!
# C84: a Markdown reader finds the inline content
-/

namespace Verif.Props
open Verif Spec Lemmas

/-! ## Marks and layers -/

/-- The style of the characters in layers. -/
def styleL : List Layer → Style
  | [] => {}
  | .wrap c n :: L =>
    if c = '~' then { styleL L with strike := true }
    else { styleL L with strong := (styleL L).strong || n == 2 || n == 3, em := (styleL L).em || n != 2 }
  | .link u :: L => { styleL L with link := some u }
  | .code :: L => { styleL L with code := true }
  | .tick :: L => { styleL L with code := true }

theorem glyphsL_eq (L : List Layer) (t : Str) : glyphsL L t = t.map (.char · (styleL L)) := by
  induction L with
  | nil => rfl
  | cons l L ih =>
    rw [glyphsL, ih, List.map_map]
    apply List.map_congr_left
    intro c _
    simp only [Function.comp]
    cases l with
    | wrap d n =>
      simp only [layerStyle, styleL]
      by_cases hd : d = '~'
      · simp [dress, hd]
      · by_cases h3 : n = 3
        · subst h3
          simp [dress, hd]
        · by_cases h2 : n = 2
          · subst h2
            simp [dress, hd]
          · have e2 : (n == 2) = false := by simpa using h2
            have e3 : (n == 3) = false := by simpa using h3
            simp [dress, hd, h2, h3, e2, e3]
    | link u => rfl
    | code => rfl
    | tick => rfl

/-- Two styles together. -/
def bothStyles (a b : Style) : Style where
  strong := a.strong || b.strong
  em := a.em || b.em
  strike := a.strike || b.strike
  code := a.code || b.code
  link := a.link.or b.link

theorem addStars_style {k : Nat} {L L' : List Layer} (hk : k = 1 ∨ k = 2) (h : addStars k L = some L') :
    styleL L' = { styleL L with strong := (styleL L).strong || k == 2, em := (styleL L).em || k == 1 } := by
  unfold addStars at h
  split at h
  · next j L =>
    split at h
    · next hj =>
      cases h
      rcases hk with rfl | rfl
      · have : j = 2 := by omega
        subst this
        simp [styleL]
      · have : j = 1 := by omega
        subst this
        simp [styleL]
    · cases h
  · split at h
    · cases h
      rcases hk with rfl | rfl <;> simp [styleL]
    · cases h

theorem styleL_link {L : List Layer} (h : L.any Layer.isLink = false) : (styleL L).link = none := by
  induction L with
  | nil => rfl
  | cons l L ih =>
    simp only [List.any_cons, Bool.or_eq_false_iff] at h
    cases l with
    | wrap c n =>
      simp only [styleL]
      split <;> exact ih h.2
    | link u => simp [Layer.isLink] at h
    | code => exact ih h.2
    | tick => exact ih h.2

theorem addMark_style {L L' : List Layer} {m : Mark} (h : addMark L m = some L') :
    styleL L' = bothStyles (styleL L) (styleOf [m]) ∧ (m.cls = .link → (styleL L).link = none) := by
  unfold addMark at h
  cases hc : m.cls <;> rw [hc] at h <;> simp only [reduceCtorEq, false_implies, and_true, true_implies] at h ⊢
  case strong =>
    rw [addStars_style (.inr rfl) h]
    simp [bothStyles, styleOf, hc]
  case em =>
    rw [addStars_style (.inl rfl) h]
    simp [bothStyles, styleOf, hc]
  case strike =>
    split at h
    · cases h
      simp [styleL, bothStyles, styleOf, hc]
    · cases h
  case code =>
    split at h
    · next e =>
      cases h
      subst e
      simp [styleL, bothStyles, styleOf, hc]
    · cases h
  case link =>
    split at h
    · next a ha =>
      split at h
      · cases h
      · next u v _ hu _ =>
        split at h
        · cases h
        · next hl =>
          cases h
          have := styleL_link (by simpa using hl)
          refine ⟨?_, this⟩
          simp [styleL, bothStyles, styleOf, hc, hrefOf, ha, hu, this]
      · cases h
    · cases h
  all_goals
    cases h
    simp [bothStyles, styleOf, hc, show ∀ a b : MarkCls, a ≠ b → (a == b) = false from fun a b h => by simpa using h]

theorem layersOf_style (ms : List Mark) : ∀ (L L' : List Layer), layersOf L ms = some L' →
    styleL L' = bothStyles (styleL L) (styleOf ms) := by
  induction ms with
  | nil =>
    intro L L' h
    cases h
    simp [bothStyles, styleOf]
  | cons m ms ih =>
    intro L L' h
    rw [layersOf] at h
    obtain ⟨L1, h1, h2⟩ := Option.bind_eq_some_iff.mp h
    rw [ih _ _ h2, (addMark_style h1).1]
    have hl := (addMark_style h1).2
    simp only [bothStyles, styleOf, List.any_cons, List.any_nil, Bool.or_false, Bool.or_assoc, List.find?_cons,
      List.find?_nil, Style.mk.injEq, true_and]
    cases hc : (m.cls == .link) with
    | false => simp
    | true =>
      rw [hl (by simpa using hc)]
      simp only [Option.none_or, Option.bind_some]
      have : (hrefOf m).isSome = true := by
        unfold addMark at h1
        rw [show m.cls = .link by simpa using hc] at h1
        simp only at h1
        unfold hrefOf
        split at h1
        · next a ha =>
          try simp only [ha]
          split at h1
          · cases h1
          · next u v _ hu _ => simp only [hu]; rfl
          · cases h1
        · cases h1
      obtain ⟨u, hu⟩ := Option.isSome_iff_exists.mp this
      rw [hu]
      rfl

theorem spell_nonblank {t : Str} (ht : ∃ c ∈ t, blank c = false) (L : List Layer) : ∃ c ∈ spell L t, blank c = false := by
  induction L with
  | nil => exact ht
  | cons l L ih =>
    obtain ⟨c, h1, h2⟩ := ih
    refine ⟨c, ?_, h2⟩
    cases l <;> simp [spell, h1]

theorem addMark_code {L : List Layer} {m : Mark} (hm : m.cls = .code) {L' : List Layer}
    (h : addMark L m = some L') : L = [] ∧ L' = [.code] := by
  unfold addMark at h
  rw [hm] at h
  simp only at h
  split at h
  · next e => cases h; exact ⟨e, rfl⟩
  · cases h

theorem mark_spell (env : Env) {m : Mark} {L L' : List Layer} {t : Str} (ht : ∃ c ∈ t, blank c = false) (hnl : '\n' ∉ t)
    (h : addMark L m = some L') : m.toMarkdown env (.str (spell L t)) = .ok (.str (spell L' t)) := by
  have stars : ∀ k, addStars k L = some L' →
      spell L' t = List.replicate k '*' ++ spell L t ++ List.replicate k '*' := by
    intro k h
    unfold addStars at h
    split at h
    · next j L _ =>
      split at h
      · next hj =>
        cases h
        rw [spell, spell, ← hj]
        rw [Nat.add_comm j k, List.replicate_add]
        rw [show List.replicate k '*' ++ List.replicate j '*' = List.replicate j '*' ++ List.replicate k '*' by
          rw [← List.replicate_add, ← List.replicate_add, Nat.add_comm]]
        simp only [← List.append_assoc]
        rw [show List.replicate j '*' ++ List.replicate k '*' = List.replicate k '*' ++ List.replicate j '*' by
          rw [← List.replicate_add, ← List.replicate_add, Nat.add_comm]]
      · cases h
    · split at h
      · cases h; rfl
      · cases h
  cases hc : m.cls
  case strong =>
    rw [C23_wraps env m _ _ (by rw [hc]; rfl) (spell_nonblank ht L)]
    simp only [addMark, hc] at h
    rw [stars 2 h]
    rfl
  case em =>
    rw [C23_wraps env m _ _ (by rw [hc]; rfl) (spell_nonblank ht L)]
    simp only [addMark, hc] at h
    rw [stars 1 h]
    rfl
  case strike =>
    rw [C23_wraps env m _ _ (by rw [hc]; rfl) (spell_nonblank ht L)]
    simp only [addMark, hc] at h
    split at h
    · cases h; rfl
    · cases h
  case code =>
    obtain ⟨rfl, rfl⟩ := addMark_code hc h
    rw [(C24_result env m _ hc (show '\n' ∉ spell [] t from hnl)).2 (spell_nonblank ht [])]
    rfl
  case link =>
    simp only [addMark, hc] at h
    split at h
    · next a ha =>
      split at h
      · cases h
      · next u v hv hu ht =>
        split at h
        · cases h
        · cases h
          rw [C23_link env m a _ u v hc ha hu ht]
          cases v <;> first | exact absurd rfl (hv _) | simp [spell]
      · cases h
    · cases h
  case indentation => simp [addMark, hc] at h
  all_goals
    simp only [addMark, hc, Option.some.injEq] at h
    subst h
    exact C23_plain env m _ (by rw [hc]; decide)

theorem marks_spell (env : Env) {t : Str} (ht : ∃ c ∈ t, blank c = false) (hnl : '\n' ∉ t) (ms : List Mark) :
    ∀ (L L' : List Layer), layersOf L ms = some L' →
      ms.foldlM (fun md m => m.toMarkdown env md) (.str (spell L t)) = .ok (.str (spell L' t)) := by
  induction ms with
  | nil => intro L L' h; cases h; rfl
  | cons m ms ih =>
    intro L L' h
    rw [layersOf] at h
    obtain ⟨L1, h1, h2⟩ := Option.bind_eq_some_iff.mp h
    rw [List.foldlM_cons, mark_spell env ht hnl h1]
    exact ih _ _ h2

/-- A mark without Markdown form adds no layer; the others add or change one. -/
theorem addMark_nil {L : List Layer} {m : Mark} (h : addMark L m = some []) : L = [] ∧ m.cls ∈ plainMarks := by
  unfold addMark addStars at h
  cases hc : m.cls <;> rw [hc] at h <;> simp only [Option.some.injEq] at h
  all_goals first
    | (subst h; exact ⟨rfl, by decide⟩)
    | (repeat' split at h) <;> cases h

theorem marks_plain (env : Env) (t : Str) (ms : List Mark) : ∀ (L : List Layer), layersOf L ms = some [] →
    L = [] ∧ ms.foldlM (fun md m => m.toMarkdown env md) (.str t) = .ok (.str t) := by
  induction ms with
  | nil => intro L h; cases h; exact ⟨rfl, rfl⟩
  | cons m ms ih =>
    intro L h
    rw [layersOf] at h
    obtain ⟨L1, h1, h2⟩ := Option.bind_eq_some_iff.mp h
    obtain ⟨rfl, h3⟩ := ih _ h2
    obtain ⟨rfl, h4⟩ := addMark_nil h1
    refine ⟨rfl, ?_⟩
    rw [List.foldlM_cons, C23_plain env m _ h4]
    exact h3

/-- A readable text has no newline. -/
theorem fine_nl (uni : Char → CharClass) (L : List Layer) (t : Str) : ∀ (prev next : Option Char),
    fine uni prev L t next = true → '\n' ∉ t := by
  induction L with
  | nil =>
    intro prev next h
    simp only [fine, Bool.and_eq_true] at h
    exact calm_nl uni h.2
  | cons l L ih =>
    intro prev next h
    have code : (!t.any fun c => c == '`' || c == '\n' || c == '\r') = true → '\n' ∉ t := by
      intro h hm
      simp only [Bool.not_eq_true', List.any_eq_false, Bool.or_eq_true, beq_iff_eq, not_or] at h
      exact (h _ hm).1.2 rfl
    cases l <;> simp only [fine, Bool.and_eq_true] at h
    case wrap => exact ih _ _ h.2
    case link => exact ih _ _ h.2
    case code => exact code h.1.1.2
    case tick => exact code h.1.1.1.2

/-! ## Nodes and words -/

theorem strAttr_some {n : Node} {k : String} {s : Str} (h : strAttr n k = some s) : attr n k = some (.str s) := by
  unfold strAttr at h
  split at h
  · next e => cases h; exact e
  · cases h

theorem strAttr_none {n : Node} {k : String} {v : Val} (h : strAttr n k = none) (hv : attr n k = some v) :
    ∀ s, v ≠ .str s := by
  rintro s rfl
  simp [strAttr, hv] at h

/-- Marks around a text, as layers. -/
theorem style_layers (env : Env) {n : Node} {t : Str} {L : List Layer} (hm : layersOf [] (markList n) = some L)
    (hb : L = [] ∨ ∃ c ∈ t, blank c = false) (hnl : '\n' ∉ t) : Styled env n t (spell L t) := by
  unfold Styled
  unfold markList at hm
  have key : ∀ ms, layersOf [] ms = some L →
      ms.foldlM (fun md m => m.toMarkdown env md) (.str t) = .ok (.str (spell L t)) := by
    intro ms hm
    rcases hb with rfl | hb
    · exact (marks_plain env t ms [] hm).2
    · exact marks_spell env hb hnl ms [] L hm
  cases e : n.hd.marks with
  | val ms => rw [e] at hm; exact key ms hm
  | _ => rw [e] at hm; cases hm; rfl

/-- The Markdown of an image is `![alt](url)`, in its marks. -/
theorem image_md (env : Env) {n : Node} {u s : Str} (hp : Parsed n) (hn : n.cls = .media) (hu : imageUrl n = some u)
    (hs : Styled env n (imageText (imageAlt n) u) s) : Md env n s := by
  obtain ⟨ty, url, alt, id, h1, h2, h3, h4⟩ := C40_attrs_exist n hp hn
  have h5 := (addStyle_iff env n (C62_parsed_marks n hp) _ _).mpr hs
  have halt : alt.asStr?.getD "media".toList = imageAlt n := by
    unfold imageAlt strAttr
    rw [h3]
    cases alt <;> rfl
  have e : ∀ a b : Str, imageLink a b = imageText a b := by intro a b; simp [imageLink, imageText]
  unfold Md
  rw [toMarkdown_eq]
  have hn' : n.hd.cls = .media := hn
  unfold dispatch
  simp only [hn', mediaMd, getAttr_eq h1, getAttr_eq h2, mediaAlt, getAttr_eq h3, getAttr_eq h4, halt, e]
  unfold imageUrl at hu
  split at hu
  · next ht =>
    have := strAttr_some ht
    rw [h1] at this
    cases this
    have := strAttr_some hu
    rw [h2] at this
    cases this
    simpa [Val.asStr?] using h5
  · split at hu
    · next ht =>
      have := strAttr_some ht
      rw [h1] at this
      cases this
      obtain ⟨i, hi, rfl⟩ := Option.map_eq_some_iff.mp hu
      have := strAttr_some hi
      rw [h4] at this
      cases this
      simpa [Val.asStr?, Val.pyStr] using h5
    · cases hu

/-- The Markdown of a word is what the node is converted to, and its characters are what the node shows. -/
theorem word_md (env : Env) {n : Node} {w : Word} (hp : Parsed n) (h : WordOf env n w)
    (hnl : ∀ L t, w = .word L t → '\n' ∉ t) (hnl' : ∀ alt u l, w = .image alt u l → '\n' ∉ imageText alt u) : Md env n w.str ∧ shown env n = some (wordGlyphs w) := by
  cases h with
  | text t L hn ht hm hb =>
    constructor
    · have : Styled env n t (spell L t) := style_layers env hm hb (hnl L t rfl)
      have h2 := (addStyle_iff env n (C62_parsed_marks n hp) t _).mpr this
      unfold Md
      rw [toMarkdown_eq]
      have hn' : n.hd.cls = .text := hn
      unfold dispatch
      simp only [hn', ht, textMd, Option.isSome_none, Bool.false_and, Bool.false_eq_true, if_false]
      exact h2
    · rw [wordGlyphs, glyphsL_eq, layersOf_style _ _ _ hm]
      unfold shown
      rw [hn]
      simp only [ht]
      simp [bothStyles, styleL]
  | brk hn =>
    refine ⟨(C39_fixed env n false).1 hn, ?_⟩
    unfold shown
    rw [hn]
    rfl
  | emoji t hn ht =>
    obtain ⟨v, v', h1, h2⟩ := (C39_attrs_exist n hp).1 hn
    constructor
    · unfold Md
      rw [C39_emoji env n v v' false hn h1 h2]
      cases hs : strAttr n "text" with
      | some s =>
        rw [hs] at ht
        cases ht
        rw [strAttr_some hs] at h1
        cases h1
        rfl
      | none =>
        rw [hs, Option.none_or] at ht
        have := strAttr_none hs h1
        rw [strAttr_some ht] at h2
        cases h2
        cases v <;> first | exact absurd rfl (this _) | rfl
    · unfold shown
      rw [hn]
      simp only [ht]
      rfl
  | mention t hn ht =>
    refine ⟨C39_mention env n _ false hn (strAttr_some ht), ?_⟩
    unfold shown
    rw [hn]
    simp only [ht]
    rfl
  | date t hn ht =>
    refine ⟨ht, ?_⟩
    unfold shown
    rw [hn]
    simp only [show n.toMarkdown env false = _ from ht]
    rfl
  | status t hn ht =>
    refine ⟨C39_status env n _ false hn (strAttr_some ht), ?_⟩
    unfold shown
    rw [hn]
    simp only [ht, wordGlyphs, glyphsL_eq]
    rfl
  | card u hn ht =>
    refine ⟨?_, ?_⟩
    · unfold Md
      rw [C38_inlineCard env n _ false hn (strAttr_some ht)]
      simp [Word.str, spell]
    · unfold shown
      rw [hn]
      simp only [ht, wordGlyphs, glyphsL_eq]
      rfl
  | image u hn hu hm =>
    refine ⟨image_md env hp hn hu (style_layers env hm (.inl rfl) (hnl' _ _ _ rfl)), ?_⟩
    unfold shown
    rw [hn]
    have h1 : (styleL []).link = _ := congrArg Style.link (layersOf_style _ _ _ hm)
    simp only [hu, Option.map_some, wordGlyphs, Option.some.injEq, List.cons.injEq, Glyph.image.injEq, true_and, and_true]
    simpa [bothStyles, styleL] using h1.symm
  | linked u h hn hu hm =>
    refine ⟨image_md env hp hn hu (style_layers env hm (.inr ⟨'!', by simp [imageText], by decide⟩) (hnl' _ _ _ rfl)), ?_⟩
    unfold shown
    rw [hn]
    have h1 : (styleL [.link h]).link = _ := congrArg Style.link (layersOf_style _ _ _ hm)
    simp only [hu, Option.map_some, wordGlyphs, Option.some.injEq, List.cons.injEq, Glyph.image.injEq, true_and, and_true]
    simpa [bothStyles, styleL] using h1.symm

theorem imageText_nl {uni : Char → CharClass} {prev next : Option Char} {alt url : Str} {link : Option Str}
    (h : fineWord uni prev (.image alt url link) next = true) : '\n' ∉ imageText alt url := by
  simp only [fineWord, Bool.and_eq_true, plainDest, List.all_eq_true] at h
  have h1 := calm_nl uni h.2
  have h2 : '\n' ∉ url := fun hm => by
    have := (h.1.1.2 _ hm).1.1
    simp at this
  simp [imageText, h1, h2]

theorem words_md (env : Env) (uni : Char → CharClass) {kids : List Node} {ws : List Word} (h : List.Forall₂ (WordOf env) kids ws) :
    ∀ prev, (∀ k ∈ kids, Parsed k) → fineWords uni prev ws = true →
      MdAll env kids (ws.map Word.str) ∧ kids.mapM (shown env) = some (ws.map wordGlyphs) := by
  induction h with
  | nil => intro prev _ _; exact ⟨.nil, rfl⟩
  | @cons k w kids ws hw _ ih =>
    intro prev hp hf
    rw [fineWords, Bool.and_eq_true] at hf
    obtain ⟨h1, h2⟩ := word_md env (hp k (by simp)) hw (by
      rintro L t rfl
      exact fine_nl uni L t _ _ hf.1) (by
      rintro alt u l rfl
      exact imageText_nl hf.1)
    obtain ⟨h3, h4⟩ := ih _ (fun k hk => hp k (by simp [hk])) hf.2
    exact ⟨.cons h1 h3, by simp [List.mapM_cons, h2, h4]⟩

/-- C84: if the inline nodes below a node have a simple form and no word disturbs its neighbours (`fineWords`), then their
Markdown is read as exactly the characters the nodes show, in their order and with their style. It is what stands in the
Markdown of a paragraph before the newline, and of a heading after the marker. -/
theorem C84_partial (env : Env) (uni : Char → CharClass) (n : Node) (kids : List Node) (ws : List Word) (hp : Parsed n)
    (hc : n.content = .val kids) (hw : List.Forall₂ (WordOf env) kids ws) (hf : fineWords uni none ws = true) :
    ∃ (ss : List Str) (gs : List (List Glyph)), MdAll env kids ss ∧ kids.mapM (shown env) = some gs ∧
      readInline uni ss.flatten = some gs.flatten ∧
      (n.cls = .paragraph → markList n = [] → Md env n (ss.flatten ++ "\n".toList)) ∧
      (∀ k : Nat, n.cls = .heading → attr n "level" = some (.int k) →
        Md env n ("\n\n".toList ++ List.replicate k '#' ++ " ".toList ++ ss.flatten ++ "\n\n".toList)) := by
  obtain ⟨h1, h2⟩ := words_md env uni hw none (parsed_kids hp hc) hf
  refine ⟨_, _, h1, h2, ?_, ?_, ?_⟩
  · rw [← List.flatMap_def, ← List.flatMap_def]
    exact read_inline uni ws hf
  · intro hn hm
    refine (C62_paragraph env n kids hn hc (C62_parsed_marks n hp) _).mpr ⟨_, _, h1, ?_, rfl⟩
    unfold Styled
    unfold markList at hm
    split
    · next ms e =>
      rw [e] at hm
      cases hm
      rfl
    · rfl
  · intro k hn hk
    have := (C36_heading env n kids k hn hk hc _).mpr ⟨_, h1, rfl⟩
    rw [Int.toNat_natCast] at this
    exact this

end Verif.Props
