import Verif.Props.Required
import Verif.Lemmas.Md
import Verif.Lemmas.Samples
/-!
# C38, C39, C40: cards, inline atoms, media
-/

namespace Verif.Props
open Verif

theorem getAttr_eq {n : Node} {k : String} {v : Val} (h : Spec.attr n k = some v) :
    getAttr n.hd.attrs k = .ok v := by
  unfold Spec.attr at h
  unfold getAttr
  cases ha : n.hd.attrs <;> rw [ha] at h <;> simp at h
  simp [h]

/-- Every declared attribute of a parsed node whose class requires attrs has a value (maybe the
sentinel). -/
theorem parsed_attr {n : Node} (h : Spec.Parsed n) (hr : "attrs" ∈ Spec.requiredKeys n.cls) {k : String}
    (hk : k ∈ Spec.attrKeys n.cls) : ∃ v, Spec.attr n k = some v := by
  obtain ⟨w, v, h⟩ := h
  obtain ⟨d, t, rfl, ht, hreg, hf⟩ := parseNode_ok h
  have hf : (n.cls.fromDict w (.dict d)).out = .ok n := hf
  obtain ⟨hkeys, _⟩ := (C07_from_dict_iff w n.cls d).mp ⟨n, hf⟩
  obtain ⟨a, kk, m, ha, hk', hm, hreq, heq⟩ := nodeFromDict_ok hf
  have hk2 := hkeys _ hr
  unfold Spec.attr
  have hdecl : "attrs" ∈ Spec.nodeKeys n.cls := by simp [Spec.nodeKeys, hr]
  have e : n.hd.attrs = slotOf n.cls.fields "attrs" (a.map Slot.val) := by
    exact congrArg (fun x => x.hd.attrs) heq
  rw [e, slotOf_eq n.cls _ (.inl rfl), if_pos hdecl]
  rcases attrsStep_ok_cases ha with ⟨rfl, h1 | h1⟩ | ⟨fs, ad', o, hf', had, rfl, hok⟩
  · rw [h1] at hk2; simp at hk2
  · rw [attrs_declared, h1] at hdecl; simp at hdecl
  · simp only [Option.map_some, Option.getD_some]
    obtain ⟨_, rfl⟩ := attrsFromDict_ok hok
    have hjf : k ∈ names fs := by rw [attrsFields_names n.cls fs hf']; exact hk
    obtain ⟨f, hfm, rfl⟩ := List.mem_map.mp hjf
    rw [lookup_map_field _ (attrsFields_nodup n.cls fs hf') hfm]
    exact ⟨_, rfl⟩

/-! ## C38 -/

/-- C38: an inline card with a string url renders `[url](url)`. -/
theorem C38_inlineCard (env : Env) (n : Node) (url : Str) (ig : Bool) (hn : n.cls = .inlineCard)
    (hu : Spec.attr n "url" = some (.str url)) :
    n.toMarkdown env ig = .ok (.str ("[".toList ++ url ++ "](".toList ++ url ++ ")".toList)) := by
  rw [toMarkdown_eq]
  have hn' : n.hd.cls = .inlineCard := hn
  unfold dispatch
  simp only [hn', inlineCardMd, getAttr_eq hu, Val.asStr?, selfLink]
  rfl

example := C38_inlineCard Samples.env (Samples.parse (Samples.j "inlineCard" [("attrs", .dict [("url", Samples.str "u")])]))
  "u".toList false rfl rfl

/-- C38: a block card with a string url renders the same link between newlines. -/
theorem C38_blockCard (env : Env) (n : Node) (url : Str) (ig : Bool) (hn : n.cls = .blockCard)
    (hu : Spec.attr n "url" = some (.str url)) :
    n.toMarkdown env ig =
      .ok (.str ("\n[".toList ++ url ++ "](".toList ++ url ++ ")\n".toList)) := by
  rw [toMarkdown_eq]
  have hn' : n.hd.cls = .blockCard := hn
  unfold dispatch
  simp only [hn', blockCardMd, getAttr_eq hu, Val.asStr?, selfLink, Option.isSome_none,
    Bool.false_and, Bool.false_eq_true, if_false, strVal]
  simp

example := C38_blockCard Samples.env (Samples.parse (Samples.j "blockCard" [("attrs", .dict [("url", Samples.str "u")])]))
  "u".toList false rfl rfl

/-- C38: an embed card with a string url likewise. -/
theorem C38_embedCard (env : Env) (n : Node) (url : Str) (ig : Bool) (hn : n.cls = .embedCard)
    (hu : Spec.attr n "url" = some (.str url)) :
    n.toMarkdown env ig =
      .ok (.str ("\n[".toList ++ url ++ "](".toList ++ url ++ ")\n".toList)) := by
  rw [toMarkdown_eq]
  have hn' : n.hd.cls = .embedCard := hn
  unfold dispatch
  simp only [hn', embedCardMd, getAttr_eq hu, Val.pyStr, selfLink, Option.isSome_none,
    Bool.false_and, Bool.false_eq_true, if_false, strVal]
  simp

example := C38_embedCard Samples.env (Samples.parse (Samples.j "embedCard"
  [("attrs", .dict [("url", Samples.str "u"), ("layout", Samples.str "wide")])])) "u".toList false rfl rfl

/-- C38: a parsed inline or block card without a string url raises NotImplementedError. -/
theorem C38_raises (env : Env) (n : Node) (ig : Bool) (hp : Spec.Parsed n)
    (hn : n.cls = .inlineCard ∨ n.cls = .blockCard)
    (hu : ∀ url, Spec.attr n "url" ≠ some (.str url)) :
    n.toMarkdown env ig = .error .notImplementedError := by
  obtain ⟨v, hv⟩ := parsed_attr hp (k := "url") (by rcases hn with h | h <;> rw [h] <;> decide)
    (by rcases hn with h | h <;> rw [h] <;> decide)
  have hs : v.asStr? = none := by
    cases v <;> first | rfl | exact absurd hv (hu _)
  rw [toMarkdown_eq]
  unfold dispatch
  rcases hn with hn | hn
  · have hn' : n.hd.cls = .inlineCard := hn
    simp only [hn', inlineCardMd, getAttr_eq hv, hs]
    rfl
  · have hn' : n.hd.cls = .blockCard := hn
    simp only [hn', blockCardMd, getAttr_eq hv, hs]
    rfl

example : Spec.Parsed Samples.badCard ∧ (∀ url, Spec.attr Samples.badCard "url" ≠ some (.str url)) :=
  ⟨⟨true, Samples.j "inlineCard" [("attrs", .dict [("data", .dict [])])], rfl⟩,
    fun _ h => by simp [Samples.badCard, Spec.attr, Node.hd, Samples.attrs, lookupKey] at h⟩

/-! ## C39 -/

/-- C39: emoji: text, else short name, else NotImplementedError. -/
theorem C39_emoji (env : Env) (n : Node) (t sn : Val) (ig : Bool) (hn : n.cls = .emoji)
    (ht : Spec.attr n "text" = some t) (hs : Spec.attr n "shortName" = some sn) :
    n.toMarkdown env ig =
      match t, sn with
      | .str s, _ => .ok (.str s)
      | _, .str s => .ok (.str s)
      | _, _ => .error .notImplementedError := by
  rw [toMarkdown_eq]
  have hn' : n.hd.cls = .emoji := hn
  unfold dispatch
  simp only [hn', emojiMd, getAttr_eq ht, getAttr_eq hs]
  cases t <;> cases sn <;> rfl

example := C39_emoji Samples.env (Samples.parse (Samples.j "emoji" [("attrs", .dict [("shortName", Samples.str ":x:")])]))
  .opt (Samples.str ":x:") false rfl rfl rfl

/-- C39: mention: text, else `@Unknown`. -/
theorem C39_mention (env : Env) (n : Node) (t : Val) (ig : Bool) (hn : n.cls = .mention)
    (ht : Spec.attr n "text" = some t) :
    n.toMarkdown env ig = .ok (.str (match t with | .str s => s | _ => "@Unknown".toList)) := by
  rw [toMarkdown_eq]
  have hn' : n.hd.cls = .mention := hn
  unfold dispatch
  simp only [hn', mentionMd, getAttr_eq ht]
  cases t <;> rfl

example := C39_mention Samples.env (Samples.parse (Samples.j "mention"
  [("attrs", .dict [("id", Samples.str "i"), ("text", Samples.str "@x")])])) (Samples.str "@x") false rfl rfl

/-- C39: status: the text between back ticks. -/
theorem C39_status (env : Env) (n : Node) (s : Str) (ig : Bool) (hn : n.cls = .status)
    (ht : Spec.attr n "text" = some (.str s)) :
    n.toMarkdown env ig = .ok (.str ("`".toList ++ s ++ "`".toList)) := by
  rw [toMarkdown_eq]
  have hn' : n.hd.cls = .status := hn
  unfold dispatch
  simp only [hn', statusMd, getAttr_eq ht]
  rfl

example := C39_status Samples.env (Samples.parse (Samples.j "status"
  [("attrs", .dict [("text", Samples.str "done"), ("color", Samples.str "red")])])) "done".toList false rfl rfl

/-- C39: extension: `[Extension: key] text` for a non-empty string text, else
`[Extension: type/key]`. -/
theorem C39_extension (env : Env) (n : Node) (key ty : Str) (t : Val) (ig : Bool)
    (hn : n.cls = .extension) (hk : Spec.attr n "extensionKey" = some (.str key))
    (hty : Spec.attr n "extensionType" = some (.str ty)) (ht : Spec.attr n "text" = some t) :
    ((∃ s, t = .str s ∧ s ≠ [] ∧ n.toMarkdown env ig =
        .ok (.str ("[Extension: ".toList ++ key ++ "] ".toList ++ s))) ∨
     ((∀ s, t = .str s → s = []) ∧ n.toMarkdown env ig =
        .ok (.str ("[Extension: ".toList ++ ty ++ "/".toList ++ key ++ "]".toList)))) := by
  rw [toMarkdown_eq]
  have hn' : n.hd.cls = .extension := hn
  unfold dispatch
  simp only [hn', extensionMd, getAttr_eq ht, getAttr_eq hk, getAttr_eq hty]
  cases t with
  | str s =>
    cases s with
    | nil => right; exact ⟨fun s h => by simp at h; exact h, rfl⟩
    | cons c cs => left; exact ⟨c :: cs, rfl, by simp, rfl⟩
  | _ => right; exact ⟨fun s h => by simp at h, rfl⟩

example := C39_extension Samples.env (Samples.parse (Samples.j "extension"
  [("attrs", .dict [("extensionKey", Samples.str "k"), ("extensionType", Samples.str "t"), ("text", Samples.str "")])]))
  "k".toList "t".toList (Samples.str "") false rfl rfl rfl rfl

/-- C39: hard breaks and rules are fixed strings. -/
theorem C39_fixed (env : Env) (n : Node) (ig : Bool) :
    (n.cls = .hardBreak → n.toMarkdown env ig = .ok (.str "  \n".toList)) ∧
    (n.cls = .rule → n.toMarkdown env ig = .ok (.str "\n\n---\n\n".toList)) := by
  rw [toMarkdown_eq]
  unfold dispatch
  constructor <;> intro hn <;> (unfold Node.cls at hn; simp only [hn]; rfl)

/-- The attributes used above exist on every parsed node of the class. -/
theorem C39_attrs_exist (n : Node) (hp : Spec.Parsed n) :
    (n.cls = .emoji → ∃ t sn, Spec.attr n "text" = some t ∧ Spec.attr n "shortName" = some sn) ∧
    (n.cls = .mention → ∃ t, Spec.attr n "text" = some t) ∧
    (n.cls = .status → ∃ t, Spec.attr n "text" = some t) ∧
    (n.cls = .extension → ∃ t k ty, Spec.attr n "text" = some t ∧
      Spec.attr n "extensionKey" = some k ∧ Spec.attr n "extensionType" = some ty) := by
  have key : ∀ c, n.cls = c → "attrs" ∈ Spec.requiredKeys c → ∀ k, k ∈ Spec.attrKeys c →
      ∃ v, Spec.attr n k = some v := by
    intro c hc hr k hk; subst hc; exact parsed_attr hp hr hk
  refine ⟨fun h => ?_, fun h => ?_, fun h => ?_, fun h => ?_⟩
  · obtain ⟨t, ht⟩ := key _ h (by decide) "text" (by decide)
    obtain ⟨s, hs⟩ := key _ h (by decide) "shortName" (by decide)
    exact ⟨t, s, ht, hs⟩
  · exact key _ h (by decide) "text" (by decide)
  · exact key _ h (by decide) "text" (by decide)
  · obtain ⟨t, ht⟩ := key _ h (by decide) "text" (by decide)
    obtain ⟨s, hs⟩ := key _ h (by decide) "extensionKey" (by decide)
    obtain ⟨u, hu⟩ := key _ h (by decide) "extensionType" (by decide)
    exact ⟨t, s, u, ht, hs, hu⟩

example := C39_attrs_exist (Samples.parse (Samples.j "emoji" [("attrs", .dict [("shortName", Samples.str ":x:")])]))
  (Samples.parsed rfl)

/-! ## C40 -/

/-- `![alt](target)`. -/
def _root_.Verif.Spec.image (alt target : Str) : Str :=
  "![".toList ++ alt ++ "](".toList ++ target ++ ")".toList

/-- The alternative text: `alt` if it is a string, else `media`. -/
def _root_.Verif.Spec.altText : Val → Str
  | .str s => s
  | _ => "media".toList

/-- C40: what a media node converts to, by its `type` attribute; images without marks. -/
theorem C40_media (env : Env) (n : Node) (ty url alt id : Val) (ig : Bool) (hn : n.cls = .media)
    (hty : Spec.attr n "type" = some ty) (hu : Spec.attr n "url" = some url)
    (ha : Spec.attr n "alt" = some alt) (hi : Spec.attr n "id" = some id) :
    (∀ u, ty = .str "external".toList → url = .str u → n.hd.marks = .opt →
      n.toMarkdown env ig = .ok (.str (Spec.image (Spec.altText alt) u))) ∧
    (∀ i, ty = .str "file".toList → id = .str i → n.hd.marks = .opt →
      n.toMarkdown env ig = .ok (.str (Spec.image (Spec.altText alt) ("media:".toList ++ i)))) ∧
    (ty = .str "link".toList → n.toMarkdown env ig = .ok (.str "[media]".toList)) ∧
    (ty ≠ .str "file".toList → ty ≠ .str "link".toList →
      (ty = .str "external".toList → ∀ u, url ≠ .str u) →
      n.toMarkdown env ig = .error .typeError) := by
  have halt : alt.asStr?.getD "media".toList = Spec.altText alt := by cases alt <;> rfl
  rw [toMarkdown_eq]
  have hn' : n.hd.cls = .media := hn
  unfold dispatch
  simp only [hn', mediaMd, getAttr_eq hty, getAttr_eq hu, mediaAlt, getAttr_eq ha, getAttr_eq hi,
    halt, Option.isSome_none, Bool.false_and, Bool.false_eq_true, if_false]
  refine ⟨?_, ?_, ?_, ?_⟩
  · rintro u rfl rfl hm; rw [hm]; rfl
  · rintro i rfl rfl hm
    rw [if_neg (fun h => absurd h.1 (by decide)), if_pos (by rfl), hm]; rfl
  · rintro rfl
    rw [if_neg (fun h => absurd h.1 (by decide)), if_neg (by decide), if_pos (by rfl)]
  · intro h1 h2 h3
    rw [if_neg, if_neg, if_neg]
    · intro h; apply h2; cases ty <;> simp [Val.asStr?] at h; rw [h]; rfl
    · intro h; apply h1; cases ty <;> simp [Val.asStr?] at h; rw [h]; rfl
    · rintro ⟨h, hu⟩
      have : ty = .str "external".toList := by
        cases ty <;> simp [Val.asStr?] at h; rw [h]; rfl
      cases url <;> simp [Val.asStr?] at hu
      exact h3 this _ rfl

example := C40_media Samples.env (Samples.parse (Samples.j "media" [("attrs", .dict [("type", Samples.str "file"),
  ("id", Samples.str "i"), ("collection", Samples.str "c")])])) (Samples.str "file") .opt .opt (Samples.str "i") false
  rfl rfl rfl rfl rfl

/-- C40: with marks, the image is passed through them as the text of a text node would be (link marks give a linked
image). -/
theorem C40_marks (env : Env) (n : Node) (ty url alt id : Val) (ig : Bool) (hn : n.cls = .media)
    (hty : Spec.attr n "type" = some ty) (hu : Spec.attr n "url" = some url)
    (ha : Spec.attr n "alt" = some alt) (hi : Spec.attr n "id" = some id) :
    (∀ u, ty = .str "external".toList → url = .str u →
      n.toMarkdown env ig =
        (Node.mk ⟨.text, .none, none, some (.str (Spec.image (Spec.altText alt) u)), .absent, n.hd.marks⟩ .absent).toMarkdown env ig) ∧
    (∀ i, ty = .str "file".toList → id = .str i →
      n.toMarkdown env ig =
        (Node.mk ⟨.text, .none, none, some (.str (Spec.image (Spec.altText alt) ("media:".toList ++ i))), .absent, n.hd.marks⟩
          .absent).toMarkdown env ig) := by
  have halt : alt.asStr?.getD "media".toList = Spec.altText alt := by cases alt <;> rfl
  rw [toMarkdown_eq]
  have hn' : n.hd.cls = .media := hn
  unfold dispatch
  simp only [hn', mediaMd, getAttr_eq hty, getAttr_eq hu, mediaAlt, getAttr_eq ha, getAttr_eq hi,
    halt, Option.isSome_none, Bool.false_and, Bool.false_eq_true, if_false]
  constructor
  · rintro u rfl rfl; rfl
  · rintro i rfl rfl
    rw [if_neg (fun h => absurd h.1 (by decide)), if_pos (by rfl)]; rfl

example := C40_marks Samples.env (Samples.parse (Samples.j "media" [("attrs", .dict [("type", Samples.str "file"),
  ("id", Samples.str "i")]), ("marks", .list [Samples.j "strong" []])])) (Samples.str "file") .opt .opt (Samples.str "i") false
  rfl rfl rfl rfl rfl

/-- The attributes used above exist on every parsed media node. -/
theorem C40_attrs_exist (n : Node) (hp : Spec.Parsed n) (hn : n.cls = .media) :
    ∃ ty url alt id, Spec.attr n "type" = some ty ∧ Spec.attr n "url" = some url ∧
      Spec.attr n "alt" = some alt ∧ Spec.attr n "id" = some id := by
  have key : ∀ k, k ∈ Spec.attrKeys .media → ∃ v, Spec.attr n k = some v := by
    intro k hk; exact parsed_attr hp (by rw [hn]; decide) (by rw [hn]; exact hk)
  obtain ⟨a, ha⟩ := key "type" (by decide)
  obtain ⟨b, hb⟩ := key "url" (by decide)
  obtain ⟨c, hc⟩ := key "alt" (by decide)
  obtain ⟨d, hd⟩ := key "id" (by decide)
  exact ⟨a, b, c, d, ha, hb, hc, hd⟩

example := C40_attrs_exist (Samples.parse (Samples.j "media" [("attrs", .dict [("type", Samples.str "link"),
  ("id", Samples.str "i")])])) (Samples.parsed rfl) rfl

example : ∃ n, (parseNode true (Samples.j "media" [("attrs", .dict [("type", Samples.str "external"),
      ("url", Samples.str "u")])])).out = .ok n ∧ n.cls = .media ∧ n.hd.marks = .opt ∧
    n.toMarkdown Samples.env false = .ok (Samples.str "![media](u)") := ⟨_, rfl, rfl, rfl, rfl⟩

end Verif.Props
