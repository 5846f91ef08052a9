import Verif.Props.Docs
/-!
# C19, C20: lenient mode
-/

namespace Verif.Props
set_option linter.unusedSimpArgs false
open Verif

/-! ## C19 -/

/-- Take the success branch of a `match x with | .error e => .error e | .ok a => ..` in `h`. -/
macro "mok" h:ident a:ident ha:ident : tactic =>
  `(tactic| (try dsimp only at $h:ident) <;> (split at $h:ident; (· simp at $h:ident); rename_i $a:ident $ha:ident))

theorem collectPre_mono {α β γ : Type} {pre : α → Except PyErr γ} {f : γ → α → Except PyErr β}
    {l : List α} {bs : List β} (h : collectPre false pre f l = .ok bs) (ig : Bool) :
    collectPre ig pre f l = .ok bs := by
  induction l generalizing bs with
  | nil => exact h
  | cons a l ih =>
    rw [collectPre] at h ⊢
    cases hp : pre a with
    | error e => rw [hp] at h; simp at h
    | ok c =>
      rw [hp] at h
      simp only at h ⊢
      cases hf : f c a with
      | error e => rw [hf] at h; simp at h
      | ok b =>
        rw [hf] at h
        simp only at h ⊢
        cases hl : collectPre false pre f l with
        | error e => rw [hl] at h; simp at h
        | ok bs' => rw [hl] at h; rw [ih hl]; exact h

theorem content_mono {sep : Str} {c : Slot (List Item)} {s : Str}
    (h : contentToMarkdown sep false c = .ok s) (ig : Bool) : contentToMarkdown sep ig c = .ok s := by
  unfold contentToMarkdown at h ⊢
  split
  · exact h
  · split at h
    · exact absurd rfl (by assumption)
    · mok h items h1
      have h2 := h
      mok h2 l h3
      have h4 := h2
      simp only [h1, collect_mono h3 ig, h4]

theorem docContent_mono {c : Slot (List Item)} {s : Str}
    (h : docContentToMarkdown false c = .ok s) (ig : Bool) : docContentToMarkdown ig c = .ok s := by
  unfold docContentToMarkdown at h ⊢
  split
  · exact h
  · split at h
    · exact absurd rfl (by assumption)
    · mok h items h1
      have h2 := h
      mok h2 l h3
      have h4 := h2
      simp only [h1, collect_mono h3 ig, h4]

theorem listItemContent_mono {kind : TypeEnum} {level : Int} {item : Item} {s : Str}
    (h : listItemContent kind level false item = .ok s) (ig : Bool) :
    listItemContent kind level ig item = .ok s := by
  unfold listItemContent at h ⊢
  mok h kids h1
  have h2 := h
  mok h2 l h3
  have h4 := h2
  simp only [h1, collectPre_mono h3 ig, h4]

theorem bulletLines_mono {level : Int} {items : List Item} {ls : List Str}
    (h : bulletLines level false items = .ok ls) (ig : Bool) :
    bulletLines level ig items = .ok ls := by
  induction items generalizing ls with
  | nil => exact h
  | cons item items ih =>
    rw [bulletLines] at h ⊢
    cases ht : item.isTypeOf [.listItem] with
    | error e => rw [ht] at h; simp at h
    | ok b =>
      rw [ht] at h
      cases b with
      | false => exact ih h
      | true =>
        mok h c h1
        have h2 := h
        mok h2 rest h3
        have h4 := h2
        simp only [listItemContent_mono h1 ig, ih h3]
        exact h4

theorem orderedLines_mono {env : Env} {level : Int} {num : Val} {items : List Item} {ls : List Str}
    (h : orderedLines env level false num items = .ok ls) (ig : Bool) :
    orderedLines env level ig num items = .ok ls := by
  induction items generalizing ls num with
  | nil => exact h
  | cons item items ih =>
    rw [orderedLines] at h ⊢
    cases ht : item.isTypeOf [.listItem] with
    | error e => rw [ht] at h; simp at h
    | ok b =>
      rw [ht] at h
      cases b with
      | false => exact ih h
      | true =>
        mok h c h1
        have h2 := h
        mok h2 rest h3
        have h4 := h2
        simp only [listItemContent_mono h1 ig, ih h3]
        exact h4

/-- A child whose successful strict conversions are unchanged in lenient mode. -/
def KidMono (k : Kid) : Prop :=
  ∀ l v, k.render l false = .ok v → ∀ ig, k.render l ig = .ok v

theorem taskItemLine_mono {level : Int} {item : Item} {s : Str}
    (h : taskItemLine level false item = .ok s) (ig : Bool) : taskItemLine level ig item = .ok s := by
  unfold taskItemLine at h ⊢
  mok h kids h1
  have h2 := h
  mok h2 l h3
  have h4 := h2
  simp only [h1, collect_mono h3 ig, h4]

theorem taskLines_mono {level : Int} {items : List Item} {ls : List Val}
    (hk : ∀ k ∈ items, KidMono k.toKid)
    (h : taskLines level false items = .ok ls) (ig : Bool) : taskLines level ig items = .ok ls := by
  induction items generalizing ls with
  | nil => exact h
  | cons item items ih =>
    have ih := fun ls => @ih ls (fun k hk' => hk k (by simp [hk']))
    rw [taskLines] at h ⊢
    cases ht : item.isTypeOf [.taskItem] with
    | error e => rw [ht] at h; simp at h
    | ok b =>
      rw [ht] at h
      cases b with
      | true =>
        mok h c h1
        have h2 := h
        mok h2 rest h3
        have h4 := h2
        simp only [taskItemLine_mono h1 ig, ih _ h3]
        exact h4
      | false =>
        simp only at h ⊢
        cases ht2 : item.isTypeOf [.taskList] with
        | error e => rw [ht2] at h; simp at h
        | ok b =>
          rw [ht2] at h
          cases b with
          | false => exact ih _ h
          | true =>
            simp only at h ⊢
            cases hr : item.render (some (level + 1)) false with
            | error e => rw [hr] at h; simp at h
            | ok md =>
              rw [hr] at h
              mok h rest h3
              have h4 := h
              rw [hk item (by simp) _ _ hr ig]
              simp only [ih _ h3]
              exact h4

theorem decisionBlocks_mono {items : List Item} {ls : List Val}
    (hk : ∀ k ∈ items, KidMono k.toKid)
    (h : decisionBlocks false items = .ok ls) (ig : Bool) : decisionBlocks ig items = .ok ls := by
  induction items generalizing ls with
  | nil => exact h
  | cons item items ih =>
    have ih := fun ls => @ih ls (fun k hk' => hk k (by simp [hk']))
    rw [decisionBlocks] at h ⊢
    cases ht : item.isTypeOf [.decisionItem] with
    | error e => rw [ht] at h; simp at h
    | ok b =>
      rw [ht] at h
      cases b with
      | false => exact ih _ h
      | true =>
        simp only at h ⊢
        cases hr : item.render none false with
        | error e => rw [hr] at h; simp at h
        | ok md =>
          rw [hr] at h
          mok h rest h3
          have h4 := h
          rw [hk item (by simp) _ _ hr ig]
          simp only [ih _ h3]
          exact h4

theorem rowCells_mono {items : List Item} {ls : List Val}
    (hk : ∀ k ∈ items, KidMono k.toKid)
    (h : rowCells false items = .ok ls) (ig : Bool) : rowCells ig items = .ok ls := by
  induction items generalizing ls with
  | nil => exact h
  | cons item items ih =>
    have ih := fun ls => @ih ls (fun k hk' => hk k (by simp [hk']))
    rw [rowCells] at h ⊢
    mok h md h1
    have h2 := h
    mok h2 rest h3
    have h4 := h2
    rw [hk item (by simp) _ _ h1 ig]
    simp only [ih _ h3]
    exact h4

theorem tableLines_mono {items : List Item} {ls : List Val}
    (h : tableLines false items = .ok ls) (ig : Bool) : tableLines ig items = .ok ls := by
  induction items generalizing ls with
  | nil => exact h
  | cons row rows ih =>
    rw [tableLines] at h ⊢
    cases hr : row.render none false with
    | error e => rw [hr] at h; simp at h
    | ok md =>
      rw [hr] at h
      simp only at h ⊢
      cases hw : headerWidth row.content with
      | error e => rw [hw] at h; simp at h
      | ok w =>
        rw [hw] at h
        mok h rest h3
        have h4 := h
        simp only [ih h3]
        exact h4

theorem dispatch_mono {env : Env} {hd : Hd} {c : Slot (List Item)} {l : Option Int} {v : Val}
    (hk : ∀ items, iterSlot alienItem c = .ok items → ∀ k ∈ items, KidMono k.toKid)
    (h : dispatch env hd c l false = .ok v) (ig : Bool) : dispatch env hd c l ig = .ok v := by
  have sv : ∀ {x y : Except PyErr Str}, (∀ s, x = .ok s → y = .ok s) →
      strVal x = .ok v → strVal y = .ok v := by
    intro x y hxy hx
    obtain ⟨s, h1, rfl⟩ := strVal_str hx
    rw [hxy s h1]; rfl
  unfold dispatch at h ⊢
  split at h
  · simp at h
  · next hlev =>
    rw [if_neg hlev]
    cases hcls : hd.cls <;> simp only [hcls] at h ⊢ <;>
      first
      | exact h
      | exact sv (fun s hs => docContent_mono hs ig) h
      | exact sv (fun s hs => content_mono hs ig) h
      | skip
    · -- bulletList
      refine sv (fun s hs => ?_) h
      unfold bulletListMd at hs ⊢
      mok hs items h1
      have h2 := hs
      mok h2 ls h3
      have h4 := h2
      simp only [h1, bulletLines_mono h3 ig, h4]
    · -- orderedList
      refine sv (fun s hs => ?_) h
      unfold orderedListMd at hs ⊢
      mok hs start h0
      mok hs items h1
      have h2 := hs
      mok h2 ls h3
      have h4 := h2
      simp only [h0, h1, orderedLines_mono h3 ig, h4]
    · -- paragraph
      refine sv (fun s hs => ?_) h
      unfold paragraphMd at hs ⊢
      mok hs md h1
      have h2 := hs
      simp only [content_mono h1 ig]
      exact h2
    · -- taskList
      refine sv (fun s hs => ?_) h
      unfold taskListMd at hs ⊢
      mok hs items h1
      have h2 := hs
      mok h2 ls h3
      have h4 := h2
      simp only [h1, taskLines_mono (hk items h1) h3 ig, h4]
    · -- decisionItem
      refine sv (fun s hs => ?_) h
      unfold decisionItemMd at hs ⊢
      mok hs md h1
      have h2 := hs
      simp only [content_mono h1 ig]
      exact h2
    · -- decisionList
      refine sv (fun s hs => ?_) h
      unfold decisionListMd at hs ⊢
      mok hs items h1
      have h2 := hs
      mok h2 ls h3
      have h4 := h2
      simp only [h1, decisionBlocks_mono (hk items h1) h3 ig, h4]
    · -- heading
      refine sv (fun s hs => ?_) h
      unfold headingMd at hs ⊢
      mok hs level h0
      try simp only [h0]
      cases hn : level.asInt? with
      | none => rw [hn] at hs; simp at hs
      | some n =>
        rw [hn] at hs
        mok hs md h1
        have h2 := hs
        simp only [content_mono h1 ig]
        exact h2
    · -- codeBlock
      refine sv (fun s hs => ?_) h
      unfold codeBlockMd at hs ⊢
      mok hs md h1
      have h2 := hs
      simp only [content_mono h1 ig]
      exact h2
    · -- panel
      refine sv (fun s hs => ?_) h
      unfold panelMd at hs ⊢
      mok hs pt h0
      try simp only [h0]
      cases hn : pt.asStr? with
      | none => rw [hn] at hs; simp at hs
      | some n =>
        rw [hn] at hs
        mok hs md h1
        have h2 := hs
        simp only [docContent_mono h1 ig]
        exact h2
    · -- blockquote
      refine sv (fun s hs => ?_) h
      unfold blockquoteMd at hs ⊢
      mok hs md h1
      have h2 := hs
      simp only [docContent_mono h1 ig]
      exact h2
    · -- expand
      unfold expandMd at h ⊢
      mok h md h1
      have h2 := h
      simp only [docContent_mono h1 ig]
      exact h2
    · -- tableCell
      refine sv (fun s hs => ?_) h
      unfold cellMd at hs ⊢
      mok hs md h1
      have h2 := hs
      simp only [content_mono h1 ig]
      exact h2
    · -- tableHeader
      refine sv (fun s hs => ?_) h
      unfold cellMd at hs ⊢
      mok hs md h1
      have h2 := hs
      simp only [content_mono h1 ig]
      exact h2
    · -- tableRow
      refine sv (fun s hs => ?_) h
      unfold tableRowMd at hs ⊢
      mok hs items h1
      have h2 := hs
      mok h2 ls h3
      have h4 := h2
      simp only [h1, rowCells_mono (hk items h1) h3 ig, h4]
    · -- table
      refine sv (fun s hs => ?_) h
      unfold tableMd at hs ⊢
      mok hs items h1
      have h2 := hs
      mok h2 ls h3
      have h4 := h2
      simp only [h1, tableLines_mono h3 ig, h4]

/-- C19: if the strict conversion of a node succeeds (with or without a `level` argument), lenient
conversion gives the same text.  For every node, parsed or not. -/
theorem C19_lenient_same (env : Env) (n : Node) : ∀ (level : Option Int) (v : Val),
    n.toMarkdownAt env level false = .ok v → n.toMarkdownAt env level true = .ok v := by
  suffices h : ∀ (level : Option Int) (v : Val), n.toMarkdownAt env level false = .ok v →
      ∀ ig, n.toMarkdownAt env level ig = .ok v from fun l v hv => h l v hv true
  induction n using Node.induction with
  | h hd s ih =>
    intro level v h ig
    rw [toMarkdownAt_eq] at h ⊢
    refine dispatch_mono ?_ h ig
    intro items hi k hk
    simp only [Node.content] at hi
    cases s with
    | absent => simp [iterSlot] at hi
    | opt => simp [iterSlot] at hi
    | raw r =>
      simp only [slotItems_raw, iterSlot] at hi
      cases hr : r.iterLen with
      | error e => rw [hr] at hi; simp at hi
      | ok m =>
        rw [hr] at hi
        simp only [Except.ok.injEq] at hi
        subst hi
        rw [(List.mem_replicate.mp hk).2]
        intro l v hv
        simp [alienItem, alienKid] at hv
    | val l =>
      simp only [slotItems_val, iterSlot, Except.ok.injEq] at hi
      subst hi
      obtain ⟨x, hx, rfl⟩ := List.mem_map.mp hk
      exact fun l' v' hv' ig' => ih l x rfl hx l' v' hv' ig'

example := C19_lenient_same Samples.env (Samples.tasks [Samples.task "DONE" (.val [Samples.text "a"])]) (some 1)
  (.str "    - [x] a".toList) rfl

example : (Samples.tasks [Samples.task "DONE" (.val [Samples.text "a"])]).toMarkdownAt Samples.env
    (some 1) false = .ok (.str "    - [x] a".toList) := rfl

/-! ## C20 -/

/-- C20 (as documented for `ignore_error`: only the failing node is skipped) says: the text of every
sibling of a failing node still appears.  It is false of the code: here the first paragraph of a
panel fails, the second one converts to "b", and the whole panel is dropped. -/
theorem C20_false : ∃ (n p bad good : Node) (s t : Str), Spec.Parsed n ∧ n.cls = .doc ∧
    n.content = .val [p] ∧ p.content = .val [bad, good] ∧
    Spec.converts Samples.env bad = false ∧
    Spec.Md Samples.env good t ∧ t = "b\n".toList ∧
    n.toMarkdown Samples.env true = .ok (.str s) ∧ 'b' ∉ s :=
  ⟨Samples.doc [Samples.panel "info" [Samples.para [Samples.badCard], Samples.para [Samples.text "b"]]],
    Samples.panel "info" [Samples.para [Samples.badCard], Samples.para [Samples.text "b"]],
    Samples.para [Samples.badCard], Samples.para [Samples.text "b"], [], _,
    ⟨true, Samples.j "doc" [("content", .list [
      Samples.j "panel" [("attrs", .dict [("panelType", Samples.str "info")]), ("content", .list [
        Samples.j "paragraph" [("content", .list [Samples.j "inlineCard" [("attrs", .dict [("data", .dict [])])]])],
        Samples.j "paragraph" [("content", .list [Samples.j "text" [("text", Samples.str "b")]])]])]])],
      rfl⟩, rfl, rfl, rfl, rfl, rfl, rfl, rfl, by decide⟩

/-- C20, the part that holds: one level down.  In a document converted leniently, every block that
converts contributes its text (padded and cleaned up with the others), whatever its siblings do. -/
theorem C20_partial (env : Env) (n : Node) (kids : List Node) (hn : n.cls = .doc)
    (hc : n.content = .val kids) (hk : ∀ k ∈ kids, Spec.HasType k)
    (ht : ∀ k ∈ kids, Spec.TextIsStr k) :
    ∃ ss, Spec.MdAll env (kids.filter (Spec.converts env)) ss ∧
      n.toMarkdown env true = .ok (.str (Spec.docText (kids.filter (Spec.converts env)) ss)) := by
  obtain ⟨hd, c⟩ := n
  simp only [Node.content] at hc
  subst hc
  obtain ⟨s, hs⟩ := C17_total env _ kids hn rfl hk ht
  have hb : hd.cls ∈ Spec.blockContainers := by
    have : hd.cls = .doc := hn
    rw [this]; decide
  have := C18_block_containers env hd kids hb hk
  rw [hs] at this
  obtain ⟨ss, h1, h2⟩ := (C42_blocks_in_order env (.mk hd (.val (kids.filter (Spec.converts env)))) _ hn rfl
    (fun k hk' => hk k (List.mem_filter.mp hk').1) _).mp this.symm
  exact ⟨ss, h1, by rw [hs, h2]⟩

example := C20_partial Samples.env (Samples.doc [Samples.para [Samples.badCard], Samples.para [Samples.text "a"], Samples.text "b"])
  _ rfl rfl (Samples.hasTypes rfl)
  (by simp only [List.forall_mem_cons]; exact ⟨nofun, nofun, fun _ => ⟨_, rfl⟩, by simp⟩)

end Verif.Props
