import Verif.Lemmas.Prune
import Verif.Props.Docs
/-!
# C86, C87: conversions interrupted by an exception (full stack, no memory)
-/

namespace Verif.Props
open Verif Spec Lemmas

/-! ## C86 -/

/-- C86: whatever interrupts a strict conversion, and wherever: either the exception comes out, or the result is the undisturbed
conversion's. There is no damaged text. -/
theorem C86_strict (env : Env) (e : PyErr) (cut : List Nat → Bool) (n : Node) (level : Option Int) :
    n.cutMarkdownAt env e cut level false = n.toMarkdownAt env level false ∨ n.cutMarkdownAt env e cut level false = .error e := by
  have := (cut_same env e cut n []).kid.render level
  rwa [item_render] at this

/-- C86: with `ignore_error=True` either the exception comes out, or the result is what the undisturbed conversion gives for the tree
with some nodes (with all that is below them) taken out. -/
theorem C86_lenient (env : Env) (e : PyErr) (cut : List Nat → Bool) (n : Node) (level : Option Int) :
    n.cutMarkdownAt env e cut level true = .error e ∨
      ∃ n', Pruned n' n ∧ n.cutMarkdownAt env e cut level true = n'.toMarkdownAt env level true := by
  obtain ⟨n', hn, h | h⟩ := prunes env e cut n [] level
  · exact .inr ⟨n', hn, h⟩
  · exact .inl h

theorem cut_shift (env : Env) (e : PyErr) (cut : List Nat → Bool) (a : List Nat) (n : Node) :
    ∀ b, n.cutItem env e cut (a ++ b) = n.cutItem env e (fun q => cut (a ++ q)) b := by
  induction n using Node.induction with
  | h hd s ih =>
    intro b
    have hs : cutSlot env e cut (a ++ b) s = cutSlot env e (fun q => cut (a ++ q)) b s := by
      cases s with
      | absent => rfl
      | opt => rfl
      | raw v => rfl
      | val l =>
        rw [cutSlot, cutSlot, cutList_eq, cutList_eq]
        congr 1
        refine List.map_congr_left fun p hp => ?_
        rw [List.append_assoc]
        exact ih l p.1 rfl (List.fst_mem_of_mem_zipIdx hp) _
    rw [Node.cutItem, Node.cutItem, hs]

/-- The children whose conversion is not interrupted. -/
def survivors (env : Env) (e : PyErr) (cut : List Nat → Bool) (kids : List Node) : List Node :=
  (kids.zipIdx.filter fun p => match p.1.cutMarkdownAt env e (fun q => cut (p.2 :: q)) none false with
    | .ok _ => true
    | .error _ => false).map (·.1)

theorem collect_survivors {β : Type} (env : Env) (e : PyErr) (cut : List Nat → Bool) (f : Item → Except PyErr β)
    (hf : ∀ k k', ItemSame e k k' → k'.render none false = .error e → ∃ x, f k' = .error x)
    (hf' : ∀ k k', ItemSame e k k' → k'.render none false = k.render none false → f k' = f k)
    (kids : List Node) (hg : ∀ n ∈ kids, converts env n = false → ∃ x, f (n.item env) = .error x) (i : Nat) :
    collect true f (cutList env e cut [] i kids) = collect true f ((((kids.zipIdx i).filter fun p =>
      match p.1.cutMarkdownAt env e (fun q => cut (p.2 :: q)) none false with
      | .ok _ => true
      | .error _ => false).map (·.1)).map (Node.item env)) := by
  induction kids generalizing i with
  | nil => rw [cutList]; rfl
  | cons n l ih =>
    have ih := ih (fun n hn => hg n (by simp [hn])) (i + 1)
    have hs := cut_same env e cut n [i]
    have hr : n.cutMarkdownAt env e (fun q => cut (i :: q)) none false = (n.cutItem env e cut [i]).render none false := by
      unfold Node.cutMarkdownAt
      rw [show [i] = [i] ++ ([] : List Nat) from rfl, cut_shift]
      rfl
    rw [cutList, List.zipIdx_cons, List.filter_cons, collect_cons, ih, hr, List.nil_append]
    cases hx : (n.cutItem env e cut [i]).render none false with
    | ok v =>
      have h := hs.kid.render none
      rw [hx] at h
      rcases h with h | h
      · rw [hf' _ _ hs (by rw [hx, h])]
        simp only [if_true, List.map_cons]
        rw [collect_cons]
        rfl
      · cases h
    | error x =>
      have h := hs.kid.render none
      rw [hx] at h
      rcases h with h | h
      · obtain ⟨y, hy⟩ := hg n (by simp) (by
          unfold converts Node.toMarkdown
          rw [item_render] at h
          rw [← h])
        rw [hf' _ _ hs (by rw [hx, h]), hy]
        rfl
      · obtain ⟨y, hy⟩ := hf _ _ hs (by rw [hx, h])
        rw [hy]
        rfl

theorem survivors_converts (env : Env) (e : PyErr) (cut : List Nat → Bool) (kids : List Node) :
    (survivors env e cut kids).filter (converts env) = survivors env e cut kids := by
  rw [List.filter_eq_self]
  intro a ha
  obtain ⟨p, hp, rfl⟩ := List.mem_map.mp ha
  have h := (List.mem_filter.mp hp).2
  unfold converts Node.toMarkdown
  rcases C86_strict env e (fun q => cut (p.2 :: q)) p.1 none with h1 | h1
  · rw [← h1]; exact h
  · rw [h1] at h; cases h

theorem survivors_mem {env : Env} {e : PyErr} {cut : List Nat → Bool} {kids : List Node} {k : Node} (h : k ∈ survivors env e cut kids) :
    k ∈ kids := by
  obtain ⟨p, hp, rfl⟩ := List.mem_map.mp h
  exact List.fst_mem_of_mem_zipIdx (List.mem_filter.mp hp).1

/-- C86: a document, quote, panel or expand whose own conversion is not interrupted: `ignore_error=True` gives the strict conversion of
the container with exactly the children that are left. -/
theorem C86_block_containers (env : Env) (e : PyErr) (cut : List Nat → Bool) (hcut : cut [] = false) (hd : Hd) (kids : List Node)
    (hc : hd.cls ∈ Spec.blockContainers) (hk : ∀ k ∈ kids, Spec.HasType k) :
    (Node.mk hd (.val kids)).cutMarkdownAt env e cut none true =
      (Node.mk hd (.val (survivors env e cut kids))).toMarkdown env false := by
  have key : docContentToMarkdown true (.val (cutList env e cut [] 0 kids)) =
      docContentToMarkdown false (slotItems env (.val (survivors env e cut kids))) := by
    have h1 := docContent_lenient env (survivors env e cut kids) fun k h => hk k (survivors_mem h)
    rw [survivors_converts] at h1
    rw [← h1, slotItems_val]
    unfold docContentToMarkdown
    simp only [iterSlot]
    rw [collect_survivors env e cut docBlock ?_ ?_ kids ?_ 0]
    · rfl
    · intro k k' _ h
      unfold docBlock
      cases k'.isTypeOf [.bulletList, .orderedList, .codeBlock] with
      | error x => exact ⟨x, rfl⟩
      | ok b => cases b <;> exact ⟨e, by simp only [h]⟩
    · intro k k' hs h
      unfold docBlock
      rw [isTypeOf_same hs.kid, h]
    · intro n _ h
      unfold docBlock
      unfold converts Node.toMarkdown at h
      obtain ⟨b, hb⟩ := node_isTypeOf env n [.bulletList, .orderedList, .codeBlock]
      rw [hb, item_render]
      cases hm : n.toMarkdownAt env none false with
      | ok v => rw [hm] at h; cases h
      | error x => cases b <;> exact ⟨x, rfl⟩
  unfold Node.cutMarkdownAt
  rw [Node.cutItem, toMarkdown_eq]
  simp only [Node.hd, Node.content, hcut, Bool.false_eq_true, if_false, cutSlot]
  simp only [Spec.blockContainers, List.mem_cons, List.not_mem_nil, or_false] at hc
  unfold dispatch
  rcases hc with h | h | h | h | h <;> simp only [h, blockquoteMd, panelMd, expandMd, key]

/-- C86: the same for the containers that use the plain loop (paragraph, heading, cell, item, ..). -/
theorem C86_plain_containers (env : Env) (e : PyErr) (cut : List Nat → Bool) (hcut : cut [] = false) (hd : Hd) (kids : List Node)
    (hc : hd.cls ∈ Spec.plainContainers) :
    (Node.mk hd (.val kids)).cutMarkdownAt env e cut none true =
      (Node.mk hd (.val (survivors env e cut kids))).toMarkdown env false := by
  have key : ∀ sep, contentToMarkdown sep true (.val (cutList env e cut [] 0 kids)) =
      contentToMarkdown sep false (slotItems env (.val (survivors env e cut kids))) := by
    intro sep
    have h1 := content_lenient env sep (survivors env e cut kids)
    rw [survivors_converts] at h1
    rw [← h1, slotItems_val]
    unfold contentToMarkdown
    simp only [iterSlot]
    rw [collect_survivors env e cut (fun k : Item => k.render none false) ?_ ?_ kids ?_ 0]
    · rfl
    · exact fun k k' _ h => ⟨e, h⟩
    · exact fun k k' _ h => h
    · intro n _ h
      unfold converts Node.toMarkdown at h
      rw [item_render]
      cases hm : n.toMarkdownAt env none false with
      | ok v => rw [hm] at h; cases h
      | error x => exact ⟨x, rfl⟩
  unfold Node.cutMarkdownAt
  rw [Node.cutItem, toMarkdown_eq]
  simp only [Node.hd, Node.content, hcut, Bool.false_eq_true, if_false, cutSlot]
  simp only [Spec.plainContainers, List.mem_cons, List.not_mem_nil, or_false] at hc
  unfold dispatch
  rcases hc with h | h | h | h | h | h | h | h | h <;>
    simp only [h, paragraphMd, headingMd, codeBlockMd, cellMd, decisionItemMd, key]

theorem cut_none (env : Env) (e : PyErr) (cut : List Nat → Bool) (n : Node) :
    ∀ place, (∀ p, Place n p → cut (place ++ p) = false) → n.cutItem env e cut place = n.item env := by
  induction n using Node.induction with
  | h hd s ih =>
    intro place h
    have h0 := h [] (.root _)
    rw [List.append_nil] at h0
    have hs : cutSlot env e cut place s = slotItems env s := by
      cases s with
      | absent => rfl
      | opt => rfl
      | raw v => rfl
      | val l =>
        rw [cutSlot, cutList_eq, slotItems_val]
        congr 1
        have hl : ∀ p ∈ l.zipIdx, p.1.cutItem env e cut (place ++ [p.2]) = p.1.item env := by
          intro p hp
          refine ih l p.1 rfl (List.fst_mem_of_mem_zipIdx hp) _ fun q hq => ?_
          rw [List.append_assoc]
          exact h _ (.child hd (List.mk_mem_zipIdx_iff_getElem?.mp hp) hq)
        rw [List.map_congr_left hl, show (fun p : Node × Nat => p.1.item env) = Node.item env ∘ Prod.fst from rfl, ← List.map_map,
          List.zipIdx_map_fst]
    rw [Node.cutItem, hs, h0]
    rfl

/-- C86: if no conversion inside the tree is interrupted, nothing changes, in either mode. -/
theorem C86_undisturbed (env : Env) (e : PyErr) (cut : List Nat → Bool) (n : Node) (h : ∀ p, Place n p → cut p = false)
    (level : Option Int) (ig : Bool) : n.cutMarkdownAt env e cut level ig = n.toMarkdownAt env level ig := by
  unfold Node.cutMarkdownAt
  rw [cut_none env e cut n [] (by simpa using h), item_render]

/-- C86: with room for `d` nested conversions every tree of depth at most `d` converts as usual, in either mode. -/
theorem C86_deep_enough (env : Env) (e : PyErr) (d : Nat) (n : Node) (h : ∀ p, Place n p → p.length < d)
    (level : Option Int) (ig : Bool) : n.cutMarkdownAt env e (fun p => decide (d ≤ p.length)) level ig = n.toMarkdownAt env level ig :=
  C86_undisturbed env e _ n (fun p hp => by simpa using h p hp) level ig

/-! ## C87 -/

/-- `k` quotes inside each other around a paragraph. -/
def quotes : Nat → Node
  | 0 => Samples.para [Samples.text "hello"]
  | k + 1 => Samples.quote [quotes k]

theorem quotes_cut (env : Env) (e : PyErr) (d : Nat) (k : Nat) :
    ∀ place, d ≤ place.length + k → ((quotes k).cutItem env e (fun p => decide (d ≤ p.length)) place).render none false = .error e := by
  induction k with
  | zero =>
    intro place h
    show (Node.cutItem env e _ place (.mk _ _)).render none false = _
    rw [Node.cutItem]
    exact if_pos (by simpa using h)
  | succ k ih =>
    intro place h
    show (Node.cutItem env e _ place (.mk _ _)).render none false = _
    rw [Node.cutItem]
    dsimp only
    split
    · rfl
    · have h1 := ih (place ++ [0]) (by simp only [List.length_append, List.length_singleton]; omega)
      rw [cutSlot, cutList, cutList]
      have hb : docBlock ((quotes k).cutItem env e (fun p => decide (d ≤ p.length)) (place ++ [0])) = .error e := by
        unfold docBlock
        obtain ⟨b, hb⟩ := node_isTypeOf env (quotes k) [.bulletList, .orderedList, .codeBlock]
        rw [isTypeOf_same (cut_same env e _ (quotes k) (place ++ [0])).kid, hb]
        cases b <;> simp only [h1]
      unfold dispatch
      simp only [Option.isSome_none, Bool.false_and, Bool.false_eq_true, if_false, blockquoteMd, docContentToMarkdown, iterSlot]
      rw [collect_cons, hb]
      rfl

/-- C87: however much room there is, a deep enough quote does not convert in strict mode: the exception comes out. -/
theorem C87_reported (env : Env) (e : PyErr) (d k : Nat) (h : d ≤ k + 1) :
    (Samples.doc [quotes k]).cutMarkdownAt env e (fun p => decide (d ≤ p.length)) none false = .error e := by
  have h1 := quotes_cut env e d k [0] (by simpa [Nat.add_comm] using h)
  rcases C86_strict env e (fun p => decide (d ≤ p.length)) (Samples.doc [quotes k]) none with h2 | h2
  · show (Node.cutItem env e _ [] (.mk _ _)).render none false = _
    rw [Node.cutItem]
    dsimp only
    split
    · rfl
    · rw [cutSlot, cutList, cutList]
      have hb : docBlock ((quotes k).cutItem env e (fun p => decide (d ≤ p.length)) ([] ++ [0])) = .error e := by
        unfold docBlock
        obtain ⟨b, hb⟩ := node_isTypeOf env (quotes k) [.bulletList, .orderedList, .codeBlock]
        rw [List.nil_append, isTypeOf_same (cut_same env e _ (quotes k) [0]).kid, hb]
        cases b <;> simp only [h1]
      unfold dispatch
      simp only [Option.isSome_none, Bool.false_and, Bool.false_eq_true, if_false, docContentToMarkdown, iterSlot]
      rw [collect_cons, hb]
      rfl
  · exact h2

/-- C87, what happens instead: with room for `d` nested conversions, the blocks `rest` of a document convert, and a deep quote after them,
which has nothing wrong with it, is missing from the result; no exception. -/
theorem C87_lost (env : Env) (e : PyErr) (d k : Nat) (hd : 0 < d) (h : d ≤ k + 1) (rest : List Node) (hr : ∀ n ∈ rest, HasType n)
    (hok : ∀ p, Place (Samples.doc rest) p → p.length < d) (hconv : ∀ n ∈ rest, converts env n = true) :
    (Samples.doc (rest ++ [quotes k])).cutMarkdownAt env e (fun p => decide (d ≤ p.length)) none true =
      (Samples.doc rest).toMarkdown env false := by
  rw [show (Samples.doc (rest ++ [quotes k])) = Node.mk (Samples.doc []).hd (.val (rest ++ [quotes k])) from rfl,
    C86_block_containers env e _ (by simp; omega) _ _ (by decide)]
  · suffices h : survivors env e (fun p => decide (d ≤ p.length)) (rest ++ [quotes k]) = rest by rw [h]; rfl
    have key : ∀ (l : List Node) (i : Nat), (∀ n ∈ l, converts env n = true ∧ ∀ p, Place n p → p.length + 1 < d) →
        (((l ++ [quotes k]).zipIdx i).filter fun p =>
          match p.1.cutMarkdownAt env e (fun q => decide (d ≤ (p.2 :: q).length)) none false with
          | .ok _ => true
          | .error _ => false).map (·.1) = l := by
      intro l
      induction l with
      | nil =>
        intro i _
        have h1 := quotes_cut env e d k [i] (by simpa [Nat.add_comm] using h)
        rw [show [i] = [i] ++ ([] : List Nat) from rfl, cut_shift] at h1
        simp only [List.nil_append, List.zipIdx_cons, List.zipIdx_nil, List.filter_cons, List.filter_nil]
        rw [show (quotes k).cutMarkdownAt env e (fun q => decide (d ≤ (i :: q).length)) none false = .error e from h1]
        rfl
      | cons n l ih =>
        intro i hl
        obtain ⟨h1, h2⟩ := hl n (by simp)
        rw [List.cons_append, List.zipIdx_cons, List.filter_cons,
          C86_undisturbed env e _ n (fun p hp => by have := h2 p hp; simp; omega)]
        unfold converts Node.toMarkdown at h1
        have h3 : (match n.toMarkdownAt env none false with | .ok _ => true | .error _ => false) = true := h1
        cases hm : n.toMarkdownAt env none false with
        | error x => rw [hm] at h3; cases h3
        | ok v =>
        simp only [if_true, List.map_cons]
        rw [ih (i + 1) fun n hn => hl n (by simp [hn])]
    refine key rest 0 fun n hn => ⟨hconv n hn, fun p hp => ?_⟩
    obtain ⟨i, hi⟩ := List.mem_iff_getElem?.mp hn
    have := hok (i :: p) (.child _ hi hp)
    simpa using this
  · intro n hn
    rcases List.mem_append.mp hn with hn | hn
    · exact hr n hn
    · rw [List.mem_singleton.mp hn, hasType_iff]
      cases k <;> rfl

/-- C87: if there is room for the whole depth of the tree, `ignore_error=True` loses nothing to the stack. -/
theorem C87_partial (env : Env) (e : PyErr) (d : Nat) (n : Node) (h : ∀ p, Place n p → p.length < d) (level : Option Int) :
    n.cutMarkdownAt env e (fun p => decide (d ≤ p.length)) level true = n.toMarkdownAt env level true :=
  C86_deep_enough env e d n h level true

/-- The JSON of a document: a paragraph, and a quote in a quote. -/
def deepJson : Val :=
  Samples.j "doc" [("version", .int 1), ("content", .list [
    Samples.j "paragraph" [("content", .list [Samples.j "text" [("text", Samples.str "a")]])],
    Samples.j "blockquote" [("content", .list [Samples.j "paragraph" [("content", .list [
      Samples.j "text" [("text", Samples.str "hello")]])]])]])]

/-- C87 is false of the code: a parsed document, room for three nested conversions: `ignore_error=True` returns without an exception, and
the quote, which converts when there is room, is not in the result. -/
theorem C87_false : ∃ n d s s', Spec.Parsed n ∧ (∀ e, n.cutMarkdownAt Samples.env e (fun p => decide (d ≤ p.length)) none true = .ok (.str s)) ∧
    (∀ e, n.cutMarkdownAt Samples.env e (fun p => decide (d ≤ p.length)) none false = .error e) ∧
    n.toMarkdown Samples.env false = .ok (.str s') ∧ s = "a\n".toList ∧ s' = "a\n\n> hello\n\n".toList :=
  ⟨Samples.parse deepJson, 3, _, _, ⟨true, deepJson, rfl⟩, fun _ => rfl, fun _ => rfl, rfl, rfl, rfl⟩

/-! ## examples -/

/-- A document in which a conversion is interrupted in the middle of a list. -/
def cutDoc : Node := Samples.doc [Samples.para [Samples.text "a"],
  Samples.bullets [Samples.item [Samples.para [Samples.text "b"]], Samples.item [Samples.para [Samples.text "c"]]],
  Samples.heading 1 [Samples.text "d"]]

example : cutDoc.cutMarkdownAt Samples.env .typeError (fun p => decide (p = [1, 1, 0])) none false = .error .typeError := rfl
example : cutDoc.cutMarkdownAt Samples.env .typeError (fun p => decide (p = [1, 1, 0])) none true = .ok (.str "a\n\n# d\n\n".toList) := rfl
example := C86_block_containers Samples.env .typeError (fun p => decide (p = [1, 1, 0])) rfl (Samples.doc []).hd
  [Samples.para [Samples.text "a"], Samples.bullets [Samples.item [Samples.para [Samples.text "b"]]]] (by decide) (Samples.hasTypes rfl)
example := C86_plain_containers Samples.env .typeError (fun p => decide (p = [1])) rfl (Samples.para []).hd
  [Samples.text "a", Samples.text "b"] (by decide)
example := C87_reported Samples.env .typeError 100 99 (by decide)

end Verif.Props
