import Verif.Spec.Prune
import Verif.Lemmas.Interrupt
/-!
# Lemmas: interrupted lenient conversions
-/

namespace Verif.Lemmas
open Verif Spec

theorem prunedList_refl (l : List Node) : PrunedList l l := by
  induction l with
  | nil => exact .nil
  | cons n l ih => exact .keep (.same n) ih

theorem prunedList_sublist {l' l : List Node} (h : l'.Sublist l) : PrunedList l' l := by
  induction h with
  | slnil => exact .nil
  | cons a _ ih => exact .drop a ih
  | cons_cons a _ ih => exact .keep (.same a) ih

theorem pruned_hd {n' n : Node} (h : Pruned n' n) : n'.hd = n.hd := by
  cases h <;> rfl

/-- Each call gives what it would, or fails. -/
def OrFails {α : Type} (x y : Except PyErr α) : Prop := y = x ∨ ∃ z, y = .error z

theorem Same.orFails {α : Type} {e : PyErr} {x y : Except PyErr α} (h : Same e x y) : OrFails x y :=
  h.elim .inl fun h => .inr ⟨e, h⟩

theorem collectPre_prune {α β γ : Type} {pre : α → Except PyErr γ} {f : γ → α → Except PyErr β} {L L' : List α}
    (h : List.Forall₂ (fun a a' => (∃ c, pre a = .ok c) ∧ pre a' = pre a ∧ ∀ c, OrFails (f c a) (f c a')) L L') :
    ∃ M, M.Sublist L ∧ collectPre true pre f L' = collectPre true pre f M := by
  induction h with
  | nil => exact ⟨[], .slnil, rfl⟩
  | @cons a a' L L' ha _ ih =>
    obtain ⟨M, hM, ih⟩ := ih
    obtain ⟨⟨c, hc⟩, hp, hf⟩ := ha
    rcases hf c with hf | ⟨z, hf⟩
    · refine ⟨a :: M, .cons_cons a hM, ?_⟩
      rw [collectPre, collectPre, hp, hc]
      dsimp only
      rw [hf, ih]
    · refine ⟨M, .cons a hM, ?_⟩
      rw [collectPre, hp, hc]
      dsimp only
      rw [hf, ← ih]
      rfl

theorem collect_prune {α β : Type} {f : α → Except PyErr β} {L L' : List α}
    (h : List.Forall₂ (fun a a' => OrFails (f a) (f a')) L L') :
    ∃ M, M.Sublist L ∧ collect true f L' = collect true f M :=
  collectPre_prune (h.imp fun _ _ h => ⟨⟨(), rfl⟩, rfl, fun _ => h⟩)

/-- A node that is seen by its parent as `k`. -/
theorem cutItem_isNode (env : Env) (e : PyErr) (cut : List Nat → Bool) (p : List Nat) (n : Node) :
    (n.cutItem env e cut p).isNode = true := by cases n; rw [Node.cutItem]

theorem node_isTypeOf (env : Env) (n : Node) (ts : List TypeEnum) : ∃ b, (n.item env).toKid.isTypeOf ts = .ok b := by
  unfold Kid.isTypeOf
  rw [item_isNode, if_pos rfl]
  exact ⟨_, rfl⟩

theorem cutList_same (env : Env) (e : PyErr) (cut : List Nat → Bool) (place : List Nat) (l : List Node) (i : Nat) :
    List.Forall₂ (fun a a' => ∃ n p, n ∈ l ∧ a = n.item env ∧ a' = n.cutItem env e cut p) (l.map (Node.item env))
      (cutList env e cut place i l) := by
  induction l generalizing i with
  | nil => rw [cutList]; exact .nil
  | cons n l ih =>
    rw [cutList, List.map_cons]
    exact .cons ⟨n, _, by simp, rfl, rfl⟩ ((ih (i + 1)).imp fun _ _ ⟨n, p, h, h'⟩ => ⟨n, p, by simp [h], h'⟩)

theorem content_prune (env : Env) (e : PyErr) (cut : List Nat → Bool) (place : List Nat) (sep : Str) (l : List Node) :
    ∃ l' : List Node, l'.Sublist l ∧ contentToMarkdown sep true (.val (cutList env e cut place 0 l)) =
      contentToMarkdown sep true (slotItems env (.val l')) := by
  obtain ⟨M, hM, h⟩ := collect_prune (f := fun k : Item => k.render none false) ((cutList_same env e cut place l 0).imp
    fun a a' ⟨n, p, _, h1, h2⟩ => by subst h1; subst h2; exact ((cut_same env e cut n p).kid.render none).orFails)
  obtain ⟨l', hl, rfl⟩ := List.sublist_map_iff.mp hM
  refine ⟨l', hl, ?_⟩
  rw [slotItems_val]
  unfold contentToMarkdown
  simp only [iterSlot]
  rw [h]

theorem docContent_prune (env : Env) (e : PyErr) (cut : List Nat → Bool) (place : List Nat) (l : List Node) :
    ∃ l' : List Node, l'.Sublist l ∧ docContentToMarkdown true (.val (cutList env e cut place 0 l)) =
      docContentToMarkdown true (slotItems env (.val l')) := by
  obtain ⟨M, hM, h⟩ := collect_prune (f := docBlock) ((cutList_same env e cut place l 0).imp
    fun a a' ⟨n, p, _, h1, h2⟩ => by subst h1; subst h2; exact (docBlock_same (cut_same env e cut n p)).orFails)
  obtain ⟨l', hl, rfl⟩ := List.sublist_map_iff.mp hM
  refine ⟨l', hl, ?_⟩
  rw [slotItems_val]
  unfold docContentToMarkdown
  simp only [iterSlot]
  rw [h]

theorem listItemContent_prune (env : Env) (e : PyErr) (cut : List Nat → Bool) (place : List Nat) (kind : TypeEnum) (level : Int) (n : Node) :
    ∃ n', Pruned n' n ∧ listItemContent kind level true (n.cutItem env e cut place) =
      listItemContent kind level true (n'.item env) := by
  obtain ⟨hd, c⟩ := n
  rw [Node.cutItem]
  unfold listItemContent
  cases c with
  | absent => exact ⟨_, .same _, rfl⟩
  | opt => exact ⟨_, .same _, rfl⟩
  | raw v => exact ⟨_, .same _, rfl⟩
  | val l =>
    have hf : List.Forall₂ (fun (a a' : Kid) => (∃ c, a.isTypeOf [kind] = .ok c) ∧ a'.isTypeOf [kind] = a.isTypeOf [kind] ∧
        ∀ c, OrFails (listItemChild level c a) (listItemChild level c a')) ((l.map (Node.item env)).map Item.toKid)
        ((cutList env e cut place 0 l).map Item.toKid) := by
      rw [List.forall₂_map_left_iff, List.forall₂_map_right_iff]
      refine (cutList_same env e cut place l 0).imp fun a a' ⟨n, p, _, h1, h2⟩ => ?_
      subst h1; subst h2
      have := cut_same env e cut n p
      exact ⟨node_isTypeOf env n _, isTypeOf_same this.kid _, fun c => (listItemChild_same level c this.kid).orFails⟩
    obtain ⟨M, hM, h⟩ := collectPre_prune hf
    rw [List.map_map] at hM
    obtain ⟨l', hl, rfl⟩ := List.sublist_map_iff.mp hM
    refine ⟨.mk hd (.val l'), .node hd (prunedList_sublist hl), ?_⟩
    rw [cutSlot, item_content, Node.content, slotItems_val]
    dsimp only [kidsOf, iterSlot]
    rw [h, List.map_map]

theorem taskItemLine_prune (env : Env) (e : PyErr) (cut : List Nat → Bool) (place : List Nat) (level : Int) (n : Node) :
    ∃ n', Pruned n' n ∧ taskItemLine level true (n.cutItem env e cut place) = taskItemLine level true (n'.item env) := by
  obtain ⟨hd, c⟩ := n
  rw [Node.cutItem]
  unfold taskItemLine
  cases c with
  | absent => exact ⟨_, .same _, rfl⟩
  | opt => exact ⟨_, .same _, rfl⟩
  | raw v => exact ⟨_, .same _, rfl⟩
  | val l =>
    have hf : List.Forall₂ (fun (a a' : Kid) => OrFails (a.render none false) (a'.render none false))
        ((l.map (Node.item env)).map Item.toKid) ((cutList env e cut place 0 l).map Item.toKid) := by
      rw [List.forall₂_map_left_iff, List.forall₂_map_right_iff]
      refine (cutList_same env e cut place l 0).imp fun a a' ⟨n, p, _, h1, h2⟩ => ?_
      subst h1; subst h2
      exact ((cut_same env e cut n p).kid.render none).orFails
    obtain ⟨M, hM, h⟩ := collect_prune (f := fun k : Kid => k.render none false) hf
    rw [List.map_map] at hM
    obtain ⟨l', hl, rfl⟩ := List.sublist_map_iff.mp hM
    refine ⟨.mk hd (.val l'), .node hd (prunedList_sublist hl), ?_⟩
    rw [cutSlot, item_content, Node.content, slotItems_val, item_attrs]
    dsimp only [kidsOf, iterSlot, Node.hd]
    rw [h, List.map_map]

theorem pruned_isTypeOf {env : Env} {e : PyErr} {cut : List Nat → Bool} {p : List Nat} {n' n : Node} (h : Pruned n' n) (ts : List TypeEnum) :
    (n'.item env).toKid.isTypeOf ts = (n.cutItem env e cut p).toKid.isTypeOf ts := by
  rw [isTypeOf_same (cut_same env e cut n p).kid]
  unfold Kid.isTypeOf
  rw [item_isNode, item_isNode, item_type, item_type, pruned_hd h]

theorem bullet_prune (env : Env) (e : PyErr) (cut : List Nat → Bool) (place : List Nat) (level : Int) (l : List Node) (i : Nat) :
    ∃ l', PrunedList l' l ∧ bulletLines level true (cutList env e cut place i l) = bulletLines level true (l'.map (Node.item env)) := by
  induction l generalizing i with
  | nil => exact ⟨[], .nil, by rw [cutList]; rfl⟩
  | cons n l ih =>
    obtain ⟨l', hl, ih⟩ := ih (i + 1)
    obtain ⟨n', hn, h⟩ := listItemContent_prune env e cut (place ++ [i]) .bulletList level n
    refine ⟨n' :: l', .keep hn hl, ?_⟩
    rw [cutList, List.map_cons, bulletLines, bulletLines, ← pruned_isTypeOf hn, h, ih]

theorem ordered_prune (env : Env) (e : PyErr) (cut : List Nat → Bool) (place : List Nat) (level : Int) (l : List Node) (i : Nat) :
    ∃ l', PrunedList l' l ∧ ∀ num, orderedLines env level true num (cutList env e cut place i l) =
      orderedLines env level true num (l'.map (Node.item env)) := by
  induction l generalizing i with
  | nil => exact ⟨[], .nil, fun _ => by rw [cutList]; rfl⟩
  | cons n l ih =>
    obtain ⟨l', hl, ih⟩ := ih (i + 1)
    obtain ⟨n', hn, h⟩ := listItemContent_prune env e cut (place ++ [i]) .orderedList level n
    refine ⟨n' :: l', .keep hn hl, fun num => ?_⟩
    rw [cutList, List.map_cons, orderedLines, orderedLines, ← pruned_isTypeOf hn, h, ih, ih]

theorem table_prune (env : Env) (e : PyErr) (cut : List Nat → Bool) (place : List Nat) (l : List Node) (i : Nat) :
    ∃ l', PrunedList l' l ∧ tableLines true (cutList env e cut place i l) = tableLines true (l'.map (Node.item env)) := by
  induction l generalizing i with
  | nil => exact ⟨[], .nil, by rw [cutList]; rfl⟩
  | cons n l ih =>
    obtain ⟨l', hl, ih⟩ := ih (i + 1)
    have hs := cut_same env e cut n (place ++ [i])
    rw [cutList]
    rcases hs.kid.render none with h | h
    · refine ⟨n :: l', .keep (.same n) hl, ?_⟩
      rw [List.map_cons, tableLines, tableLines, h, ih, headerWidth_same hs.content]
    · refine ⟨l', .drop n hl, ?_⟩
      rw [tableLines, h, ← ih]
      rfl

/-- What is proved of every node by induction. -/
def Prunes (env : Env) (e : PyErr) (cut : List Nat → Bool) (n : Node) : Prop :=
  ∀ place level, ∃ n', Pruned n' n ∧ Same e (n'.toMarkdownAt env level true) ((n.cutItem env e cut place).render level true)

theorem cells_prune (env : Env) (e : PyErr) (cut : List Nat → Bool) (place : List Nat) (l : List Node) (hl : ∀ n ∈ l, Prunes env e cut n) (i : Nat) :
    ∃ l', PrunedList l' l ∧ Same e (rowCells true (l'.map (Node.item env))) (rowCells true (cutList env e cut place i l)) := by
  induction l generalizing i with
  | nil => exact ⟨[], .nil, by rw [cutList]; exact .refl _ _⟩
  | cons n l ih =>
    obtain ⟨l', hp, ih⟩ := ih (fun n hn => hl n (by simp [hn])) (i + 1)
    obtain ⟨n', hn, h⟩ := hl n (by simp) (place ++ [i]) none
    refine ⟨n' :: l', .keep hn hp, ?_⟩
    rw [cutList, List.map_cons, rowCells, rowCells, item_render]
    step h
    cases n'.toMarkdownAt env none true with
    | error x => exact .refl _ _
    | ok v =>
      dsimp only
      step ih
      exact .refl _ _

theorem decisions_prune (env : Env) (e : PyErr) (cut : List Nat → Bool) (place : List Nat) (l : List Node) (hl : ∀ n ∈ l, Prunes env e cut n) (i : Nat) :
    ∃ l', PrunedList l' l ∧ decisionBlocks true (cutList env e cut place i l) = decisionBlocks true (l'.map (Node.item env)) := by
  induction l generalizing i with
  | nil => exact ⟨[], .nil, by rw [cutList]; rfl⟩
  | cons n l ih =>
    obtain ⟨l', hp, ih⟩ := ih (fun n hn => hl n (by simp [hn])) (i + 1)
    obtain ⟨n', hn, h⟩ := hl n (by simp) (place ++ [i]) none
    rw [cutList]
    have ht := pruned_isTypeOf (env := env) (e := e) (cut := cut) (p := place ++ [i]) (Pruned.same n) [.decisionItem]
    have ht' := pruned_isTypeOf (env := env) (e := e) (cut := cut) (p := place ++ [i]) hn [.decisionItem]
    obtain ⟨b, hb⟩ := node_isTypeOf env n [.decisionItem]
    rw [hb] at ht
    rw [← ht] at ht'
    cases b with
    | false =>
      refine ⟨l', .drop n hp, ?_⟩
      rw [decisionBlocks, ← ht]
      exact ih
    | true =>
      rcases h with h | h
      · refine ⟨n' :: l', .keep hn hp, ?_⟩
        rw [List.map_cons, decisionBlocks, decisionBlocks, ← ht, ht', h, ih, item_render]
      · refine ⟨l', .drop n hp, ?_⟩
        rw [decisionBlocks, ← ht, h]
        exact ih

theorem tasks_prune (env : Env) (e : PyErr) (cut : List Nat → Bool) (place : List Nat) (level : Int) (l : List Node)
    (hl : ∀ n ∈ l, Prunes env e cut n) (i : Nat) :
    ∃ l', PrunedList l' l ∧ taskLines level true (cutList env e cut place i l) = taskLines level true (l'.map (Node.item env)) := by
  induction l generalizing i with
  | nil => exact ⟨[], .nil, by rw [cutList]; rfl⟩
  | cons n l ih =>
    obtain ⟨l', hp, ih⟩ := ih (fun n hn => hl n (by simp [hn])) (i + 1)
    rw [cutList]
    have ht : ∀ {n' : Node}, Pruned n' n → ∀ ts, (n'.item env).toKid.isTypeOf ts = (n.cutItem env e cut (place ++ [i])).toKid.isTypeOf ts :=
      fun h ts => pruned_isTypeOf h ts
    obtain ⟨b, hb⟩ := node_isTypeOf env n [.taskItem]
    rw [ht (.same n)] at hb
    cases b with
    | true =>
      obtain ⟨n', hn, h⟩ := taskItemLine_prune env e cut (place ++ [i]) level n
      refine ⟨n' :: l', .keep hn hp, ?_⟩
      rw [List.map_cons, taskLines, taskLines, ht hn, hb, h, ih]
    | false =>
      obtain ⟨b', hb'⟩ := node_isTypeOf env n [.taskList]
      rw [ht (.same n)] at hb'
      cases b' with
      | false =>
        refine ⟨l', .drop n hp, ?_⟩
        rw [taskLines, hb, hb']
        exact ih
      | true =>
        obtain ⟨n', hn, h⟩ := hl n (by simp) (place ++ [i]) (some (level + 1))
        rcases h with h | h
        · refine ⟨n' :: l', .keep hn hp, ?_⟩
          rw [List.map_cons, taskLines, taskLines, ht hn, ht hn, hb, hb', h, ih, item_render]
        · refine ⟨l', .drop n hp, ?_⟩
          rw [taskLines, hb, hb']
          dsimp only
          rw [h]
          exact ih

theorem prunes (env : Env) (e : PyErr) (cut : List Nat → Bool) (n : Node) : Prunes env e cut n := by
  induction n using Node.induction with
  | h hd s ih =>
    intro place level
    rw [Node.cutItem]
    dsimp only
    by_cases hc : cut place
    · exact ⟨_, .same _, .inr (if_pos hc)⟩
    rw [if_neg hc]
    cases s with
    | absent => exact ⟨_, .same _, .inl rfl⟩
    | opt => exact ⟨_, .same _, .inl rfl⟩
    | raw v => exact ⟨_, .same _, .inl rfl⟩
    | val l =>
      have ih : ∀ n ∈ l, Prunes env e cut n := fun n hn => ih l n rfl hn
      rw [cutSlot]
      have mk : ∀ l', PrunedList l' l → Same e (dispatch env hd (slotItems env (.val l')) level true)
          (dispatch env hd (.val (cutList env e cut place 0 l)) level true) →
          ∃ n', Pruned n' (.mk hd (.val l)) ∧ Same e (n'.toMarkdownAt env level true)
            (dispatch env hd (.val (cutList env e cut place 0 l)) level true) :=
        fun l' h h' => ⟨.mk hd (.val l'), .node hd h, by rw [toMarkdownAt_eq]; exact h'⟩
      obtain ⟨lc, hlc, hc1⟩ := content_prune env e cut place [] l
      obtain ⟨ld, hld, hd1⟩ := docContent_prune env e cut place l
      obtain ⟨lb, hlb, hb1⟩ := bullet_prune env e cut place (level.getD 0) l 0
      obtain ⟨lo, hlo, ho1⟩ := ordered_prune env e cut place (level.getD 0) l 0
      obtain ⟨lt, hlt, ht1⟩ := table_prune env e cut place l 0
      obtain ⟨lr, hlr, hr1⟩ := cells_prune env e cut place l ih 0
      obtain ⟨lx, hlx, hx1⟩ := decisions_prune env e cut place l ih 0
      obtain ⟨lk, hlk, hk1⟩ := tasks_prune env e cut place (level.getD 0) l ih 0
      by_cases hlev : (level.isSome && !hd.cls.takesLevel) = true
      · refine ⟨_, .same _, .inl ?_⟩
        rw [toMarkdownAt_eq]
        unfold dispatch
        rw [if_pos hlev]
        exact (if_pos hlev).symm
      have go : ∀ l', PrunedList l' l → (¬ (level.isSome && !hd.cls.takesLevel) = true → Same e
          (dispatch env hd (slotItems env (.val l')) level true) (dispatch env hd (.val (cutList env e cut place 0 l)) level true)) →
          ∃ n', Pruned n' (.mk hd (.val l)) ∧ Same e (n'.toMarkdownAt env level true)
            (dispatch env hd (.val (cutList env e cut place 0 l)) level true) := fun l' h h' => mk l' h (h' hlev)
      have all := prunedList_refl l
      unfold dispatch at go ⊢
      simp only [if_neg hlev] at go ⊢
      cases hcls : hd.cls <;> simp only [hcls] at go ⊢ <;>
        first
        | exact go l all fun _ => .inl rfl
        | (refine go lc (prunedList_sublist hlc) fun _ => .inl ?_; simp only [paragraphMd, headingMd, codeBlockMd, cellMd, decisionItemMd, hc1])
        | (refine go ld (prunedList_sublist hld) fun _ => .inl ?_; simp only [panelMd, blockquoteMd, expandMd, hd1])
        | (refine go lb hlb fun _ => .inl ?_; simp only [bulletListMd, slotItems_val, iterSlot, hb1]; done)
        | (refine go lo hlo fun _ => .inl ?_; simp only [orderedListMd, slotItems_val, iterSlot, ho1]; done)
        | (refine go lk hlk fun _ => .inl ?_; simp only [taskListMd, slotItems_val, iterSlot, hk1]; done)
        | (refine go lx hlx fun _ => .inl ?_; simp only [decisionListMd, slotItems_val, iterSlot, hx1]; done)
        | (refine go lt hlt fun _ => .inl ?_; simp only [tableMd, slotItems_val, iterSlot, ht1]; done)
        | skip
      · refine go lr hlr fun _ => ?_
        simp only [tableRowMd, slotItems_val, iterSlot]
        step hr1
        exact .refl _ _

end Verif.Lemmas
