import Verif.Spec.Failure
import Verif.Props.Containers
import Verif.Props.Dates
import Verif.Props.Quote
import Verif.Lemmas.Blocks
import Verif.Lemmas.Attrs
import Verif.Lemmas.Lists
/-!
# When strict conversion gives a string
-/

namespace Verif
open Spec Props

theorem gives_at (env : Env) (l : Option Int) (n : Node) :
    Gives env l n ↔ ∃ s, dispatch env n.hd (slotItems env n.content) l false = .ok (.str s) := by
  unfold Gives; rw [toMarkdownAt_eq]

theorem strVal_gives (x : Except PyErr Str) : (∃ s, strVal x = .ok (.str s)) ↔ ∃ s, x = .ok s := by
  cases x with
  | error e => simp [strVal]
  | ok s => simp [strVal]

/-! ## loops -/

theorem collect_ok {α β : Type} (f : α → Except PyErr β) (l : List α) :
    (∃ bs, collect false f l = .ok bs) ↔ ∀ a ∈ l, ∃ b, f a = .ok b := by
  constructor
  · rintro ⟨bs, h⟩ a ha
    rw [collect_false] at h
    induction h with
    | nil => cases ha
    | cons h1 _ ih =>
      rcases List.mem_cons.mp ha with rfl | ha
      · exact ⟨_, h1⟩
      · exact ih ha
  · intro h
    induction l with
    | nil => exact ⟨[], rfl⟩
    | cons a l ih =>
      obtain ⟨b, hb⟩ := h a (by simp)
      obtain ⟨bs, hbs⟩ := ih (fun a ha => h a (by simp [ha]))
      exact ⟨b :: bs, by rw [collect_cons, hb, hbs]⟩

theorem strJoin_gives (sep : Str) (vs : List Val) :
    (∃ s, strJoin sep vs = .ok s) ↔ ∀ v ∈ vs, ∃ s, v = .str s := by
  constructor
  · rintro ⟨s, h⟩ v hv
    obtain ⟨ss, rfl, _⟩ := strJoin_ok h
    obtain ⟨t, _, rfl⟩ := List.mem_map.mp hv
    exact ⟨t, rfl⟩
  · intro h
    have : ∃ ss : List Str, vs = ss.map .str := by
      induction vs with
      | nil => exact ⟨[], rfl⟩
      | cons v vs ih =>
        obtain ⟨s, rfl⟩ := h v (by simp)
        obtain ⟨ss, rfl⟩ := ih (fun v hv => h v (by simp [hv]))
        exact ⟨s :: ss, rfl⟩
    obtain ⟨ss, rfl⟩ := this
    exact ⟨_, strJoin_str sep ss⟩

theorem collect_mem {α β : Type} {f : α → Except PyErr β} {l : List α} {bs : List β}
    (h : collect false f l = .ok bs) (b : β) : b ∈ bs ↔ ∃ a ∈ l, f a = .ok b := by
  rw [collect_false] at h
  induction h with
  | nil => simp
  | @cons a c l bs h1 _ ih =>
    rw [List.mem_cons, ih]
    constructor
    · rintro (rfl | ⟨a', ha', hf⟩)
      · exact ⟨a, by simp, h1⟩
      · exact ⟨a', by simp [ha'], hf⟩
    · rintro ⟨a', ha', hf⟩
      rcases List.mem_cons.mp ha' with rfl | ha'
      · left; rw [h1] at hf; exact (Except.ok.inj hf).symm
      · exact .inr ⟨a', ha', hf⟩

/-- The loop followed by a join. -/
theorem joined_ok {α : Type} (f : α → Except PyErr Val) (l : List α) (sep : Str) :
    (∃ s : Str, (match collect false f l with
      | .error e => Except.error e
      | .ok vs => strJoin sep vs) = .ok s) ↔ ∀ a ∈ l, ∃ s, f a = .ok (.str s) := by
  constructor
  · rintro ⟨s, h⟩ a ha
    cases hc : collect false f l with
    | error e => rw [hc] at h; cases h
    | ok vs =>
      rw [hc] at h
      obtain ⟨b, hb⟩ := (collect_ok f l).mp ⟨vs, hc⟩ a ha
      obtain ⟨t, rfl⟩ := (strJoin_gives sep vs).mp ⟨s, h⟩ b ((collect_mem hc b).mpr ⟨a, ha, hb⟩)
      exact ⟨t, hb⟩
  · intro h
    obtain ⟨vs, hc⟩ := (collect_ok f l).mpr (fun a ha => by obtain ⟨s, hs⟩ := h a ha; exact ⟨_, hs⟩)
    rw [hc]
    refine (strJoin_gives sep vs).mpr ?_
    intro v hv
    obtain ⟨a, ha, hf⟩ := (collect_mem hc v).mp hv
    obtain ⟨s, hs⟩ := h a ha
    exact ⟨s, Except.ok.inj (hf.symm.trans hs)⟩

/-! ## iterating over content -/

/-- The slot as a list of something made of the nodes. -/
def mapSlot {α : Type} (f : Node → α) : Slot (List Node) → Slot (List α)
  | .absent => .absent
  | .opt => .opt
  | .raw v => .raw v
  | .val l => .val (l.map f)

theorem slotItems_map (env : Env) (c : Slot (List Node)) : slotItems env c = mapSlot (Node.item env) c := by
  cases c <;> simp [mapSlot]

theorem kids_map (env : Env) (c : Slot (List Node)) :
    kidsOf (slotItems env c) = mapSlot (fun n => (Node.item env n).toKid) c := by
  cases c <;> simp [mapSlot, kidsOf]

/-- A loop over the content that fails on anything but nodes. -/
theorem iter_ok {α : Type} (alien : α) (f : Node → α) (P : List α → Prop) (n : Node)
    (h0 : P []) (h1 : ∀ k, ¬ P (alien :: k)) :
    (∃ items, iterSlot alien (mapSlot f n.content) = .ok items ∧ P items) ↔
      Iterates n ∧ ∀ kids, n.content = .val kids → P (kids.map f) := by
  unfold Iterates
  cases hc : n.content with
  | val l => simp [mapSlot, iterSlot]
  | absent => simp [mapSlot, iterSlot]
  | opt => simp [mapSlot, iterSlot]
  | raw v =>
    simp only [mapSlot, iterSlot]
    cases hl : v.iterLen with
    | error e =>
      refine iff_of_false (by simp) ?_
      rintro ⟨h | h | h | h, _⟩
      · obtain ⟨_, h⟩ := h; cases h
      · cases h; simp [Val.iterLen] at hl
      · cases h; simp [Val.iterLen] at hl
      · cases h; simp [Val.iterLen] at hl
    | ok k =>
      cases k with
      | zero =>
        refine iff_of_true ⟨[], rfl, h0⟩ ⟨?_, by intro kids h; cases h⟩
        right
        cases v <;> simp [Val.iterLen] at hl <;> simp [hl]
      | succ k =>
        refine iff_of_false ?_ ?_
        · rintro ⟨items, h, hp⟩
          cases h
          exact h1 _ hp
        rintro ⟨h | h | h | h, _⟩
        · obtain ⟨_, h⟩ := h; cases h
        · cases h; simp [Val.iterLen] at hl
        · cases h; simp [Val.iterLen] at hl
        · cases h; simp [Val.iterLen] at hl

/-- A loop over the content. -/
theorem loop_gives {α β : Type} {x : Except PyErr (List α)} {G : List α → Except PyErr β} :
    (∃ s, x.bind G = .ok s) ↔ ∃ items, x = .ok items ∧ ∃ s, G items = .ok s := by
  cases x with
  | error e => simp [Except.bind]
  | ok l => simp [Except.bind]

theorem content_gives (env : Env) (sep : Str) (n : Node) :
    (∃ s, contentToMarkdown sep false (slotItems env n.content) = .ok s) ↔
      ¬ BadContent n ∧ ∀ c, IsChild c n → Gives env none c := by
  unfold BadContent
  by_cases ho : n.content = .opt
  · simp [contentToMarkdown, IsChild, ho]
  · have e : contentToMarkdown sep false (slotItems env n.content) =
        (iterSlot alienItem (mapSlot (Node.item env) n.content)).bind fun items =>
          match collect false (fun (k : Item) => k.render none false) items with
          | .error e => .error e
          | .ok lst => strJoin sep lst := by
      rw [slotItems_map]
      unfold contentToMarkdown
      cases hc : n.content with
      | opt => exact absurd hc ho
      | _ => simp only [mapSlot]; cases iterSlot alienItem _ <;> rfl
    rw [e, loop_gives]
    simp only [joined_ok]
    rw [iter_ok alienItem _ (fun items => ∀ a ∈ items, ∃ s, a.render none false = .ok (.str s)) n (by simp)
      (by intro k h; simpa [alienItem, alienKid] using h alienItem (by simp))]
    simp only [ne_eq, ho, not_false_eq_true, true_and, not_not]
    refine and_congr_right fun _ => ?_
    constructor
    · rintro h c ⟨kids, hk, hc⟩
      exact h kids hk _ (List.mem_map.mpr ⟨c, hc, rfl⟩)
    · intro h kids hk a ha
      obtain ⟨c, hc, rfl⟩ := List.mem_map.mp ha
      exact h c ⟨kids, hk, hc⟩

theorem docBlock_gives (env : Env) {n : Node} (h : HasType n) :
    (∃ s, docBlock (n.item env) = .ok (.str s)) ↔ Gives env none n := by
  constructor
  · rintro ⟨s, hs⟩
    have : docBlockOf env n = .ok (.str s) := hs
    obtain ⟨t, ht, _⟩ := (docBlockOf_ok env h s).mp this
    exact ⟨t, ht⟩
  · rintro ⟨s, hs⟩
    exact ⟨padded n s, (docBlockOf_ok env h _).mpr ⟨s, hs, rfl⟩⟩

theorem docContent_gives (env : Env) (n : Node) (hk : ∀ c, IsChild c n → HasType c) :
    (∃ s, docContentToMarkdown false (slotItems env n.content) = .ok s) ↔
      ¬ BadContent n ∧ ∀ c, IsChild c n → Gives env none c := by
  unfold BadContent
  by_cases ho : n.content = .opt
  · simp [docContentToMarkdown, IsChild, ho]
  · have e : docContentToMarkdown false (slotItems env n.content) =
        (iterSlot alienItem (mapSlot (Node.item env) n.content)).bind fun items =>
          (match collect false docBlock items with
          | .error e => Except.error e
          | .ok lst => strJoin [Str.nl] lst).map (stripDoubleEmptyLine 3) := by
      rw [slotItems_map]
      unfold docContentToMarkdown
      cases hc : n.content with
      | opt => exact absurd hc ho
      | _ =>
        simp only [mapSlot]
        cases iterSlot alienItem _ with
        | error e => rfl
        | ok items =>
          simp only [Except.bind]
          cases collect false docBlock items with
          | error e => rfl
          | ok lst => dsimp only; cases strJoin [Str.nl] lst <;> rfl
    have em : ∀ x : Except PyErr Str, (∃ s, x.map (stripDoubleEmptyLine 3) = .ok s) ↔ ∃ s, x = .ok s := by
      intro x; cases x <;> simp [Except.map]
    rw [e, loop_gives]
    simp only [em, joined_ok]
    rw [iter_ok alienItem _ (fun items => ∀ a ∈ items, ∃ s, docBlock a = .ok (.str s)) n (by simp)
      (by intro k h; simpa [alienItem, alienKid, docBlock, Kid.isTypeOf] using h alienItem (by simp))]
    simp only [ne_eq, ho, not_false_eq_true, true_and, not_not]
    refine and_congr_right fun _ => ?_
    constructor
    · rintro h c ⟨kids, hk', hc⟩
      exact (docBlock_gives env (hk c ⟨kids, hk', hc⟩)).mp (h kids hk' _ (List.mem_map.mpr ⟨c, hc, rfl⟩))
    · intro h kids hk' a ha
      obtain ⟨c, hc, rfl⟩ := List.mem_map.mp ha
      exact (docBlock_gives env (hk c ⟨kids, hk', hc⟩)).mpr (h c ⟨kids, hk', hc⟩)

/-! ## lists -/

/-- The body of `listItemContent`. -/
def itemParts (kind : TypeEnum) (level : Int) (kids : List Kid) : Except PyErr Str :=
  match collectPre false (fun (k : Kid) => k.isTypeOf [kind]) (listItemChild level) kids with
  | .error e => .error e
  | .ok lst => strJoin [Str.nl] lst

theorem itemParts_gives (env : Env) (kind : NodeCls) (level : Int) (kids : List Node)
    (hk : ∀ c ∈ kids, HasType c) :
    (∃ s, itemParts kind.typeEnum level (kids.map fun n => (Node.item env n).toKid) = .ok s) ↔
      ∀ c ∈ kids, Gives env (if c.cls = kind then some (level + 1) else none) c := by
  unfold itemParts
  rw [collectPre_eq false _ (fun k => isTypeOf k.type [kind.typeEnum]), joined_ok]
  · simp only [List.forall_mem_map]
    refine forall₂_congr fun c hm => ?_
    have ht := hk c hm
    have hb : isTypeOf (Node.item env c).type [kind.typeEnum] = decide (c.cls = kind) := by
      rw [item_type, Bool.eq_iff_iff, isTypeOf_iff ht, decide_eq_true_iff, typeEnum_mem]
    rw [hb]
    unfold listItemChild
    by_cases hs : c.cls = kind
    · simp [hs, Gives, Node.toMarkdownAt]
    · simp only [hs, decide_false, Bool.false_eq_true, if_false]
      unfold Gives Node.toMarkdownAt
      cases (Node.item env c).render none false with
      | error e => simp
      | ok v => cases v <;> simp [rstripVal]
  · intro a ha
    obtain ⟨c, _, rfl⟩ := List.mem_map.mp ha
    simp [Kid.isTypeOf, item_isNode]

theorem listItemContent_gives (env : Env) (kind : NodeCls) (level : Int) (i : Node)
    (hk : ∀ c, IsChild c i → HasType c) :
    (∃ t, listItemContent kind.typeEnum level false (i.item env) = .ok t) ↔
      Iterates i ∧ ∀ c, IsChild c i → Gives env (if c.cls = kind then some (level + 1) else none) c := by
  have e : listItemContent kind.typeEnum level false (i.item env) =
      (iterSlot alienKid (mapSlot (fun n => (Node.item env n).toKid) i.content)).bind
        (itemParts kind.typeEnum level) := by
    unfold listItemContent
    rw [item_content, kids_map]
    cases iterSlot alienKid _ <;> rfl
  rw [e, loop_gives]
  rw [iter_ok alienKid _ (fun kids => ∃ s, itemParts kind.typeEnum level kids = .ok s) i ⟨[], rfl⟩
    (by rintro k ⟨s, h⟩; simp [itemParts, collectPre, alienKid, Kid.isTypeOf] at h)]
  refine and_congr_right fun _ => ?_
  constructor
  · rintro h c ⟨kids, hc, hm⟩
    exact (itemParts_gives env kind level kids fun c hm => hk c ⟨kids, hc, hm⟩).mp (h kids hc) c hm
  · intro h kids hc
    exact (itemParts_gives env kind level kids fun c hm => hk c ⟨kids, hc, hm⟩).mpr
      fun c hm => h c ⟨kids, hc, hm⟩

theorem item_isType (env : Env) {n : Node} (h : HasType n) (k : NodeCls) :
    (n.item env).isTypeOf [k.typeEnum] = .ok (decide (n.cls = k)) := by
  unfold Kid.isTypeOf
  rw [item_isNode, if_pos rfl, item_type]
  congr 1
  rw [Bool.eq_iff_iff, isTypeOf_iff h, decide_eq_true_iff, typeEnum_mem]

theorem bulletLines_gives (env : Env) (level : Int) (kids : List Node) (hk : ∀ k ∈ kids, HasType k) :
    (∃ ls, bulletLines level false (kids.map (Node.item env)) = .ok ls) ↔
      ∀ i ∈ kids, i.cls = .listItem → ∃ t, listItemContent .bulletList level false (i.item env) = .ok t := by
  induction kids with
  | nil => simp [bulletLines]
  | cons i kids ih =>
    have ih := ih fun k hm => hk k (by simp [hm])
    rw [List.map_cons, bulletLines, show TypeEnum.listItem = NodeCls.listItem.typeEnum from rfl,
      item_isType env (hk i (by simp)), List.forall_mem_cons, ← ih]
    by_cases hl : i.cls = .listItem
    · simp only [hl, decide_true, true_imp_iff]
      cases listItemContent .bulletList level false (i.item env) with
      | error e => simp
      | ok t => cases bulletLines level false (kids.map (Node.item env)) <;> simp
    · simp [hl]

theorem orderedLines_gives (env : Env) (level : Int) (num : Val) (kids : List Node)
    (hk : ∀ k ∈ kids, HasType k) :
    (∃ ls, orderedLines env level false num (kids.map (Node.item env)) = .ok ls) ↔
      ∀ i ∈ kids, i.cls = .listItem → ∃ t, listItemContent .orderedList level false (i.item env) = .ok t := by
  induction kids generalizing num with
  | nil => simp [orderedLines]
  | cons i kids ih =>
    have ih := fun num => ih num fun k hm => hk k (by simp [hm])
    rw [List.map_cons, orderedLines, show TypeEnum.listItem = NodeCls.listItem.typeEnum from rfl,
      item_isType env (hk i (by simp)), List.forall_mem_cons]
    by_cases hl : i.cls = .listItem
    · rw [← ih (nextNum num)]
      simp only [hl, decide_true, true_imp_iff]
      cases listItemContent .orderedList level false (i.item env) with
      | error e => simp
      | ok t => cases orderedLines env level false (nextNum num) (kids.map (Node.item env)) <;> simp
    · rw [← ih num]; simp [hl]

/-- Both kinds of lists. -/
theorem list_loop (env : Env) (kind : NodeCls) (level : Int) (n : Node)
    (hk : ∀ i, IsChild i n → HasType i) (hkk : ∀ i, IsChild i n → ∀ c, IsChild c i → HasType c)
    (P : List Item → Prop) (h0 : P []) (h1 : ∀ k, ¬ P (alienItem :: k))
    (hP : ∀ kids : List Node, (∀ k ∈ kids, HasType k) → (P (kids.map (Node.item env)) ↔
      ∀ i ∈ kids, i.cls = .listItem → ∃ t, listItemContent kind.typeEnum level false (i.item env) = .ok t)) :
    (∃ items, iterSlot alienItem (slotItems env n.content) = .ok items ∧ P items) ↔
      (Iterates n ∧ ∀ i, IsChild i n → i.cls = .listItem → Iterates i) ∧
      ∀ i, IsChild i n → i.cls = .listItem → ∀ c, IsChild c i →
        Gives env (if c.cls = kind then some (level + 1) else none) c := by
  rw [slotItems_map, iter_ok alienItem _ P n h0 h1, and_assoc]
  refine and_congr_right fun _ => ?_
  constructor
  · intro h
    have : ∀ i, IsChild i n → i.cls = .listItem →
        ∃ t, listItemContent kind.typeEnum level false (i.item env) = .ok t := by
      rintro i ⟨kids, hc, hm⟩ hl
      exact (hP kids fun k hkm => hk k ⟨kids, hc, hkm⟩).mp (h kids hc) i hm hl
    exact ⟨fun i hi hl => ((listItemContent_gives env kind level i (hkk i hi)).mp (this i hi hl)).1,
      fun i hi hl => ((listItemContent_gives env kind level i (hkk i hi)).mp (this i hi hl)).2⟩
  · rintro ⟨h2, h3⟩ kids hc
    refine (hP kids fun k hkm => hk k ⟨kids, hc, hkm⟩).mpr fun i hm hl => ?_
    have hi : IsChild i n := ⟨kids, hc, hm⟩
    exact (listItemContent_gives env kind level i (hkk i hi)).mpr ⟨h2 i hi hl, h3 i hi hl⟩

theorem bulletList_gives (env : Env) (level : Int) (n : Node)
    (hk : ∀ i, IsChild i n → HasType i) (hkk : ∀ i, IsChild i n → ∀ c, IsChild c i → HasType c) :
    (∃ s, bulletListMd (slotItems env n.content) level false = .ok s) ↔
      (Iterates n ∧ ∀ i, IsChild i n → i.cls = .listItem → Iterates i) ∧
      ∀ i, IsChild i n → i.cls = .listItem → ∀ c, IsChild c i →
        Gives env (if c.cls = .bulletList then some (level + 1) else none) c := by
  rw [← list_loop env .bulletList level n hk hkk (fun items => ∃ ls, bulletLines level false items = .ok ls)
    ⟨[], rfl⟩ (by rintro k ⟨s, h⟩; simp [bulletLines, alienItem, alienKid, Kid.isTypeOf] at h)
    (fun kids h => bulletLines_gives env level kids h)]
  unfold bulletListMd
  cases iterSlot alienItem (slotItems env n.content) with
  | error e => simp
  | ok items => simp only [Except.ok.injEq, exists_eq_left']; cases bulletLines level false items <;> simp

theorem orderedList_gives (env : Env) (a : Slot AttrsObj) (level : Int) (n : Node)
    (hk : ∀ i, IsChild i n → HasType i) (hkk : ∀ i, IsChild i n → ∀ c, IsChild c i → HasType c) :
    (∃ s, orderedListMd env a (slotItems env n.content) level false = .ok s) ↔
      (∃ v, orderedStart a level = .ok v) ∧
      (Iterates n ∧ ∀ i, IsChild i n → i.cls = .listItem → Iterates i) ∧
      ∀ i, IsChild i n → i.cls = .listItem → ∀ c, IsChild c i →
        Gives env (if c.cls = .orderedList then some (level + 1) else none) c := by
  unfold orderedListMd
  cases orderedStart a level with
  | error e => simp
  | ok v =>
    simp only [Except.ok.injEq, exists_eq', true_and]
    rw [← list_loop env .orderedList level n hk hkk
      (fun items => ∃ ls, orderedLines env level false v items = .ok ls)
      ⟨[], rfl⟩ (by rintro k ⟨s, h⟩; simp [orderedLines, alienItem, alienKid, Kid.isTypeOf] at h)
      (fun kids h => orderedLines_gives env level v kids h)]
    cases iterSlot alienItem (slotItems env n.content) with
    | error e => simp
    | ok items =>
      simp only [Except.ok.injEq, exists_eq_left']; cases orderedLines env level false v items <;> simp

/-! ## task lists -/

theorem taskItemLine_gives (env : Env) (level : Int) (i : Node) (ha : ∃ v, attr i "state" = some v) :
    (∃ t, taskItemLine level false (i.item env) = .ok t) ↔
      Iterates i ∧ ∀ c, IsChild c i → Gives env none c := by
  obtain ⟨v, ha⟩ := ha
  have e : (∃ t, taskItemLine level false (i.item env) = .ok t) ↔
      ∃ items, iterSlot alienKid (mapSlot (fun n => (Node.item env n).toKid) i.content) = .ok items ∧
        ∀ a ∈ items, ∃ s, a.render none false = .ok (.str s) := by
    unfold taskItemLine
    rw [item_content, kids_map, item_attrs, getAttr_eq ha]
    cases iterSlot alienKid _ with
    | error e => simp
    | ok items =>
      simp only [Except.ok.injEq, exists_eq_left']
      rw [← joined_ok (fun (k : Kid) => k.render none false) items []]
      cases collect false (fun (k : Kid) => k.render none false) items with
      | error e => simp
      | ok l => dsimp only; cases strJoin [] l <;> simp
  rw [e, iter_ok alienKid _ (fun items => ∀ a ∈ items, ∃ s, a.render none false = .ok (.str s)) i (by simp)
    (by intro k h; simpa [alienKid] using h alienKid (by simp))]
  refine and_congr_right fun _ => ?_
  constructor
  · rintro h c ⟨kids, hk, hc⟩
    exact h kids hk _ (List.mem_map.mpr ⟨c, hc, rfl⟩)
  · intro h kids hk a ha
    obtain ⟨c, hc, rfl⟩ := List.mem_map.mp ha
    exact h c ⟨kids, hk, hc⟩

theorem taskLines_gives (env : Env) (level : Int) (kids : List Node) (hk : ∀ k ∈ kids, HasType k) :
    (∃ ls, taskLines level false (kids.map (Node.item env)) = .ok ls ∧ ∀ v ∈ ls, ∃ s, v = .str s) ↔
      (∀ i ∈ kids, i.cls = .taskItem → ∃ t, taskItemLine level false (i.item env) = .ok t) ∧
      ∀ i ∈ kids, i.cls = .taskList → Gives env (some (level + 1)) i := by
  induction kids with
  | nil => simp [taskLines]
  | cons i kids ih =>
    have ih := ih fun k hm => hk k (by simp [hm])
    rw [List.map_cons, taskLines, show TypeEnum.taskItem = NodeCls.taskItem.typeEnum from rfl,
      show TypeEnum.taskList = NodeCls.taskList.typeEnum from rfl,
      item_isType env (hk i (by simp)), item_isType env (hk i (by simp)), List.forall_mem_cons,
      List.forall_mem_cons]
    by_cases hl : i.cls = .taskItem
    · have hl' : ¬ (NodeCls.taskItem = NodeCls.taskList) := by decide
      simp only [hl, decide_true, true_imp_iff, hl', false_imp_iff, true_and, and_assoc, ← ih]
      cases taskItemLine level false (i.item env) with
      | error e => simp
      | ok t => cases taskLines level false (kids.map (Node.item env)) <;> simp
    · by_cases ht : i.cls = .taskList
      · have hl' : ¬ (NodeCls.taskList = NodeCls.taskItem) := by decide
        simp only [ht, decide_true, true_imp_iff, hl', decide_false, false_imp_iff, true_and]
        rw [and_left_comm, ← ih]
        unfold Gives Node.toMarkdownAt
        cases (Node.item env i).render (some (level + 1)) false with
        | error e => simp
        | ok v => cases taskLines level false (kids.map (Node.item env)) <;> simp
      · simp [hl, ht, ih]

theorem taskList_gives (env : Env) (level : Int) (n : Node)
    (hk : ∀ i, IsChild i n → HasType i)
    (ha : ∀ i, IsChild i n → i.cls = .taskItem → ∃ v, attr i "state" = some v) :
    (∃ s, taskListMd (slotItems env n.content) level false = .ok s) ↔
      (Iterates n ∧ ∀ i, IsChild i n → i.cls = .taskItem → Iterates i) ∧
      (∀ i, IsChild i n → i.cls = .taskItem → ∀ c, IsChild c i → Gives env none c) ∧
      ∀ i, IsChild i n → i.cls = .taskList → Gives env (some (level + 1)) i := by
  have e : (∃ s, taskListMd (slotItems env n.content) level false = .ok s) ↔
      ∃ items, iterSlot alienItem (mapSlot (Node.item env) n.content) = .ok items ∧
        ∃ ls, taskLines level false items = .ok ls ∧ ∀ v ∈ ls, ∃ s, v = .str s := by
    unfold taskListMd
    rw [slotItems_map]
    cases iterSlot alienItem _ with
    | error e => simp
    | ok items =>
      simp only [Except.ok.injEq, exists_eq_left']
      cases taskLines level false items with
      | error e => simp
      | ok l => simp [strJoin_gives]
  rw [e, iter_ok alienItem _ (fun items => ∃ ls, taskLines level false items = .ok ls ∧ ∀ v ∈ ls, ∃ s, v = .str s)
    n ⟨[], rfl, by simp⟩ (by rintro k ⟨s, h, _⟩; simp [taskLines, alienItem, alienKid, Kid.isTypeOf] at h),
    and_assoc]
  refine and_congr_right fun _ => ?_
  have key : ∀ kids, n.content = .val kids → _ := fun kids hc =>
    taskLines_gives env level kids fun k hm => hk k ⟨kids, hc, hm⟩
  constructor
  · intro h
    refine ⟨?_, ?_, ?_⟩
    · rintro i ⟨kids, hc, hm⟩ hl
      have hi : IsChild i n := ⟨kids, hc, hm⟩
      exact ((taskItemLine_gives env level i (ha i hi hl)).mp (((key kids hc).mp (h kids hc)).1 i hm hl)).1
    · rintro i ⟨kids, hc, hm⟩ hl
      have hi : IsChild i n := ⟨kids, hc, hm⟩
      exact ((taskItemLine_gives env level i (ha i hi hl)).mp (((key kids hc).mp (h kids hc)).1 i hm hl)).2
    · rintro i ⟨kids, hc, hm⟩ hl
      exact ((key kids hc).mp (h kids hc)).2 i hm hl
  · rintro ⟨h1, h2, h3⟩ kids hc
    refine (key kids hc).mpr ⟨fun i hm hl => ?_, fun i hm hl => h3 i ⟨kids, hc, hm⟩ hl⟩
    have hi : IsChild i n := ⟨kids, hc, hm⟩
    exact (taskItemLine_gives env level i (ha i hi hl)).mpr ⟨h1 i hi hl, h2 i hi hl⟩

/-! ## decision lists -/

theorem decisionBlocks_gives (env : Env) (kids : List Node) (hk : ∀ k ∈ kids, HasType k) :
    (∃ ls, decisionBlocks false (kids.map (Node.item env)) = .ok ls ∧ ∀ v ∈ ls, ∃ s, v = .str s) ↔
      ∀ i ∈ kids, i.cls = .decisionItem → Gives env none i := by
  induction kids with
  | nil => simp [decisionBlocks]
  | cons i kids ih =>
    have ih := ih fun k hm => hk k (by simp [hm])
    rw [List.map_cons, decisionBlocks, show TypeEnum.decisionItem = NodeCls.decisionItem.typeEnum from rfl,
      item_isType env (hk i (by simp)), List.forall_mem_cons, ← ih]
    by_cases hl : i.cls = .decisionItem
    · simp only [hl, decide_true, true_imp_iff]
      unfold Gives Node.toMarkdownAt
      cases (Node.item env i).render none false with
      | error e => simp
      | ok v => cases decisionBlocks false (kids.map (Node.item env)) <;> simp
    · simp [hl]

theorem decisionList_gives (env : Env) (n : Node) (hk : ∀ i, IsChild i n → HasType i) :
    (∃ s, decisionListMd (slotItems env n.content) false = .ok s) ↔
      Iterates n ∧ ∀ i, IsChild i n → i.cls = .decisionItem → Gives env none i := by
  have e : (∃ s, decisionListMd (slotItems env n.content) false = .ok s) ↔
      ∃ items, iterSlot alienItem (mapSlot (Node.item env) n.content) = .ok items ∧
        ∃ ls, decisionBlocks false items = .ok ls ∧ ∀ v ∈ ls, ∃ s, v = .str s := by
    unfold decisionListMd
    rw [slotItems_map]
    cases iterSlot alienItem _ with
    | error e => simp
    | ok items =>
      simp only [Except.ok.injEq, exists_eq_left']
      cases decisionBlocks false items with
      | error e => simp
      | ok l => simp [strJoin_gives]
  rw [e, iter_ok alienItem _ (fun items => ∃ ls, decisionBlocks false items = .ok ls ∧ ∀ v ∈ ls, ∃ s, v = .str s)
    n ⟨[], rfl, by simp⟩ (by rintro k ⟨s, h, _⟩; simp [decisionBlocks, alienItem, alienKid, Kid.isTypeOf] at h)]
  refine and_congr_right fun _ => ?_
  constructor
  · rintro h i ⟨kids, hc, hm⟩
    exact (decisionBlocks_gives env kids fun k hm => hk k ⟨kids, hc, hm⟩).mp (h kids hc) i hm
  · intro h kids hc
    exact (decisionBlocks_gives env kids fun k hm => hk k ⟨kids, hc, hm⟩).mpr fun i hm => h i ⟨kids, hc, hm⟩

/-! ## tables -/

theorem rowCells_gives (env : Env) (kids : List Node) :
    (∃ ls, rowCells false (kids.map (Node.item env)) = .ok ls ∧ ∀ v ∈ ls, ∃ s, v = .str s) ↔
      ∀ i ∈ kids, Gives env none i := by
  induction kids with
  | nil => simp [rowCells]
  | cons i kids ih =>
    rw [List.map_cons, rowCells, List.forall_mem_cons, ← ih]
    unfold Gives Node.toMarkdownAt
    cases (Node.item env i).render none false with
    | error e => simp
    | ok v => cases rowCells false (kids.map (Node.item env)) <;> simp

theorem tableRow_gives (env : Env) (n : Node) :
    (∃ s, tableRowMd (slotItems env n.content) false = .ok s) ↔
      Iterates n ∧ ∀ i, IsChild i n → Gives env none i := by
  have e : (∃ s, tableRowMd (slotItems env n.content) false = .ok s) ↔
      ∃ items, iterSlot alienItem (mapSlot (Node.item env) n.content) = .ok items ∧
        ∃ ls, rowCells false items = .ok ls ∧ ∀ v ∈ ls, ∃ s, v = .str s := by
    unfold tableRowMd
    rw [slotItems_map]
    cases iterSlot alienItem _ with
    | error e => simp
    | ok items =>
      simp only [Except.ok.injEq, exists_eq_left']
      cases rowCells false items with
      | error e => simp
      | ok l =>
        simp only [Except.ok.injEq, exists_eq_left', ← strJoin_gives [' ', '|', ' ']]
        cases strJoin [' ', '|', ' '] l <;> simp
  rw [e, iter_ok alienItem _ (fun items => ∃ ls, rowCells false items = .ok ls ∧ ∀ v ∈ ls, ∃ s, v = .str s)
    n ⟨[], rfl, by simp⟩ (by rintro k ⟨s, h, _⟩; simp [rowCells, alienItem, alienKid] at h)]
  refine and_congr_right fun _ => ?_
  constructor
  · rintro h i ⟨kids, hc, hm⟩
    exact (rowCells_gives env kids).mp (h kids hc) i hm
  · intro h kids hc
    exact (rowCells_gives env kids).mpr fun i hm => h i ⟨kids, hc, hm⟩

theorem headerWidth_gives (env : Env) (r : Node) :
    (∃ w, headerWidth (r.item env).content = .ok w) ↔ ∃ c, IsChild c r := by
  rw [item_content, kids_map]
  unfold IsChild headerWidth
  cases hc : r.content with
  | absent => simp [mapSlot]
  | opt => simp [mapSlot]
  | raw v =>
    simp only [mapSlot]
    refine iff_of_false ?_ (by simp)
    rintro ⟨w, h⟩
    split at h <;> simp at *
  | val l =>
    cases l with
    | nil => simp [mapSlot]
    | cons k ks =>
      refine iff_of_true ?_ ⟨k, _, rfl, by simp⟩
      simp only [mapSlot, List.map_cons, Kid.isTypeOf, item_isNode, if_true]
      cases isTypeOf (Node.item env k).type [TypeEnum.tableHeader] <;> simp

theorem tableLines_gives (env : Env) (kids : List Node) :
    (∃ ls, tableLines false (kids.map (Node.item env)) = .ok ls ∧ ∀ v ∈ ls, ∃ s, v = .str s) ↔
      (∀ r ∈ kids, ∃ c, IsChild c r) ∧ ∀ r ∈ kids, Gives env none r := by
  induction kids with
  | nil => simp [tableLines]
  | cons r kids ih =>
    rw [List.map_cons, tableLines, List.forall_mem_cons, List.forall_mem_cons, and_and_and_comm, ← ih,
      ← headerWidth_gives env]
    unfold Gives Node.toMarkdownAt
    cases (Node.item env r).render none false with
    | error e => simp
    | ok v =>
      cases headerWidth (Node.item env r).content with
      | error e => simp
      | ok w =>
        cases tableLines false (kids.map (Node.item env)) with
        | error e => simp
        | ok ls => cases w <;> simp

theorem table_gives (env : Env) (n : Node) :
    (∃ s, tableMd (slotItems env n.content) false = .ok s) ↔
      (Iterates n ∧ ∀ r, IsChild r n → ∃ c, IsChild c r) ∧ ∀ i, IsChild i n → Gives env none i := by
  have e : (∃ s, tableMd (slotItems env n.content) false = .ok s) ↔
      ∃ items, iterSlot alienItem (mapSlot (Node.item env) n.content) = .ok items ∧
        ∃ ls, tableLines false items = .ok ls ∧ ∀ v ∈ ls, ∃ s, v = .str s := by
    unfold tableMd
    rw [slotItems_map]
    cases iterSlot alienItem _ with
    | error e => simp
    | ok items =>
      simp only [Except.ok.injEq, exists_eq_left']
      cases tableLines false items with
      | error e => simp
      | ok l => simp [strJoin_gives]
  rw [e, iter_ok alienItem _ (fun items => ∃ ls, tableLines false items = .ok ls ∧ ∀ v ∈ ls, ∃ s, v = .str s)
    n ⟨[], rfl, by simp⟩ (by rintro k ⟨s, h, _⟩; simp [tableLines, alienItem, alienKid] at h), and_assoc]
  refine and_congr_right fun _ => ?_
  constructor
  · intro h
    constructor
    · rintro i ⟨kids, hc, hm⟩
      exact ((tableLines_gives env kids).mp (h kids hc)).1 i hm
    · rintro i ⟨kids, hc, hm⟩
      exact ((tableLines_gives env kids).mp (h kids hc)).2 i hm
  · rintro ⟨h1, h2⟩ kids hc
    exact (tableLines_gives env kids).mpr ⟨fun i hm => h1 i ⟨kids, hc, hm⟩, fun i hm => h2 i ⟨kids, hc, hm⟩⟩

/-! ## marks, paragraphs, media -/

theorem addStyle_gives (env : Env) (n : Node) (hp : MarksParsed n) (s : Str) :
    (∃ t, addStyle env (.str s) n.hd.marks = .ok (.str t)) ↔ ¬ MarksFail env n s := by
  unfold MarksFail
  simp only [addStyle_iff env n hp, not_forall, not_not]

theorem childText_of (env : Env) (n : Node) (s : Str)
    (h : contentToMarkdown [] false (slotItems env n.content) = .ok s) : ChildText env n s := by
  unfold ChildText
  cases hc : n.content with
  | val kids =>
    rw [hc] at h
    obtain ⟨ss, h1, rfl⟩ := (content_iff env [] kids s).mp h
    exact .inl ⟨kids, ss, rfl, h1, join_nil_eq ss⟩
  | opt =>
    rw [hc] at h
    simp [contentToMarkdown] at h
    exact .inr ⟨by simp, h⟩
  | absent => rw [hc] at h; simp [contentToMarkdown, iterSlot] at h
  | raw v =>
    rw [hc] at h
    refine .inr ⟨by simp, ?_⟩
    simp only [slotItems_raw, contentToMarkdown, iterSlot] at h
    cases hl : v.iterLen with
    | error e => rw [hl] at h; simp at h
    | ok k =>
      rw [hl] at h
      cases k with
      | zero => exact (Except.ok.inj h).symm
      | succ k => simp [List.replicate_succ, collect_cons, alienItem, alienKid] at h

theorem childText_unique (env : Env) (n : Node) (s t : Str) (hs : ChildText env n s) (ht : ChildText env n t) :
    s = t := by
  rcases hs with ⟨kids, ss, hc, h1, rfl⟩ | ⟨hc, rfl⟩ <;> rcases ht with ⟨kids', ss', hc', h1', rfl⟩ | ⟨hc', rfl⟩
  · rw [hc] at hc'; cases hc'
    have a := (content_iff env [] kids _).mpr ⟨ss, h1, rfl⟩
    have b := (content_iff env [] kids _).mpr ⟨ss', h1', rfl⟩
    rw [a] at b
    have := Except.ok.inj b
    rwa [join_nil_eq, join_nil_eq] at this
  · exact absurd hc (hc' kids)
  · exact absurd hc' (hc kids')
  · rfl

theorem paragraph_gives (env : Env) (n : Node) (hp : MarksParsed n) :
    (∃ s, paragraphMd env (slotItems env n.content) n.hd.marks false = .ok s) ↔
      ¬ (BadContent n ∨ ∃ s, ChildText env n s ∧ MarksFail env n s) ∧
        ∀ c, IsChild c n → Gives env none c := by
  rw [not_or, and_assoc, and_left_comm, ← content_gives env []]
  unfold paragraphMd
  cases hk : contentToMarkdown [] false (slotItems env n.content) with
  | error e => simp
  | ok md =>
    have hm := childText_of env n md hk
    simp only [Except.ok.injEq, exists_eq', and_true]
    have : (¬ ∃ s, ChildText env n s ∧ MarksFail env n s) ↔ ¬ MarksFail env n md := by
      rw [not_iff_not]
      constructor
      · rintro ⟨s, h1, h2⟩; rwa [childText_unique env n md s hm h1]
      · intro h; exact ⟨md, hm, h⟩
    rw [this, ← addStyle_gives env n hp md]
    cases ha : addStyle env (.str md) n.hd.marks with
    | error e => simp
    | ok v => obtain ⟨t, rfl⟩ := addStyle_str env _ _ _ ha; simp

theorem parsed_noMarks {n : Node} (h : Parsed n) (hd : "marks" ∉ nodeKeys n.cls) : n.hd.marks = .absent := by
  obtain ⟨w, v, h⟩ := h
  obtain ⟨d, t, rfl, ht, hreg, hf⟩ := parseNode_ok h
  have hf : (n.cls.fromDict w (.dict d)).out = .ok n := hf
  obtain ⟨a, kk, m, ha, hk', hm, hreq, heq⟩ := nodeFromDict_ok hf
  have e : n.hd.marks = slotOf n.cls.fields "marks" m := congrArg (fun x => x.hd.marks) heq
  rw [slotOf_eq n.cls _ (.inr (.inr rfl)), if_neg hd] at e
  exact e

theorem strAttr_iff {n : Node} {k : String} {v : Val} (h : attr n k = some v) (s : Str) :
    StrAttr n k s ↔ v.asStr? = some s := by
  unfold StrAttr
  rw [h]
  cases v <;> simp [Val.asStr?]

theorem media_gives (env : Env) (n : Node) (hp : Parsed n) (hn : n.cls = .media) :
    (∃ s, mediaMd env n.hd.attrs n.hd.marks = .ok (.str s)) ↔
      ¬ (¬ StrAttr n "type" "link".toList ∧
        ((∀ s, ¬ MediaImage env n s) ∨ ∃ s, MediaImage env n s ∧ MarksFail env n s)) := by
  obtain ⟨ty, url, alt, id, h1, h2, h3, h4⟩ := C40_attrs_exist n hp hn
  have hm := C62_parsed_marks n hp
  unfold mediaMd MediaImage
  simp only [getAttr_eq h1, getAttr_eq h2, getAttr_eq h3, getAttr_eq h4, mediaAlt, strAttr_iff h1,
    strAttr_iff h2, strAttr_iff h3, h4, Option.some.injEq, exists_eq_left']
  have halt : ∀ a : Str, (alt.asStr? = some a ∨ ((∀ a, ¬ alt.asStr? = some a) ∧ a = "media".toList)) ↔
      a = alt.asStr?.getD "media".toList := by
    intro a
    cases alt.asStr? with
    | none => simp
    | some b => simp [eq_comm]
  simp only [halt]
  have img : ∀ a t : Str, imageLink a t = "![".toList ++ a ++ "](".toList ++ t ++ ")".toList := fun _ _ => rfl
  simp only [← img]
  by_cases he : ty.asStr? = some "external".toList ∧ url.asStr?.isSome
  · obtain ⟨he1, he2⟩ := he
    obtain ⟨u, hu⟩ := Option.isSome_iff_exists.mp he2
    rw [if_pos ⟨he1, he2⟩, addStyle_gives env n hm, he1, hu]
    have d1 : ¬ ("external".toList = "link".toList) := by decide
    have d2 : ¬ ("external".toList = "file".toList) := by decide
    simp only [Option.some.injEq, d1, d2, not_false_eq_true, true_and, false_and, or_false, Option.getD_some]
    constructor
    · rintro h (h' | ⟨s, ⟨a, t, rfl, rfl, rfl⟩, h'⟩)
      · exact h' _ ⟨_, _, rfl, rfl, rfl⟩
      · exact h h'
    · rintro h h'
      exact h (.inr ⟨_, ⟨_, _, rfl, rfl, rfl⟩, h'⟩)
  · rw [if_neg he]
    by_cases hf : ty.asStr? = some "file".toList
    · rw [if_pos hf, addStyle_gives env n hm, hf]
      have d1 : ¬ ("file".toList = "link".toList) := by decide
      have d2 : ¬ ("file".toList = "external".toList) := by decide
      simp only [Option.some.injEq, d1, d2, not_false_eq_true, true_and, false_and, false_or]
      constructor
      · rintro h (h' | ⟨s, ⟨a, t, rfl, rfl, rfl⟩, h'⟩)
        · exact h' _ ⟨_, _, rfl, rfl, rfl⟩
        · exact h h'
      · rintro h h'
        exact h (.inr ⟨_, ⟨_, _, rfl, rfl, rfl⟩, h'⟩)
    · rw [if_neg hf]
      by_cases hl : ty.asStr? = some "link".toList
      · rw [if_pos hl]; simp [hl]
      · rw [if_neg hl]
        simp only [hl, not_false_eq_true, true_and, reduceCtorEq, exists_false, false_iff, not_not]
        left
        rintro s ⟨a, t, _, _, ⟨h5, h6⟩ | ⟨h5, _⟩⟩
        · exact he ⟨h5, by rw [h6]; rfl⟩
        · exact hf h5

theorem text_gives (env : Env) (n : Node) (hp : Parsed n) (hn : n.cls = .text) :
    (∃ s, textMd env n.hd.text n.hd.marks = .ok (.str s)) ↔
      ¬ ((∃ s, n.hd.text = some (.str s) ∧ MarksFail env n s) ∨
        ((∀ s, n.hd.text ≠ some (.str s)) ∧ ∀ t, ¬ Md env n t)) := by
  have hm := C62_parsed_marks n hp
  have hmd : ∀ t, Md env n t ↔ textMd env n.hd.text n.hd.marks = .ok (.str t) := by
    intro t
    have hn' : n.hd.cls = .text := hn
    unfold Md
    rw [toMarkdown_eq]
    unfold dispatch
    simp [hn']
  simp only [hmd]
  by_cases h : ∃ s, n.hd.text = some (.str s)
  · obtain ⟨s, hs⟩ := h
    have : (∃ s', n.hd.text = some (.str s') ∧ MarksFail env n s') ↔ MarksFail env n s := by
      rw [hs]; simp
    rw [this, hs]
    simp only [textMd, addStyle_gives env n hm]
    simp
  · have h' : ∀ s, n.hd.text ≠ some (.str s) := fun s hs => h ⟨s, hs⟩
    simp [h']

theorem date_gives (env : Env) (n : Node) (hp : Parsed n) (hn : n.cls = .date) :
    Gives env none n ↔ ¬ ∃ ts, attr n "timestamp" = some ts ∧ ¬ Datable env ts := by
  obtain ⟨ts, hts⟩ := C37_has_timestamp n hp hn
  simp only [hts, Option.some.injEq, exists_eq_left', not_not]
  unfold Gives Datable
  constructor
  · rintro ⟨s, hs⟩
    have hs : n.toMarkdown env false = .ok (.str s) := hs
    by_cases ht : ∃ t, Timestamp env ts t
    · obtain ⟨t, ht⟩ := ht
      obtain ⟨y, m, d, h1, h2, h3, _⟩ := (C37_utc_date env n t false hn ts hts ht _).mp hs
      exact ⟨t, y, m, d, ht, h1, h2, h3⟩
    · obtain ⟨e, he⟩ := C37_raises env n false hn ts hts (fun t h => ht ⟨t, h⟩)
      rw [he] at hs; cases hs
  · rintro ⟨t, y, m, d, ht, h1, h2, h3⟩
    exact ⟨_, (C37_utc_date env n t false hn ts hts ht _).mpr ⟨y, m, d, h1, h2, h3, rfl⟩⟩

/-! ## every class -/

theorem isChild_parsed {n c : Node} (hp : Parsed n) (h : IsChild c n) : Parsed c := by
  obtain ⟨kids, hc, hm⟩ := h
  exact parsed_kids hp hc c hm

theorem children_iff (env : Env) (n : Node) :
    (∀ c l', IsChild c n ∧ l' = none → Gives env l' c) ↔ ∀ c, IsChild c n → Gives env none c :=
  ⟨fun h c hc => h c none ⟨hc, rfl⟩, by rintro h c l' ⟨hc, rfl⟩; exact h c hc⟩

theorem noCalls (P : Node → Option Int → Prop) : (∀ c l', False → P c l') ↔ True := by simp

/-- Conversion gives a string iff the node has no fault and every part it converts gives a string. -/
theorem gives_iff (env : Env) (n : Node) (hp : Parsed n) (l : Option Int) (hl : LevelFits n l) :
    Gives env l n ↔ ¬ Fault env n l ∧ ∀ c l', Calls n l c l' → Gives env l' c := by
  have hk : ∀ c, IsChild c n → HasType c := fun c hc => parsed_hasType (isChild_parsed hp hc)
  have hkk : ∀ i, IsChild i n → ∀ c, IsChild c i → HasType c := fun i hi c hc =>
    parsed_hasType (isChild_parsed (isChild_parsed hp hi) hc)
  have hm := C62_parsed_marks n hp
  have hlv : (l.isSome && !n.hd.cls.takesLevel) = false := by
    rcases hl with rfl | h | h | h
    · rfl
    all_goals have h : n.hd.cls = _ := h; simp [h, NodeCls.takesLevel]
  have ha : ∀ k, "attrs" ∈ requiredKeys n.cls → k ∈ attrKeys n.cls → ∃ v, getAttr n.hd.attrs k = .ok v ∧
      attr n k = some v := fun k h1 h2 => by
    obtain ⟨v, hv⟩ := parsed_attr hp h1 h2
    exact ⟨v, getAttr_eq hv, hv⟩
  rw [gives_at]
  unfold dispatch Fault Calls
  rw [hlv]
  simp only [Bool.false_eq_true, if_false]
  have hcls : n.hd.cls = n.cls := rfl
  rw [hcls]
  cases hc : n.cls
  case doc => simp only [strVal_gives, children_iff]; exact docContent_gives env n hk
  case nestedExpand => simp only [strVal_gives, children_iff]; exact docContent_gives env n hk
  case blockquote =>
    simp only [strVal_gives, children_iff]
    rw [← docContent_gives env n hk]
    unfold blockquoteMd
    cases docContentToMarkdown false (slotItems env n.content) <;> simp
  case expand =>
    simp only [children_iff]
    rw [← docContent_gives env n hk]
    unfold expandMd
    rw [parsed_noMarks hp (by rw [hc]; decide)]
    cases docContentToMarkdown false (slotItems env n.content) <;> simp [addStyle]
  case panel =>
    simp only [strVal_gives, children_iff]
    rw [not_or, and_right_comm, ← docContent_gives env n hk]
    unfold panelMd
    obtain ⟨v, h1, h2⟩ := ha "panelType" (by rw [hc]; decide) (by rw [hc]; decide)
    simp only [h1, strAttr_iff h2]
    cases v.asStr? with
    | none => simp
    | some s => cases docContentToMarkdown false (slotItems env n.content) <;> simp
  case listItem => simp only [strVal_gives, children_iff]; exact content_gives env [] n
  case taskItem => simp only [strVal_gives, children_iff]; exact content_gives env [] n
  case mediaSingle => simp only [strVal_gives, children_iff]; exact content_gives env [] n
  case decisionItem =>
    simp only [strVal_gives, children_iff]
    rw [← content_gives env [] n]
    unfold decisionItemMd
    cases contentToMarkdown [] false (slotItems env n.content) <;> simp
  case tableCell =>
    simp only [strVal_gives, children_iff]
    rw [← content_gives env [] n]
    unfold cellMd
    cases contentToMarkdown [] false (slotItems env n.content) <;> simp
  case tableHeader =>
    simp only [strVal_gives, children_iff]
    rw [← content_gives env [] n]
    unfold cellMd
    cases contentToMarkdown [] false (slotItems env n.content) <;> simp
  case codeBlock =>
    simp only [strVal_gives, children_iff]
    rw [← content_gives env [] n]
    unfold codeBlockMd
    have : ∃ s, codeLang n.hd.attrs = .ok s := by
      unfold codeLang
      rcases C35_attrs n hp hc with h | ⟨v, h⟩
      · rw [h]; exact ⟨_, rfl⟩
      · have := getAttr_eq h
        cases hat : n.hd.attrs with
        | opt => exact ⟨_, rfl⟩
        | _ =>
          rw [hat] at this
          simp only [this]
          cases v.asStr? with
          | none => exact ⟨_, rfl⟩
          | some s => dsimp only; split <;> exact ⟨_, rfl⟩
    obtain ⟨s, hs⟩ := this
    cases contentToMarkdown [] false (slotItems env n.content) <;> simp [hs]
  case heading =>
    simp only [strVal_gives, children_iff]
    rw [not_or, and_right_comm, ← content_gives env [] n]
    unfold headingMd
    obtain ⟨v, h1, h2⟩ := ha "level" (by rw [hc]; decide) (by rw [hc]; decide)
    simp only [h1, h2, Option.some.injEq, exists_eq_left', not_not]
    cases hv : v.asInt? with
    | none =>
      have : ¬ IsInt v := by
        rintro (⟨i, rfl⟩ | ⟨b, rfl⟩) <;> simp [Val.asInt?] at hv
      simp [this]
    | some i =>
      have : IsInt v := by
        cases v <;> simp [Val.asInt?] at hv
        · exact .inr ⟨_, rfl⟩
        · exact .inl ⟨_, rfl⟩
      cases contentToMarkdown [] false (slotItems env n.content) <;> simp [this]
  case paragraph => simp only [strVal_gives, children_iff]; exact paragraph_gives env n hm
  case table =>
    simp only [strVal_gives, children_iff]
    rw [table_gives env n, not_or, not_not]
    simp only [not_exists, not_and, not_forall, not_not]
  case tableRow => simp only [strVal_gives, children_iff]; rw [tableRow_gives env n, not_not]
  case bulletList =>
    simp only [strVal_gives]
    rw [bulletList_gives env _ n hk hkk, not_or, not_not]
    simp only [not_exists, not_and, not_not]
    refine and_congr_right fun _ => ?_
    constructor
    · rintro h c l' ⟨i, h1, h2, h3, rfl⟩; exact h i h1 h2 c h3
    · intro h i h1 h2 c h3; exact h c _ ⟨i, h1, h2, h3, rfl⟩
  case orderedList =>
    simp only [strVal_gives]
    rw [orderedList_gives env _ _ n hk hkk, not_or, not_or, not_not]
    simp only [not_exists, not_and, not_not]
    have hst : (∃ v, orderedStart n.hd.attrs (l.getD 0) = .ok v) ↔ (l.getD 0 = 0 → ¬ n.hd.attrs = .opt) := by
      unfold orderedStart
      by_cases h0 : l.getD 0 = 0
      · rw [if_pos h0]
        rcases parsed_attrs_cases hp (by rw [hc]; decide) with h | h
        · rw [h]; simp [getAttr, h0]
        · obtain ⟨v, hv⟩ := h "order" (by rw [hc]; decide)
          refine iff_of_true ?_ ?_
          · rw [getAttr_eq hv]
            dsimp only
            split <;> exact ⟨_, rfl⟩
          · intro _ ho
            rw [attr, ho] at hv
            cases hv
      · rw [if_neg h0]; simp [h0]
    rw [hst]
    constructor
    · rintro ⟨h1, ⟨h2, h3⟩, h4⟩
      refine ⟨⟨h2, h3, h1⟩, ?_⟩
      rintro c l' ⟨i, h5, h6, h7, rfl⟩; exact h4 i h5 h6 c h7
    · rintro ⟨⟨h2, h3, h1⟩, h4⟩
      exact ⟨h1, ⟨h2, h3⟩, fun i h5 h6 c h7 => h4 c _ ⟨i, h5, h6, h7, rfl⟩⟩
  case taskList =>
    simp only [strVal_gives]
    rw [taskList_gives env _ n hk (fun i hi hl => parsed_attr (isChild_parsed hp hi) (by rw [hl]; decide)
      (by rw [hl]; decide)), not_or, not_not]
    simp only [not_exists, not_and, not_not]
    refine and_congr_right fun _ => ?_
    constructor
    · rintro ⟨h, h'⟩ c l' (⟨i, h1, h2, h3, rfl⟩ | ⟨h1, h2, rfl⟩)
      · exact h i h1 h2 c h3
      · exact h' c h1 h2
    · intro h
      exact ⟨fun i h1 h2 c h3 => h c _ (.inl ⟨i, h1, h2, h3, rfl⟩), fun i h1 h2 => h i _ (.inr ⟨h1, h2, rfl⟩)⟩
  case decisionList =>
    simp only [strVal_gives]
    rw [decisionList_gives env n hk, not_not]
    refine and_congr_right fun _ => ?_
    constructor
    · rintro h c l' ⟨h1, h2, rfl⟩; exact h c h1 h2
    · intro h c h1 h2; exact h c _ ⟨h1, h2, rfl⟩
  case text =>
    simp only [noCalls, and_true]
    exact text_gives env n hp hc
  case media =>
    simp only [noCalls, and_true]
    exact media_gives env n hp hc
  case date =>
    have hl0 : l = none := by
      rcases hl with h | h | h | h
      · exact h
      all_goals rw [hc] at h; cases h
    subst hl0
    simp only [noCalls, and_true]
    rw [← date_gives env n hp hc, gives_at]
    unfold dispatch
    have hcls : n.hd.cls = .date := hc
    simp only [hcls, Option.isSome_none, Bool.false_and, Bool.false_eq_true, if_false]
  case emoji =>
    simp only [strVal_gives, noCalls, and_true]
    obtain ⟨v, h1, h2⟩ := ha "text" (by rw [hc]; decide) (by rw [hc]; decide)
    obtain ⟨w, h3, h4⟩ := ha "shortName" (by rw [hc]; decide) (by rw [hc]; decide)
    simp only [emojiMd, h1, h3, strAttr_iff h2, strAttr_iff h4]
    cases v.asStr? with
    | some s => simp
    | none => cases w.asStr? <;> simp
  case inlineCard =>
    simp only [strVal_gives, noCalls, and_true]
    obtain ⟨v, h1, h2⟩ := ha "url" (by rw [hc]; decide) (by rw [hc]; decide)
    simp only [inlineCardMd, h1, strAttr_iff h2]
    cases v.asStr? <;> simp
  case blockCard =>
    simp only [strVal_gives, noCalls, and_true]
    obtain ⟨v, h1, h2⟩ := ha "url" (by rw [hc]; decide) (by rw [hc]; decide)
    simp only [blockCardMd, h1, strAttr_iff h2]
    cases v.asStr? <;> simp
  case mention =>
    obtain ⟨v, h1, h2⟩ := ha "text" (by rw [hc]; decide) (by rw [hc]; decide)
    simp [strVal_gives, mentionMd, h1]
  case status =>
    obtain ⟨v, h1, h2⟩ := ha "text" (by rw [hc]; decide) (by rw [hc]; decide)
    simp [strVal_gives, statusMd, h1]
  case embedCard =>
    obtain ⟨v, h1, h2⟩ := ha "url" (by rw [hc]; decide) (by rw [hc]; decide)
    simp [strVal_gives, embedCardMd, h1]
  case extension =>
    obtain ⟨v, h1, h2⟩ := ha "extensionKey" (by rw [hc]; decide) (by rw [hc]; decide)
    obtain ⟨w, h3, h4⟩ := ha "extensionType" (by rw [hc]; decide) (by rw [hc]; decide)
    obtain ⟨x, h5, h6⟩ := ha "text" (by rw [hc]; decide) (by rw [hc]; decide)
    simp only [strVal_gives, extensionMd, h1, h3, h5, noCalls, and_true, not_false_eq_true, iff_true]
    split <;> exact ⟨_, rfl⟩
  all_goals simp

/-- Every call passes `level` only to lists. -/
theorem calls_fits {n c : Node} {l l' : Option Int} (h : Calls n l c l') : LevelFits c l' := by
  unfold Calls at h
  split at h
  all_goals first
    | exact .inl h.2
    | exact .inl h.2.2
    | skip
  · next hc =>
    obtain ⟨i, _, _, _, rfl⟩ := h
    split
    · next hs => rw [hc] at hs; exact .inr (.inl hs)
    · exact .inl rfl
  · next hc =>
    obtain ⟨i, _, _, _, rfl⟩ := h
    split
    · next hs => rw [hc] at hs; exact .inr (.inr (.inl hs))
    · exact .inl rfl
  · rcases h with ⟨i, _, _, _, rfl⟩ | ⟨_, h, rfl⟩
    · exact .inl rfl
    · exact .inr (.inr (.inr h))
  · exact h.elim

theorem calls_parsed {n c : Node} {l l' : Option Int} (hp : Parsed n) (h : Calls n l c l') : Parsed c := by
  unfold Calls at h
  split at h
  all_goals first
    | exact isChild_parsed hp h.1
    | skip
  · obtain ⟨i, h1, _, h2, _⟩ := h; exact isChild_parsed (isChild_parsed hp h1) h2
  · obtain ⟨i, h1, _, h2, _⟩ := h; exact isChild_parsed (isChild_parsed hp h1) h2
  · rcases h with ⟨i, h1, _, h2, _⟩ | ⟨h, _⟩
    · exact isChild_parsed (isChild_parsed hp h1) h2
    · exact isChild_parsed hp h
  · exact h.elim

theorem isChild_size {n c : Node} (h : IsChild c n) : sizeOf c < sizeOf n := by
  obtain ⟨kids, hc, hm⟩ := h
  obtain ⟨hd, ct⟩ := n
  have h2 := List.sizeOf_lt_of_mem hm
  simp only [Node.content] at hc
  subst hc
  simp
  omega

theorem calls_size {n c : Node} {l l' : Option Int} (h : Calls n l c l') : sizeOf c < sizeOf n := by
  unfold Calls at h
  split at h
  all_goals first
    | exact isChild_size h.1
    | skip
  · obtain ⟨i, h1, _, h2, _⟩ := h; exact (isChild_size h2).trans (isChild_size h1)
  · obtain ⟨i, h1, _, h2, _⟩ := h; exact (isChild_size h2).trans (isChild_size h1)
  · rcases h with ⟨i, h1, _, h2, _⟩ | ⟨h, _⟩
    · exact (isChild_size h2).trans (isChild_size h1)
    · exact isChild_size h
  · exact h.elim

theorem gives_all (env : Env) (n : Node) (hp : Parsed n) (l : Option Int) (hl : LevelFits n l) :
    Gives env l n ↔ ∀ x l', Reaches n l x l' → ¬ Fault env x l' := by
  induction hs : sizeOf n using Nat.strongRecOn generalizing n l with
  | _ k ih =>
    rw [gives_iff env n hp l hl]
    constructor
    · rintro ⟨h1, h2⟩ x l' hr
      cases hr with
      | here => exact h1
      | step hc hr =>
        exact (ih _ (by rw [← hs]; exact calls_size hc) _ (calls_parsed hp hc) _ (calls_fits hc) rfl).mp
          (h2 _ _ hc) x l' hr
    · intro h
      refine ⟨h n l (.here n l), fun c l' hc => ?_⟩
      refine (ih _ (by rw [← hs]; exact calls_size hc) _ (calls_parsed hp hc) _ (calls_fits hc) rfl).mpr ?_
      intro x l'' hr
      exact h x l'' (.step hc hr)

end Verif
