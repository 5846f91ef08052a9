import Verif.Model.Stack
import Verif.Spec.Stack
import Verif.Props.Trace
import Verif.Props.Cost
import Verif.Props.Interrupt
/-!
# C104: what can be parsed can be converted on the same stack
-/

namespace Verif.Stack
open Verif Verif.StackSpec Verif.Spec Verif.Props Verif.Props.Cost

/-! ## Conversion -/

section Conversion
open Verif.Trace

theorem deep_bind {α β : Type} {x : Tr α} {f : α → Tr β} {d : Nat} (hx : x.deep ≤ d) (hf : ∀ a, x.out = .ok a → (f a).deep ≤ d) :
    (x.bind f).deep ≤ d := by
  unfold Tr.bind
  cases h : x.out with
  | error e => exact hx
  | ok a => exact Nat.max_le.2 ⟨hx, hf a h⟩

theorem deep_of {α : Type} (x : Except PyErr α) (d : Nat) : (Tr.of x).deep ≤ d := Nat.zero_le _

theorem deep_map {α β : Type} {x : Tr α} {f : α → β} {d : Nat} (hx : x.deep ≤ d) : (x.map f).deep ≤ d :=
  deep_bind hx fun _ _ => deep_of _ _

theorem deep_try {α β : Type} {x : Tr α} {f : α → Tr β} {g : PyErr → Tr β} {d : Nat} (hx : x.deep ≤ d) (hf : ∀ a, (f a).deep ≤ d)
    (hg : ∀ e, (g e).deep ≤ d) : (x.tryElse f g).deep ≤ d := by
  unfold Tr.tryElse
  cases x.out with
  | error e => exact Nat.max_le.2 ⟨hx, hg e⟩
  | ok a => exact Nat.max_le.2 ⟨hx, hf a⟩

theorem deep_if {α : Type} {c : Bool} {x y : Tr α} {d : Nat} (hx : x.deep ≤ d) (hy : y.deep ≤ d) : (if c then x else y).deep ≤ d := by
  cases c
  · exact hy
  · exact hx

/-- The calls of a child need at most `d` frames. -/
def KidLe (d : Nat) (k : TKid) : Prop := ∀ l g, (k.render l g).deep ≤ d

def KidsLe (d : Nat) : Slot (List TKid) → Prop
  | .val l => ∀ k ∈ l, KidLe d k
  | _ => True

def ItemLe (d : Nat) (k : TItem) : Prop := KidLe d k.toTKid ∧ KidsLe d k.content

def SlotLe (d : Nat) : Slot (List TItem) → Prop
  | .val l => ∀ k ∈ l, ItemLe d k
  | _ => True

theorem alien_le (d : Nat) : KidLe d alienTKid := fun _ _ => deep_of _ _

theorem alienItem_le (d : Nat) : ItemLe d alienTItem := ⟨alien_le d, trivial⟩

theorem iterKids_le {d : Nat} {s : Slot (List TKid)} (h : KidsLe d s) {l : List TKid} (hl : iterSlot alienTKid s = .ok l) :
    ∀ k ∈ l, KidLe d k := by
  cases s with
  | val m => cases hl; exact h
  | raw v =>
    simp only [iterSlot] at hl
    cases hv : v.iterLen with
    | error e => rw [hv] at hl; cases hl
    | ok n => rw [hv] at hl; cases hl; intro k hk; rw [List.eq_of_mem_replicate hk]; exact alien_le d
  | opt => cases hl
  | absent => cases hl

theorem iterItems_le {d : Nat} {s : Slot (List TItem)} (h : SlotLe d s) {l : List TItem} (hl : iterSlot alienTItem s = .ok l) :
    ∀ k ∈ l, ItemLe d k := by
  cases s with
  | val m => cases hl; exact h
  | raw v =>
    simp only [iterSlot] at hl
    cases hv : v.iterLen with
    | error e => rw [hv] at hl; cases hl
    | ok n => rw [hv] at hl; cases hl; intro k hk; rw [List.eq_of_mem_replicate hk]; exact alienItem_le d
  | opt => cases hl
  | absent => cases hl

theorem deep_iter {β : Type} {d : Nat} {s : Slot (List TItem)} (h : SlotLe d s) {f : List TItem → Tr β}
    (hf : ∀ l, (∀ k ∈ l, ItemLe d k) → (f l).deep ≤ d) : ((Tr.of (iterSlot alienTItem s)).bind f).deep ≤ d :=
  deep_bind (deep_of _ _) fun _ hl => hf _ (iterItems_le h hl)

theorem deep_iterKids {β : Type} {d : Nat} {s : Slot (List TKid)} (h : KidsLe d s) {f : List TKid → Tr β}
    (hf : ∀ l, (∀ k ∈ l, KidLe d k) → (f l).deep ≤ d) : ((Tr.of (iterSlot alienTKid s)).bind f).deep ≤ d :=
  deep_bind (deep_of _ _) fun _ hl => hf _ (iterKids_le h hl)

theorem deep_collect {α β γ : Type} (ig : Bool) (pre : α → Except PyErr γ) (f : γ → α → Tr β) {d : Nat} (l : List α)
    (hl : ∀ a ∈ l, ∀ c, (f c a).deep ≤ d) : (collectPreT ig pre f l).deep ≤ d := by
  induction l with
  | nil => exact deep_of _ _
  | cons a as ih =>
    have hi := ih fun a ha => hl a (List.mem_cons_of_mem _ ha)
    exact deep_bind (deep_of _ _) fun c _ =>
      deep_try (hl a List.mem_cons_self c) (fun _ => deep_map hi) fun e => deep_if hi (deep_of _ _)

theorem deep_frame {α : Type} {x : Tr α} {d : Nat} (h : x.deep ≤ d) : x.frame.deep ≤ d + 1 := Nat.succ_le_succ h

theorem deep_content (concat : Str) (ig : Bool) {d : Nat} {s : Slot (List TItem)} (h : SlotLe d s) :
    (contentToMarkdownT concat ig s).deep ≤ d + 1 := by
  refine deep_frame ?_
  have key : ((Tr.of (iterSlot alienTItem s)).bind fun items =>
      (collectT ig (fun (k : TItem) => k.render none false) items).bind fun lst => .of (strJoin concat lst)).deep ≤ d :=
    deep_iter h fun l hl => deep_bind (deep_collect ig _ _ l fun k hk _ => (hl k hk).1 _ _) fun _ _ => deep_of _ _
  cases s with
  | opt => exact deep_of _ _
  | _ => exact key

theorem deep_docBlock {d : Nat} {k : TItem} (h : ItemLe d k) : (docBlockT k).deep ≤ d :=
  deep_bind (deep_of _ _) fun _ _ => deep_if (deep_bind (h.1 _ _) fun _ _ => deep_of _ _) (h.1 _ _)

theorem deep_docContent (ig : Bool) {d : Nat} {s : Slot (List TItem)} (h : SlotLe d s) : (docContentToMarkdownT ig s).deep ≤ d + 1 := by
  refine deep_frame ?_
  have key : ((Tr.of (iterSlot alienTItem s)).bind fun items =>
      (collectT ig docBlockT items).bind fun lst => (Tr.of (strJoin [Str.nl] lst)).map (stripDoubleEmptyLine 3)).deep ≤ d :=
    deep_iter h fun l hl => deep_bind (deep_collect ig _ _ l fun k hk _ => deep_docBlock (hl k hk)) fun _ _ => deep_map (deep_of _ _)
  cases s with
  | opt => exact deep_of _ _
  | _ => exact key

theorem deep_listItem (kind : TypeEnum) (level : Int) (ig : Bool) {d : Nat} {item : TItem} (h : ItemLe d item) :
    (listItemContentT kind level ig item).deep ≤ d :=
  deep_iterKids h.2 fun l hl => deep_bind
    (deep_collect ig _ _ l fun k hk _ => deep_if (hl k hk _ _) (deep_bind (hl k hk _ _) fun _ _ => deep_map (deep_of _ _)))
    fun _ _ => deep_of _ _

theorem deep_bullet (level : Int) (ig : Bool) {d : Nat} (l : List TItem) (h : ∀ k ∈ l, ItemLe d k) : (bulletLinesT level ig l).deep ≤ d := by
  induction l with
  | nil => exact deep_of _ _
  | cons a as ih =>
    have hi := ih fun a ha => h a (List.mem_cons_of_mem _ ha)
    exact deep_bind (deep_of _ _) fun _ _ =>
      deep_if (deep_bind (deep_listItem _ level ig (h a List.mem_cons_self)) fun _ _ => deep_map hi) hi

theorem deep_ordered (env : Env) (level : Int) (ig : Bool) {d : Nat} (l : List TItem) (h : ∀ k ∈ l, ItemLe d k) : ∀ num,
    (orderedLinesT env level ig num l).deep ≤ d := by
  induction l with
  | nil => intro _; exact deep_of _ _
  | cons a as ih =>
    intro num
    have hi := ih fun a ha => h a (List.mem_cons_of_mem _ ha)
    exact deep_bind (deep_of _ _) fun _ _ =>
      deep_if (deep_bind (deep_listItem _ level ig (h a List.mem_cons_self)) fun _ _ => deep_map (hi _)) (hi _)

theorem deep_taskItem (level : Int) (ig : Bool) {d : Nat} {item : TItem} (h : ItemLe d item) : (taskItemLineT level ig item).deep ≤ d :=
  deep_iterKids h.2 fun l hl => deep_bind (deep_collect ig _ _ l fun k hk _ => hl k hk _ _)
    fun _ _ => deep_bind (deep_of _ _) fun _ _ => deep_map (deep_of _ _)

theorem deep_task (level : Int) (ig : Bool) {d : Nat} (l : List TItem) (h : ∀ k ∈ l, ItemLe d k) : (taskLinesT level ig l).deep ≤ d := by
  induction l with
  | nil => exact deep_of _ _
  | cons a as ih =>
    have hi := ih fun a ha => h a (List.mem_cons_of_mem _ ha)
    have ha := h a List.mem_cons_self
    exact deep_bind (deep_of _ _) fun _ _ => deep_if (deep_bind (deep_taskItem level ig ha) fun _ _ => deep_map hi)
      (deep_bind (deep_of _ _) fun _ _ => deep_if (deep_try (ha.1 _ _) (fun _ => deep_map hi) fun _ => deep_if hi (deep_of _ _)) hi)

theorem deep_decision (ig : Bool) {d : Nat} (l : List TItem) (h : ∀ k ∈ l, ItemLe d k) : (decisionBlocksT ig l).deep ≤ d := by
  induction l with
  | nil => exact deep_of _ _
  | cons a as ih =>
    have hi := ih fun a ha => h a (List.mem_cons_of_mem _ ha)
    have ha := h a List.mem_cons_self
    exact deep_bind (deep_of _ _) fun _ _ => deep_if (deep_try (ha.1 _ _) (fun _ => deep_map hi) fun _ => deep_if hi (deep_of _ _)) hi

theorem deep_row (ig : Bool) {d : Nat} (l : List TItem) (h : ∀ k ∈ l, ItemLe d k) : (rowCellsT ig l).deep ≤ d := by
  induction l with
  | nil => exact deep_of _ _
  | cons a as ih =>
    exact deep_bind ((h a List.mem_cons_self).1 _ _) fun _ _ => deep_map (ih fun a ha => h a (List.mem_cons_of_mem _ ha))

theorem deep_table (ig : Bool) {d : Nat} (l : List TItem) (h : ∀ k ∈ l, ItemLe d k) : (tableLinesT ig l).deep ≤ d := by
  induction l with
  | nil => exact deep_of _ _
  | cons a as ih =>
    have hi := ih fun a ha => h a (List.mem_cons_of_mem _ ha)
    exact deep_try ((h a List.mem_cons_self).1 _ _)
      (fun _ => deep_try (deep_of _ _) (fun _ => deep_map hi) fun _ => deep_if (deep_map hi) (deep_of _ _))
      fun _ => deep_if hi (deep_of _ _)

theorem deep_heading (attrs : Slot AttrsObj) (ig : Bool) {d : Nat} {s : Slot (List TItem)} (h : SlotLe d s) :
    (headingMdT attrs s ig).deep ≤ d + 1 := by
  refine deep_bind (deep_of _ _) fun v _ => ?_
  cases v.asInt? with
  | none => exact deep_of _ _
  | some n => exact deep_map (deep_content _ ig h)

theorem deep_panel (env : Env) (attrs : Slot AttrsObj) (ig : Bool) {d : Nat} {s : Slot (List TItem)} (h : SlotLe d s) :
    (panelMdT env attrs s ig).deep ≤ d + 1 := by
  refine deep_bind (deep_of _ _) fun v _ => ?_
  cases v.asStr? with
  | none => exact deep_of _ _
  | some n => exact deep_map (deep_docContent ig h)

theorem deep_body (env : Env) (hd : Hd) (level : Option Int) (ig : Bool) {d : Nat} {s : Slot (List TItem)} (h : SlotLe d s) :
    (bodyT env hd s level ig).deep ≤ d + 1 := by
  have up : ∀ {n : Nat}, n ≤ d → n ≤ d + 1 := fun h => Nat.le_succ_of_le h
  unfold bodyT
  cases hd.cls <;> first
    | exact deep_of _ _
    | exact deep_map (deep_docContent ig h)
    | exact deep_map (deep_content _ ig h)
    | exact deep_map (deep_map (deep_content _ ig h))
    | exact deep_map (deep_map (deep_docContent ig h))
    | exact up (deep_map (deep_iter h fun l hl => deep_map (deep_bullet _ ig l hl)))
    | exact up (deep_map (deep_bind (deep_of _ _) fun _ _ => deep_iter h fun l hl => deep_map (deep_ordered env _ ig l hl _)))
    | exact up (deep_map (deep_iter h fun l hl => deep_bind (deep_task _ ig l hl) fun _ _ => deep_of _ _))
    | exact up (deep_map (deep_iter h fun l hl => deep_bind (deep_decision ig l hl) fun _ _ => deep_of _ _))
    | exact up (deep_map (deep_iter h fun l hl => deep_bind (deep_row ig l hl) fun _ _ => deep_map (deep_of _ _)))
    | exact up (deep_map (deep_iter h fun l hl => deep_bind (deep_table ig l hl) fun _ _ => deep_of _ _))
    | exact deep_map (deep_bind (deep_content _ ig h) fun _ _ => deep_map (deep_of _ _))
    | exact deep_map (deep_bind (deep_content _ ig h) fun _ _ => deep_bind (deep_of _ _) fun v _ => by cases v <;> exact deep_of _ _)
    | exact deep_bind (deep_docContent ig h) fun _ _ => deep_of _ _
    | exact deep_map (deep_heading _ ig h)
    | exact deep_map (deep_panel env _ ig h)

theorem deep_dispatch (env : Env) (p : List Nat) (hd : Hd) (level : Option Int) (ig : Bool) {d : Nat} {s : Slot (List TItem)}
    (h : SlotLe d s) : (dispatchT env p hd s level ig).deep ≤ d + 2 := by
  unfold dispatchT
  refine deep_if (deep_of _ _) ?_
  exact Nat.succ_le_succ (deep_body env hd level ig h)

theorem kidsOf_le {d : Nat} {s : Slot (List TItem)} (h : SlotLe d s) : KidsLe d (kidsOfT s) := by
  cases s with
  | val l =>
    intro k hk
    obtain ⟨i, hi, rfl⟩ := List.mem_map.1 hk
    exact (h i hi).1
  | _ => trivial

theorem itemLe_mono {d d' : Nat} (hd : d ≤ d') {k : TItem} (h : ItemLe d k) : ItemLe d' k := by
  refine ⟨fun l g => Nat.le_trans (h.1 l g) hd, ?_⟩
  have h2 := h.2
  cases hc : k.content with
  | val l => rw [hc] at h2; exact fun k hk l g => Nat.le_trans (h2 k hk l g) hd
  | _ => trivial

mutual
theorem item_le (env : Env) (p : List Nat) : (n : Node) → ItemLe (2 * levels n) (itemT env p n)
  | .mk hd content => by
    have hs := slot_le env p content
    rw [levels]
    refine ⟨fun l g => ?_, ?_⟩
    · have := deep_dispatch env p hd l g hs
      show (dispatchT env p hd (slotT env p content) l g).deep ≤ _
      omega
    · have hk := kidsOf_le hs
      show KidsLe _ (kidsOfT (slotT env p content))
      cases hc : kidsOfT (slotT env p content) with
      | val l => rw [hc] at hk; exact fun k hk' l g => Nat.le_trans (hk k hk' l g) (by omega)
      | _ => trivial

theorem slot_le (env : Env) (p : List Nat) : (s : Slot (List Node)) → SlotLe (2 * levelsSlot s) (slotT env p s)
  | .absent => trivial
  | .opt => trivial
  | .raw _ => trivial
  | .val l => by
    rw [levelsSlot]
    exact list_le env p 0 l

theorem list_le (env : Env) (p : List Nat) : (i : Nat) → (l : List Node) → ∀ k ∈ listT env p i l, ItemLe (2 * levelsList l) k
  | _, [] => by intro k hk; simp [listT] at hk
  | i, n :: ns => by
    intro k hk
    rw [listT, List.mem_cons] at hk
    rw [levelsList]
    rcases hk with rfl | hk
    · exact itemLe_mono (by omega) (item_le env (p ++ [i]) n)
    · exact itemLe_mono (by omega) (list_le env p (i + 1) ns k hk)
end

/-- A conversion needs at most two frames for each level of the tree. -/
theorem C104_convert (env : Env) (n : Node) (level : Option Int) (ig : Bool) : (markdownT env n level ig).deep ≤ 2 * levels n :=
  (item_le env [] n).1 level ig

end Conversion

/-! ## Parsing -/

theorem res_bind {α β : Type} (x : Fr α) (f : α → Fr β) : (x.bind f).res = x.res.bind fun a => (f a).res := by
  unfold Fr.bind
  cases x.res.out <;> rfl

theorem res_parseMark (v : Val) : (parseMarkF v).res = Res.ofExcept (parseMark v) := by
  cases v with
  | dict d =>
    simp only [parseMarkF, parseMark, Fr.frame]
    cases lookupKey d "type" with
    | none => rfl
    | some t =>
      simp only
      cases registryLookup markRegistry t with
      | error e => rfl
      | ok o => cases o <;> rfl
  | _ => rfl

theorem res_parseMarks (warn : Bool) (l : List Val) : (parseMarksF warn l).res = parseMarks warn l := by
  induction l with
  | nil => rfl
  | cons v vs ih =>
    simp only [parseMarksF, parseMarks, res_bind, Fr.skip, res_parseMark, ih]
    rfl

theorem res_marksStep (warn : Bool) (d : List (String × Val)) : (marksStepF warn d).res = marksStep warn d := by
  unfold marksStepF marksStep
  cases lookupKey d "marks" with
  | none => rfl
  | some v =>
    cases v with
    | list l => simp only [res_bind, res_parseMarks]; rfl
    | _ => rfl

theorem res_nodeFromDict (warn : Bool) (c : NodeCls) (d : List (String × Val)) (content : Fr (Option (Slot (List Node)))) :
    (nodeFromDictF warn c d content).res = nodeFromDict warn c d content.res := by
  unfold nodeFromDictF nodeFromDict
  simp only [Fr.frame, Fr.after, res_bind, res_marksStep]
  rfl

mutual
theorem res_parseNode (warn : Bool) : (v : Val) → (parseNodeF warn v).res = parseNode warn v
  | .dict d => by
    have h := res_contentStep warn d
    simp only [parseNodeF, parseNode, Fr.frame]
    cases lookupKey d "type" with
    | none => rfl
    | some t =>
      simp only
      cases registryLookup nodeRegistry t with
      | error e => rfl
      | ok o =>
        cases o with
        | none => rfl
        | some c => simp only [res_nodeFromDict, h]
  | .list _ => rfl
  | .str _ => rfl
  | .int _ => rfl
  | .float _ => rfl
  | .bool _ => rfl
  | .none => rfl
  | .opt => rfl

theorem res_contentStep (warn : Bool) : (d : List (String × Val)) → (contentStepF warn d).res = contentStep warn d
  | [] => rfl
  | (k, .list l) :: rest => by
    have h1 := res_parseNodes warn l
    have h2 := res_contentStep warn rest
    simp only [contentStepF, contentStep]
    split
    · rw [res_bind, h1]; rfl
    · exact h2
  | (k, .dict _) :: rest => by
    have h2 := res_contentStep warn rest
    simp only [contentStepF, contentStep]
    split
    · rfl
    · exact h2
  | (k, .str _) :: rest => by
    have h2 := res_contentStep warn rest
    simp only [contentStepF, contentStep]
    split
    · rfl
    · exact h2
  | (k, .int _) :: rest => by
    have h2 := res_contentStep warn rest
    simp only [contentStepF, contentStep]
    split
    · rfl
    · exact h2
  | (k, .float _) :: rest => by
    have h2 := res_contentStep warn rest
    simp only [contentStepF, contentStep]
    split
    · rfl
    · exact h2
  | (k, .bool _) :: rest => by
    have h2 := res_contentStep warn rest
    simp only [contentStepF, contentStep]
    split
    · rfl
    · exact h2
  | (k, .none) :: rest => by
    have h2 := res_contentStep warn rest
    simp only [contentStepF, contentStep]
    split
    · rfl
    · exact h2
  | (k, .opt) :: rest => by
    have h2 := res_contentStep warn rest
    simp only [contentStepF, contentStep]
    split
    · rfl
    · exact h2

theorem res_parseNodes (warn : Bool) : (l : List Val) → (parseNodesF warn l).res = parseNodes warn l
  | [] => rfl
  | v :: vs => by
    have h1 := res_parseNode warn v
    have h2 := res_parseNodes warn vs
    simp only [parseNodesF, parseNodes, res_bind, Fr.skip, h1, h2]
    rfl
end

/-- Without the count these are the functions of `Model/FromDict`. -/
theorem C104_same (warn : Bool) (v : Val) : (parseNodeF warn v).res = parseNode warn v := res_parseNode warn v

theorem fr_bind_le {α β : Type} {x : Fr α} {f : α → Fr β} {d : Nat} (hx : x.deep ≤ d) (hf : ∀ a, (f a).deep ≤ d) : (x.bind f).deep ≤ d := by
  unfold Fr.bind
  cases x.res.out with
  | error e => exact hx
  | ok a => exact Nat.max_le.2 ⟨hx, hf a⟩

theorem fr_of_le {α : Type} (x : Res α) (d : Nat) : (Fr.of x).deep ≤ d := Nat.zero_le _

theorem copyFrames_pos (v : Val) : 1 ≤ copyFrames v := by
  cases v <;> simp [copyFrames]

theorem lookup_le (k : String) (v : Val) (d : List (String × Val)) (h : lookupKey d k = some v) : copyFrames v ≤ copyDict d := by
  induction d with
  | nil => cases h
  | cons e es ih =>
    obtain ⟨k', w⟩ := e
    rw [copyDict]
    rw [lookupKey] at h
    split at h
    · cases h
      omega
    · have := ih h
      omega

theorem mark_le (v : Val) : (parseMarkF v).deep ≤ copyFrames v + 2 := by
  have h1 : ∀ {α : Type} (x : Res α), (Fr.of x).frame.deep ≤ copyFrames v + 2 := fun x => by
    show 0 + 1 ≤ _
    omega
  cases v with
  | dict d =>
    simp only [parseMarkF]
    cases lookupKey d "type" with
    | none => exact h1 _
    | some t =>
      simp only
      cases registryLookup markRegistry t with
      | error e => exact h1 _
      | ok o =>
        cases o with
        | none => exact h1 _
        | some c => simp [Fr.frame, Fr.after, Fr.of]
  | _ => exact h1 _

theorem marks_le (warn : Bool) (l : List Val) : (parseMarksF warn l).deep ≤ copyList l + 2 := by
  induction l with
  | nil => exact fr_of_le _ _
  | cons v vs ih =>
    have := mark_le v
    rw [copyList]
    refine fr_bind_le ?_ fun _ => fr_bind_le ?_ fun _ => fr_of_le _ _
    · show (parseMarkF v).deep ≤ _
      omega
    · omega

theorem marksStep_le (warn : Bool) (d : List (String × Val)) : (marksStepF warn d).deep ≤ copyDict d := by
  unfold marksStepF
  cases h : lookupKey d "marks" with
  | none => exact fr_of_le _ _
  | some v =>
    have hv := lookup_le _ _ _ h
    cases v with
    | list l => exact fr_bind_le (Nat.le_trans (marks_le warn l) hv) fun _ => fr_of_le _ _
    | _ => exact fr_of_le _ _

theorem nodeFromDict_le (warn : Bool) (c : NodeCls) (d : List (String × Val)) (content : Fr (Option (Slot (List Node))))
    (h : content.deep ≤ copyDict d) : (nodeFromDictF warn c d content).deep ≤ copyDict d + 3 := by
  unfold nodeFromDictF
  refine Nat.succ_le_succ (Nat.max_le.2 ⟨Nat.le_refl _, ?_⟩)
  exact fr_bind_le (fr_of_le _ _) fun _ => fr_bind_le (by omega) fun _ =>
    fr_bind_le (Nat.le_trans (marksStep_le warn d) (by omega)) fun _ => fr_bind_le (fr_of_le _ _) fun _ => fr_of_le _ _

mutual
theorem node_le (warn : Bool) : (v : Val) → (parseNodeF warn v).deep ≤ copyFrames v + 2
  | .dict d => by
    have h := nodeFromDict_le warn
    have hc := content_le warn d
    have h1 : ∀ {α : Type} (x : Res α), (Fr.of x).frame.deep ≤ copyFrames (.dict d) + 2 := fun x => by
      show 0 + 1 ≤ _
      omega
    simp only [parseNodeF]
    cases lookupKey d "type" with
    | none => exact h1 _
    | some t =>
      simp only
      cases registryLookup nodeRegistry t with
      | error e => exact h1 _
      | ok o =>
        cases o with
        | none => exact h1 _
        | some c =>
          have := h c d _ hc
          show (nodeFromDictF warn c d (contentStepF warn d)).deep + 1 ≤ _
          rw [copyFrames]
          omega
  | .list _ => by simp [parseNodeF, Fr.frame, Fr.of]
  | .str _ => by simp [parseNodeF, Fr.frame, Fr.of]
  | .int _ => by simp [parseNodeF, Fr.frame, Fr.of]
  | .float _ => by simp [parseNodeF, Fr.frame, Fr.of]
  | .bool _ => by simp [parseNodeF, Fr.frame, Fr.of]
  | .none => by simp [parseNodeF, Fr.frame, Fr.of]
  | .opt => by simp [parseNodeF, Fr.frame, Fr.of]

theorem content_le (warn : Bool) : (d : List (String × Val)) → (contentStepF warn d).deep ≤ copyDict d
  | [] => by simp [contentStepF, Fr.of]
  | (k, v) :: rest => by
    have h2 := content_le warn rest
    have h3 : (contentStepF warn rest).deep ≤ copyDict ((k, v) :: rest) := by rw [copyDict]; omega
    cases v with
    | list l =>
      have h1 := nodes_le warn l
      simp only [contentStepF]
      split
      · refine fr_bind_le ?_ fun _ => fr_of_le _ _
        rw [copyDict, copyFrames]
        omega
      · exact h3
    | _ =>
      simp only [contentStepF]
      split
      · exact fr_of_le _ _
      · exact h3

theorem nodes_le (warn : Bool) : (l : List Val) → (parseNodesF warn l).deep ≤ copyList l + 2
  | [] => by simp [parseNodesF, Fr.of]
  | v :: vs => by
    have h1 := node_le warn v
    have h2 := nodes_le warn vs
    rw [parseNodesF, copyList]
    refine fr_bind_le ?_ fun _ => fr_bind_le ?_ fun _ => fr_of_le _ _
    · show (parseNodeF warn v).deep ≤ _
      omega
    · omega
end

theorem node_ge (warn : Bool) (v : Val) (n : Node) (h : (parseNode warn v).out = .ok n) : copyFrames v + 2 ≤ (parseNodeF warn v).deep := by
  cases v with
  | dict d =>
    simp only [parseNode] at h
    simp only [parseNodeF]
    cases ht : lookupKey d "type" with
    | none => rw [ht] at h; cases h
    | some t =>
      rw [ht] at h
      simp only at h ⊢
      cases hr : registryLookup nodeRegistry t with
      | error e => rw [hr] at h; cases h
      | ok o =>
        cases o with
        | none => rw [hr] at h; cases h
        | some c => exact Nat.succ_le_succ (Nat.succ_le_succ (Nat.le_max_left _ _))
  | _ => cases h

/-! ## The tree is not deeper than the JSON -/

theorem levels_slotOf (fs : List Field) (o : Option (Slot (List Node))) (b : Nat)
    (h : ∀ s, o = some s → levelsSlot s ≤ b) : levelsSlot (slotOf fs "content" o) ≤ b := by
  unfold slotOf
  cases fieldDflt fs "content" with
  | none => exact Nat.zero_le _
  | some dflt =>
    cases o with
    | some s => exact h s rfl
    | none => cases dflt <;> exact Nat.zero_le _

theorem res_bind_ok {α β : Type} {x : Res α} {f : α → Res β} {b : β} (h : (x.bind f).out = .ok b) :
    ∃ a, x.out = .ok a ∧ (f a).out = .ok b := by
  unfold Res.bind at h
  cases hx : x.out with
  | error e => rw [hx] at h; cases h
  | ok a => rw [hx] at h; exact ⟨a, rfl, h⟩

theorem levels_rawSlot (v : Val) : levelsSlot (rawSlot v) = 0 := by
  cases v <;> rfl

mutual
theorem levels_node (warn : Bool) : (v : Val) → ∀ n, (parseNode warn v).out = .ok n → 4 * levels n ≤ copyFrames v + 1
  | .dict d => by
    intro n h
    have hc := levels_content warn d
    simp only [parseNode] at h
    cases ht : lookupKey d "type" with
    | none => rw [ht] at h; cases h
    | some t =>
      have hpos : 1 ≤ copyDict d := Nat.le_trans (copyFrames_pos t) (lookup_le _ _ _ ht)
      rw [ht] at h
      simp only at h
      cases hr : registryLookup nodeRegistry t with
      | error e => rw [hr] at h; cases h
      | ok o =>
        cases o with
        | none => rw [hr] at h; cases h
        | some c =>
          rw [hr] at h
          simp only [nodeFromDict] at h
          obtain ⟨attrs, _, h⟩ := res_bind_ok h
          obtain ⟨content, h0, h⟩ := res_bind_ok h
          obtain ⟨marks, _, h⟩ := res_bind_ok h
          obtain ⟨_, _, h⟩ := res_bind_ok h
          cases h
          rw [levels, copyFrames]
          have := levels_slotOf c.fields content ((copyDict d - 1) / 4) fun s hs => by
            have := hc s (by rw [h0, hs])
            omega
          omega
  | .list _ => by intro n h; cases h
  | .str _ => by intro n h; cases h
  | .int _ => by intro n h; cases h
  | .float _ => by intro n h; cases h
  | .bool _ => by intro n h; cases h
  | .none => by intro n h; cases h
  | .opt => by intro n h; cases h

theorem levels_content (warn : Bool) : (d : List (String × Val)) → ∀ s, (contentStep warn d).out = .ok (some s) →
    4 * levelsSlot s + 1 ≤ copyDict d
  | [] => by intro s h; cases h
  | (k, v) :: rest => by
    intro s
    have h2 := levels_content warn rest s
    have hp := copyFrames_pos v
    rw [copyDict]
    cases v with
    | list l =>
      have h1 := levels_nodes warn l
      simp only [contentStep]
      split
      · intro h
        obtain ⟨ns, h3, h4⟩ := res_bind_ok h
        cases h4
        have := h1 ns h3
        rw [levelsSlot, copyFrames]
        omega
      · intro h
        have := h2 h
        omega
    | _ =>
      simp only [contentStep]
      split
      · intro h
        cases h
        rw [levels_rawSlot]
        omega
      · intro h
        have := h2 h
        omega

theorem levels_nodes (warn : Bool) : (l : List Val) → ∀ ns, (parseNodes warn l).out = .ok ns → 4 * levelsList ns ≤ copyList l + 1
  | [] => by intro ns h; cases h; simp [levelsList]
  | v :: vs => by
    intro ns h
    have h1 := levels_node warn v
    have h2 := levels_nodes warn vs
    simp only [parseNodes] at h
    obtain ⟨o, h3, h⟩ := res_bind_ok h
    obtain ⟨ms, h4, h⟩ := res_bind_ok h
    cases h
    have h5 := h2 ms h4
    rw [copyList]
    cases o with
    | none =>
      show 4 * levelsList ms ≤ _
      omega
    | some n =>
      have h6 : (parseNode warn v).out = .ok n := by
        unfold Res.skipUnimplemented at h3
        cases hx : (parseNode warn v).out with
        | ok a => rw [hx] at h3; cases h3; rfl
        | error e => rw [hx] at h3; cases e <;> cases h3
      have h7 := h1 n h6
      show 4 * max (levels n) (levelsList ms) ≤ _
      omega
end

/-- The frames parsing needs are the frames of copying the JSON once, and two. -/
theorem C104_parse (warn : Bool) (v : Val) : (parseNodeF warn v).deep ≤ copyFrames v + 2 ∧
    ∀ n, (parseNode warn v).out = .ok n → (parseNodeF warn v).deep = copyFrames v + 2 :=
  ⟨node_le warn v, fun n h => Nat.le_antisymm (node_le warn v) (node_ge warn v n h)⟩

/-- A document that was parsed is converted with less than half of the frames parsing it needed, strict or lenient. -/
theorem C104_half (env : Env) (warn : Bool) (v : Val) (n : Node) (h : (parseNode warn v).out = .ok n) (level : Option Int) (ig : Bool) :
    2 * (Trace.markdownT env n level ig).deep < (parseNodeF warn v).deep := by
  have h1 := C104_convert env n level ig
  have h2 := levels_node warn v n h
  have h3 := node_ge warn v n h
  omega

/-! ## The bounds are attained -/

theorem copy_inQuotes (k : Nat) : copyFrames (inQuotes k) = 4 * k + 3 := by
  induction k with
  | zero => rfl
  | succ k ih =>
    simp only [inQuotes, copyFrames, copyDict, copyList, ih]
    omega

theorem deep_quote_ge (env : Env) (p : List Nat) (k : Nat) : 2 * k + 2 ≤ ((Trace.itemT env p (quotesNode k)).render none false).deep := by
  induction k generalizing p with
  | zero => exact Nat.le_refl _
  | succ k ih =>
    have h := ih (p ++ [0])
    have h2 : ((Trace.itemT env (p ++ [0]) (quotesNode k)).render none false).deep ≤
        (Trace.docBlockT (Trace.itemT env (p ++ [0]) (quotesNode k))).deep := by
      cases k with
      | zero => exact Nat.le_max_right _ _
      | succ k => exact Nat.le_max_right _ _
    have h3 : (Trace.docBlockT (Trace.itemT env (p ++ [0]) (quotesNode k))).deep ≤
        (Trace.collectT false Trace.docBlockT [Trace.itemT env (p ++ [0]) (quotesNode k)]).deep := by
      refine Nat.le_trans ?_ (Nat.le_max_right _ _)
      show _ ≤ ((Trace.docBlockT _).tryElse _ _).deep
      unfold Trace.Tr.tryElse
      cases (Trace.docBlockT (Trace.itemT env (p ++ [0]) (quotesNode k))).out <;> exact Nat.le_max_left _ _
    have ge : ∀ {α β : Type} (x : Trace.Tr α) (f : α → Trace.Tr β), x.deep ≤ (x.bind f).deep := by
      intro α β x f
      unfold Trace.Tr.bind
      cases x.out with
      | error e => exact Nat.le_refl _
      | ok a => exact Nat.le_max_left _ _
    have h4 : (Trace.collectT false Trace.docBlockT [Trace.itemT env (p ++ [0]) (quotesNode k)]).deep ≤
        (Trace.docContentBodyT false (.val [Trace.itemT env (p ++ [0]) (quotesNode k)])).deep :=
      Nat.le_trans (ge _ _) (Nat.le_max_right _ _)
    have h5 : (Trace.docContentBodyT false (.val [Trace.itemT env (p ++ [0]) (quotesNode k)])).deep + 2 ≤
        ((Trace.itemT env p (quotesNode (k + 1))).render none false).deep :=
      Nat.succ_le_succ (Nat.le_trans (ge (Trace.docContentToMarkdownT false (.val [Trace.itemT env (p ++ [0]) (quotesNode k)])) _) (ge _ _))
    omega

theorem levels_quotes (k : Nat) : levels (quotesNode k) = k + 1 := by
  induction k with
  | zero => rfl
  | succ k ih => simp [quotesNode, levels, levelsSlot, levelsList, ih]

/-- A paragraph inside `k` blockquotes: parsing needs `4 k + 5` frames, converting `2 k + 2`. -/
theorem C104_attained (env : Env) (warn : Bool) (k : Nat) :
    (parseNode warn (inQuotes k)).out = .ok (quotesNode k) ∧ (parseNodeF warn (inQuotes k)).deep = 4 * k + 5 ∧
      (Trace.markdownT env (quotesNode k) none false).deep = 2 * k + 2 := by
  have hp : (parseNode warn (inQuotes k)).out = .ok (quotesNode k) := by rw [quotesNode_parsed]; rfl
  refine ⟨hp, ?_, ?_⟩
  · rw [(C104_parse warn _).2 _ hp, copy_inQuotes]
  · refine Nat.le_antisymm ?_ (deep_quote_ge env [] k)
    have := C104_convert env (quotesNode k) none false
    rw [levels_quotes] at this
    omega

mutual
theorem copy_depth : (v : Val) → copyFrames v ≤ 2 * Spec.depth v
  | .list l => by have := copyList_depth l; rw [copyFrames, Spec.depth]; omega
  | .dict d => by have := copyDict_depth d; rw [copyFrames, Spec.depth]; omega
  | .str _ => by simp [copyFrames, Spec.depth]
  | .int _ => by simp [copyFrames, Spec.depth]
  | .float _ => by simp [copyFrames, Spec.depth]
  | .bool _ => by simp [copyFrames, Spec.depth]
  | .none => by simp [copyFrames, Spec.depth]
  | .opt => by simp [copyFrames, Spec.depth]

theorem copyList_depth : (l : List Val) → copyList l ≤ 2 * Spec.depthList l
  | [] => by simp [copyList, Spec.depthList]
  | v :: vs => by
    have := copy_depth v
    have := copyList_depth vs
    rw [copyList, Spec.depthList]
    omega

theorem copyDict_depth : (d : List (String × Val)) → copyDict d ≤ 2 * Spec.depthDict d
  | [] => by simp [copyDict, Spec.depthDict]
  | (_, v) :: d => by
    have := copy_depth v
    have := copyDict_depth d
    have : 1 ≤ Spec.depth v := by cases v <;> simp [Spec.depth]
    rw [copyDict, Spec.depthDict]
    omega
end

/-- Parsing needs at most two frames for each level of lists and dicts of the JSON, and two. -/
theorem C104_linear (warn : Bool) (v : Val) : (parseNodeF warn v).deep ≤ 2 * Spec.depth v + 2 :=
  Nat.le_trans (C104_parse warn v).1 (Nat.succ_le_succ (Nat.succ_le_succ (copy_depth v)))

/-! ## With the stack parsing had, no conversion is cut short -/

theorem place_levels {n : Node} {p : List Nat} (h : Place n p) : p.length < levels n := by
  induction h with
  | root n => cases n; simp [levels]
  | @child hd l i n p hi _ ih =>
    have key : ∀ (l : List Node) (i : Nat), l[i]? = some n → levels n ≤ levelsList l := by
      intro l
      induction l with
      | nil => intro i hi; simp at hi
      | cons a as ih =>
        intro i hi
        cases i with
        | zero => simp at hi; subst hi; exact Nat.le_max_left _ _
        | succ i => exact Nat.le_trans (ih i (by simpa using hi)) (Nat.le_max_right _ _)
    have := key l i hi
    simp only [levels, levelsSlot, List.length_cons]
    omega

/-- `room` frames were enough to parse the document.  Then they are enough to convert it: the exception (`RecursionError`) a call at a place
with more than `room` frames would raise is raised nowhere, so that lenient mode has nothing to hide (compare C87). -/
theorem C104_no_overflow (env : Env) (warn : Bool) (v : Val) (n : Node) (h : (parseNode warn v).out = .ok n) (room : Nat)
    (hroom : (parseNodeF warn v).deep ≤ room) (e : PyErr) (level : Option Int) (ig : Bool) :
    n.cutMarkdownAt env e (fun p => decide (room < 2 * p.length + 1)) level ig = n.toMarkdownAt env level ig := by
  refine C86_undisturbed env e _ n (fun p hp => ?_) level ig
  have h1 := place_levels hp
  have h2 := levels_node warn v n h
  have h3 := node_ge warn v n h
  simp only [decide_eq_false_iff_not]
  omega

/-! ## Examples -/

example : copyFrames deepJson = 15 := by decide +kernel

example : (Trace.markdownT Samples.env (Samples.parse deepJson) none false).deep = 7 := by decide +kernel

example (ig : Bool) := C104_half Samples.env true (inQuotes 3) (quotesNode 3) (C104_attained Samples.env true 3).1 none ig

example (e : PyErr) (ig : Bool) := C104_no_overflow Samples.env true (inQuotes 3) (quotesNode 3) (C104_attained Samples.env true 3).1 17
  (Nat.le_of_eq (C104_attained Samples.env true 3).2.1) e none ig

end Verif.Stack
