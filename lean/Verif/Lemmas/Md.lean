import Verif.Spec.Md
import Verif.Lemmas.Chars
import Verif.Props.RoundTrip
/-!
# Basic facts about the Markdown renderers
-/

namespace Verif
open Spec

theorem listItems_eq (env : Env) (l : List Node) : listItems env l = l.map (Node.item env) := by
  induction l with
  | nil => rfl
  | cons n ns ih => rw [listItems, ih]; rfl

@[simp] theorem slotItems_val (env : Env) (l : List Node) :
    slotItems env (.val l) = .val (l.map (Node.item env)) := by
  rw [slotItems, listItems_eq]

@[simp] theorem slotItems_opt (env : Env) : slotItems env .opt = .opt := rfl
@[simp] theorem slotItems_absent (env : Env) : slotItems env .absent = .absent := rfl
@[simp] theorem slotItems_raw (env : Env) (v : Val) : slotItems env (.raw v) = .raw v := rfl

theorem item_render (env : Env) (n : Node) (l : Option Int) (ig : Bool) :
    (n.item env).render l ig = n.toMarkdownAt env l ig := rfl

theorem item_isNode (env : Env) (n : Node) : (n.item env).isNode = true := by cases n; rfl
theorem item_type (env : Env) (n : Node) : (n.item env).type = n.hd.type := by cases n; rfl
theorem item_attrs (env : Env) (n : Node) : (n.item env).attrs = n.hd.attrs := by cases n; rfl
theorem item_content (env : Env) (n : Node) :
    (n.item env).content = kidsOf (slotItems env n.content) := by cases n; rfl

theorem toMarkdownAt_eq (env : Env) (n : Node) (l : Option Int) (ig : Bool) :
    n.toMarkdownAt env l ig = dispatch env n.hd (slotItems env n.content) l ig := by cases n; rfl

theorem toMarkdown_eq (env : Env) (n : Node) (ig : Bool) :
    n.toMarkdown env ig = dispatch env n.hd (slotItems env n.content) none ig := by cases n; rfl

/-! ## types -/

theorem hasType_iff (n : Node) : HasType n ↔ n.hd.type = .str n.cls.typeEnum.value.toList := by
  constructor
  · rintro ⟨name, hm, ht⟩
    rw [ht]
    revert hm
    generalize n.cls = c
    intro hm
    simp only [nodeTypes, List.mem_cons, Prod.mk.injEq, List.not_mem_nil, or_false] at hm
    rcases hm with h | h | h | h | h | h | h | h | h | h | h | h | h | h | h | h | h | h | h | h |
      h | h | h | h | h | h | h | h | h | h | h | h | h | h | h <;> (obtain ⟨rfl, rfl⟩ := h; rfl)
  · intro h
    exact ⟨_, (nodeRegistry_spec _ _).mp n.cls.registered, h⟩

theorem value_inj {a b : TypeEnum} (h : a.value = b.value) : a = b := by
  revert h; cases a <;> cases b <;> decide

theorem isTypeOf_iff {n : Node} (h : HasType n) (ts : List TypeEnum) :
    isTypeOf n.hd.type ts = true ↔ n.cls.typeEnum ∈ ts := by
  rw [Props.C14_is_type_of, (hasType_iff n).mp h]
  constructor
  · rintro ⟨te, hm, he⟩
    simp only [Val.str.injEq] at he
    rw [value_inj (String.toList_inj.mp he)]; exact hm
  · intro hm; exact ⟨_, hm, rfl⟩

theorem item_isTypeOf (env : Env) {n : Node} (h : HasType n) (ts : List TypeEnum) :
    (n.item env).toKid.isTypeOf ts = .ok (decide (n.cls.typeEnum ∈ ts)) := by
  unfold Kid.isTypeOf
  rw [item_isNode, item_type, if_pos rfl]
  congr 1
  rw [Bool.eq_iff_iff, isTypeOf_iff h]
  simp

theorem parsed_hasType {n : Node} (h : Parsed n) : HasType n := by
  obtain ⟨w, v, h⟩ := h
  obtain ⟨name, _, hm, ht, _⟩ := Props.C03_parse_node_class w v n h
  exact ⟨name, hm, ht⟩

/-- Children of anything `from_dict` returns were returned by `parse_node`. -/
theorem kids_parsed {w : Bool} {c : NodeCls} {v : Val} {n : Node}
    (h : (c.fromDict w v).out = .ok n) {kids : List Node} (hc : n.content = .val kids) :
    ∀ k ∈ kids, Parsed k := by
  intro k hk
  cases v with
  | dict d =>
    obtain ⟨l, _, hp⟩ := Props.fromDict_child h hc
    obtain ⟨v, _, hv⟩ := parseNodes_mem hp hk
    exact ⟨w, v, hv⟩
  | _ => simp [NodeCls.fromDict, Res.err] at h

theorem parsed_kids {n : Node} (h : Parsed n) {kids : List Node} (hc : n.content = .val kids) :
    ∀ k ∈ kids, Parsed k := by
  obtain ⟨w, v, h⟩ := h
  obtain ⟨d, t, rfl, ht, hr, hm⟩ := parseNode_ok h
  exact kids_parsed (c := n.cls) (v := .dict d) hm hc

/-! ## joins -/

theorem strJoin_str (sep : Str) (l : List Str) : strJoin sep (l.map .str) = .ok (Str.join sep l) := by
  unfold strJoin
  rw [if_pos (by simp [Val.asStr?])]
  congr 2
  induction l with
  | nil => rfl
  | cons a l ih => simp [Val.asStr?] at ih ⊢; exact ih

theorem strJoin_ok {sep : Str} {l : List Val} {s : Str} (h : strJoin sep l = .ok s) :
    ∃ l', l = l'.map .str ∧ s = Str.join sep l' := by
  unfold strJoin at h
  split at h
  · next ha =>
    refine ⟨l.filterMap Val.asStr?, ?_, (Except.ok.inj h).symm⟩
    clear h
    induction l with
    | nil => rfl
    | cons a l ih =>
      simp only [List.all_cons, Bool.and_eq_true] at ha
      have := ih ha.2
      cases a with
      | str t => rw [List.filterMap_cons_some (f := Val.asStr?) (b := t) rfl, List.map_cons, ← this]
      | _ => simp [Val.asStr?] at ha
  · simp at h

theorem strJoin_isOk_iff (sep : Str) (l : List Val) :
    (∃ s, strJoin sep l = .ok s) ↔ ∀ v ∈ l, ∃ s, v = .str s := by
  constructor
  · rintro ⟨s, h⟩ v hv
    obtain ⟨l', rfl, _⟩ := strJoin_ok h
    obtain ⟨s', _, rfl⟩ := List.mem_map.mp hv
    exact ⟨s', rfl⟩
  · intro h
    refine ⟨Str.join sep (l.filterMap Val.asStr?), ?_⟩
    unfold strJoin
    rw [if_pos]
    simp only [List.all_eq_true]
    intro v hv
    obtain ⟨s, rfl⟩ := h v hv
    rfl

/-! ## the shared loops -/

theorem collectPre_eq {α β γ : Type} (ig : Bool) (pre : α → Except PyErr γ) (g : α → γ)
    (f : γ → α → Except PyErr β) (l : List α) (h : ∀ a ∈ l, pre a = .ok (g a)) :
    collectPre ig pre f l = collect ig (fun a => f (g a) a) l := by
  unfold collect
  induction l with
  | nil => rfl
  | cons a l ih =>
    rw [collectPre, collectPre, h a (by simp), ih (fun a ha => h a (by simp [ha]))]

theorem collect_nil {α β : Type} (ig : Bool) (f : α → Except PyErr β) : collect ig f [] = .ok [] :=
  rfl

theorem collect_cons {α β : Type} (ig : Bool) (f : α → Except PyErr β) (a : α) (l : List α) :
    collect ig f (a :: l) =
      match f a with
      | .ok b => (match collect ig f l with | .error e => .error e | .ok bs => .ok (b :: bs))
      | .error e => if ig then collect ig f l else .error e := rfl

theorem collect_map {α β γ : Type} (ig : Bool) (f : β → Except PyErr γ) (g : α → β) (l : List α) :
    collect ig f (l.map g) = collect ig (fun a => f (g a)) l := by
  induction l with
  | nil => rfl
  | cons a l ih => rw [List.map_cons, collect_cons, collect_cons, ih]

theorem collect_congr {α β : Type} (ig : Bool) {f g : α → Except PyErr β} {l : List α}
    (h : ∀ a ∈ l, f a = g a) : collect ig f l = collect ig g l := by
  induction l with
  | nil => rfl
  | cons a l ih =>
    rw [collect_cons, collect_cons, h a (by simp), ih (fun a ha => h a (by simp [ha]))]

/-- Lenient loop: total, keeps the successes. -/
theorem collect_true {α β : Type} (f : α → Except PyErr β) (l : List α) :
    collect true f l = .ok (l.filterMap fun a => (f a).toOption) := by
  induction l with
  | nil => rfl
  | cons a l ih =>
    rw [collect_cons, ih]
    cases h : f a with
    | ok b => simp [h, Except.toOption]
    | error e => simp [h, Except.toOption]

theorem collect_false {α β : Type} (f : α → Except PyErr β) (l : List α) (bs : List β) :
    collect false f l = .ok bs ↔ List.Forall₂ (fun a b => f a = .ok b) l bs := by
  induction l generalizing bs with
  | nil =>
    rw [collect_nil]
    constructor
    · intro h; cases h; exact .nil
    · intro h; cases h; rfl
  | cons a l ih =>
    rw [collect_cons]
    constructor
    · intro h
      cases hf : f a with
      | error e => rw [hf] at h; simp at h
      | ok b =>
        rw [hf] at h
        simp only at h
        cases hl : collect false f l with
        | error e => rw [hl] at h; simp at h
        | ok bs' => rw [hl] at h; cases h; exact .cons hf ((ih bs').mp hl)
    · intro h
      cases h with
      | cons h1 h2 => rw [h1, (ih _).mpr h2]

/-- Strict success carries over to lenient mode. -/
theorem collect_mono {α β : Type} {f : α → Except PyErr β} {l : List α} {bs : List β}
    (h : collect false f l = .ok bs) (ig : Bool) : collect ig f l = .ok bs := by
  induction l generalizing bs with
  | nil => exact h
  | cons a l ih =>
    rw [collect_cons] at h ⊢
    cases hf : f a with
    | error e => rw [hf] at h; simp at h
    | ok b =>
      rw [hf] at h
      simp only at h ⊢
      cases hl : collect false f l with
      | error e => rw [hl] at h; simp at h
      | ok bs' => rw [hl] at h; rw [ih hl]; exact h

/-- Lenient = strict on the elements that succeed. -/
theorem collect_filter {α β : Type} (f : α → Except PyErr β) (l : List α) :
    collect true f l = collect false f (l.filter fun a => (f a).toOption.isSome) := by
  induction l with
  | nil => rfl
  | cons a l ih =>
    rw [collect_cons, ih]
    cases h : f a with
    | ok b =>
      rw [List.filter_cons_of_pos (by simp [h, Except.toOption]), collect_cons, h]
    | error e =>
      rw [List.filter_cons_of_neg (by simp [h, Except.toOption])]; simp

theorem content_val (env : Env) (sep : Str) (ig : Bool) (kids : List Node) :
    contentToMarkdown sep ig (slotItems env (.val kids)) =
      match collect ig (fun (k : Node) => k.toMarkdown env false) kids with
      | .error e => .error e
      | .ok l => strJoin sep l := by
  rw [slotItems_val]
  unfold contentToMarkdown
  simp only [iterSlot]
  rw [collect_map]
  rfl

/-- The `try` body of the document loop on a node. -/
def docBlockOf (env : Env) (n : Node) : Except PyErr Val := docBlock (n.item env)

theorem docBlockOf_eq (env : Env) {n : Node} (h : HasType n) :
    docBlockOf env n =
      if n.cls.typeEnum ∈ [TypeEnum.bulletList, .orderedList, .codeBlock] then
        (match n.toMarkdown env false with
         | .error e => .error e
         | .ok md => padNewlines md)
      else n.toMarkdown env false := by
  unfold docBlockOf docBlock
  rw [item_isTypeOf env h]
  by_cases hc : n.cls.typeEnum ∈ [TypeEnum.bulletList, .orderedList, .codeBlock]
  · rw [if_pos hc]; simp only [hc, decide_true]; rfl
  · rw [if_neg hc]; simp only [hc, decide_false]; rfl

theorem docContent_val (env : Env) (ig : Bool) (kids : List Node) :
    docContentToMarkdown ig (slotItems env (.val kids)) =
      match collect ig (docBlockOf env) kids with
      | .error e => .error e
      | .ok l =>
        (match strJoin ['\n'] l with
         | .error e => .error e
         | .ok s => .ok (stripDoubleEmptyLine 3 s)) := by
  rw [slotItems_val]
  unfold docContentToMarkdown
  simp only [iterSlot]
  rw [collect_map]
  rfl

/-! ## results are strings -/

theorem wrap_str {pre post s : Str} {v : Val} (h : wrapNonBlank pre post (.str s) = .ok v) :
    ∃ s', v = .str s' := by
  simp only [wrapNonBlank] at h
  split at h <;> exact ⟨_, (Except.ok.inj h).symm⟩

theorem markMd_str (env : Env) (m : Mark) (s : Str) (v : Val)
    (h : m.toMarkdown env (.str s) = .ok v) : ∃ s', v = .str s' := by
  unfold Mark.toMarkdown at h
  split at h
  · exact wrap_str h
  · exact wrap_str h
  · exact wrap_str h
  · split at h
    · simp at h
    · simp at h
    · exact wrap_str h
  · split at h
    · simp at h
    · split at h
      · simp at h
      · simp only [Except.ok.injEq] at h; exact ⟨_, h.symm⟩
  · split at h
    · simp at h
    · split at h
      · simp only [Except.ok.injEq] at h; exact ⟨_, h.symm⟩
      · simp at h
  · simp at h; exact ⟨_, h.symm⟩

theorem applyMarks_str (env : Env) (ms : List Mark) (s : Str) (v : Val)
    (h : applyMarks env (.str s) ms = .ok v) : ∃ s', v = .str s' := by
  induction ms generalizing s with
  | nil => simp [applyMarks] at h; exact ⟨_, h.symm⟩
  | cons m ms ih =>
    rw [applyMarks] at h
    cases hm : m.toMarkdown env (.str s) with
    | ok v' =>
      rw [hm] at h
      obtain ⟨s', rfl⟩ := markMd_str env m s v' hm
      exact ih s' h
    | error e =>
      rw [hm] at h
      cases e <;> simp at h
      exact ⟨_, h.symm⟩

theorem addStyle_str (env : Env) (marks : Slot (List Mark)) (s : Str) (v : Val)
    (h : addStyle env (.str s) marks = .ok v) : ∃ s', v = .str s' := by
  unfold addStyle at h
  split at h
  · exact applyMarks_str env _ s v h
  · simp at h; exact ⟨_, h.symm⟩

theorem strVal_str {x : Except PyErr Str} {v : Val} (h : strVal x = .ok v) :
    ∃ s, x = .ok s ∧ v = .str s := by
  unfold strVal at h
  split at h
  · simp at h
  · simp at h; exact ⟨_, rfl, h.symm⟩

theorem dispatch_str (env : Env) (hd : Hd) (c : Slot (List Item)) (l : Option Int) (ig : Bool)
    (v : Val) (h : dispatch env hd c l ig = .ok v)
    (ht : hd.cls = .text → ∃ s, hd.text = some (.str s)) : ∃ s, v = .str s := by
  have hsv : ∀ x, strVal x = .ok v → ∃ s, v = .str s := fun x hx => by
    obtain ⟨s, _, h2⟩ := strVal_str hx; exact ⟨s, h2⟩
  have hlit : ∀ s, (Except.ok (Val.str s) : Except PyErr Val) = .ok v → ∃ s, v = .str s :=
    fun s hs => ⟨s, (Except.ok.inj hs).symm⟩
  unfold dispatch at h
  split at h
  · simp at h
  · split at h
    case h_2 hc =>
      obtain ⟨s, hs⟩ := ht hc
      rw [hs] at h
      exact addStyle_str env _ s v h
    case h_14 =>
      split at h
      · simp at h
      · unfold Date.render at h
        split at h
        · simp at h
        · split at h
          · simp at h
          · exact hlit _ h
    case h_21 =>
      unfold mediaMd at h
      repeat' split at h
      all_goals first
        | (simp at h; done)
        | exact addStyle_str env _ _ v h
        | exact hlit _ h
    case h_30 =>
      unfold expandMd at h
      split at h
      · simp at h
      · exact addStyle_str env _ _ v h
    all_goals first
      | exact hsv _ h
      | exact hlit _ h

theorem toMarkdownAt_str (env : Env) (n : Node) (ht : TextIsStr n) (l : Option Int) (ig : Bool)
    (v : Val) (h : n.toMarkdownAt env l ig = .ok v) : ∃ s, v = .str s := by
  rw [toMarkdownAt_eq] at h
  exact dispatch_str env _ _ _ _ _ h ht

end Verif
