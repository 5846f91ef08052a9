import Verif.Lemmas.HeapCostLow
import Verif.Lemmas.HeapOutCost
/-!
# How many objects `to_dict` creates at least: nested blockquotes
-/

namespace Verif
open Verif.Spec

theorem fin_tree : ∀ {n : Nat} {h : Heap} {x : HV}, Fin n h x ↔ TreeOf n h x
  | 0, h, .imm i => ⟨fun _ => trivial, fun _ => trivial⟩
  | n + 1, h, .imm i => ⟨fun _ => trivial, fun _ => trivial⟩
  | 0, h, .ref a => Iff.rfl
  | n + 1, h, .ref a => by
    constructor
    · rintro ⟨o, ho, he⟩; exact ⟨o, ho, fun e h => fin_tree.mp (he e h)⟩
    · rintro ⟨o, ho, he⟩; exact ⟨o, ho, fun e h => fin_tree.mpr (he e h)⟩

mutual
theorem asdict_least {S : Heap} (fuel : Nat) (x : HV) (s : St) (hx : TreeOf fuel S x) (hs : Has S s) :
    Least (asdictH fuel x) s (treeSize fuel S x) := by
  match fuel, x with
  | fuel, .imm i =>
    rw [asdictH]
    have : treeSize fuel S (.imm i) = 0 := by cases fuel <;> rfl
    rw [this]; exact Grows.pure _ _
  | 0, .ref a => exact absurd hx (by simp [TreeOf])
  | fuel + 1, .ref a =>
    obtain ⟨o, ho, he⟩ := hx
    rw [asdictH, treeSize_ref ho]
    refine (Least.bind (k := 0) (k' := itemsSize fuel S o.items + 1) (s' := s) (a := o) (by unfold HM.read; rw [hs a o ho])
      (Grows.read _ _) ?_).mono (by omega)
    obtain ⟨items', s', h1, _, _⟩ := asdictItems_ok (asdict_ok S fuel) o.items s.heap.length s (fun e h => fin_tree.mpr (he e h)) hs (Nat.le_refl _)
    refine Least.bind h1 (asdictItems_least fuel o.items s he hs) ?_
    refine Least.then ?_ fun _ => .pure _
    unfold Least HM.alloc
    simp
termination_by (fuel, 0)

theorem asdictItems_least {S : Heap} (fuel : Nat) (items : List (String × HV)) (s : St)
    (hx : ∀ e ∈ items, TreeOf fuel S e.2) (hs : Has S s) : Least (asdictItems fuel items) s (itemsSize fuel S items) := by
  match items with
  | [] => rw [asdictItems]; exact Grows.pure _ _
  | (k, v) :: rest =>
    rw [asdictItems]
    have hv := hx _ List.mem_cons_self
    obtain ⟨r, s', h1, g1, _⟩ := asdict_ok S fuel v s.heap.length s (fin_tree.mpr hv) hs (Nat.le_refl _)
    refine Least.bind h1 (asdict_least fuel v s hv hs) (Least.then ?_ fun _ => .pure _)
    exact asdictItems_least fuel rest s' (fun e he => hx e (List.mem_cons_of_mem _ he)) (hs.grow g1)
termination_by (fuel, items.length + 1)
end

/-! ## Nothing is removed -/

mutual
theorem asdict_grows (fuel : Nat) (x : HV) : Grows (asdictH fuel x) := by
  match fuel, x with
  | _, .imm i => rw [asdictH]; exact .pure _
  | 0, .ref a => rw [asdictH]; exact .throw _
  | fuel + 1, .ref a =>
    rw [asdictH]
    exact .bind (.read a) fun o => .bind (asdictItems_grows fuel _) fun _ => .bind (.alloc _) fun _ => .pure _
termination_by (fuel, 0)

theorem asdictItems_grows (fuel : Nat) (items : List (String × HV)) : Grows (asdictItems fuel items) := by
  match items with
  | [] => rw [asdictItems]; exact .pure _
  | (k, v) :: rest =>
    rw [asdictItems]
    exact .bind (asdict_grows fuel v) fun _ => .bind (asdictItems_grows fuel rest) fun _ => .pure _
termination_by (fuel, items.length + 1)
end

theorem removeOptional_grows (d : Nat) : Grows (removeOptionalH d) := .bind (.read d) fun _ => .bind (.alloc _) fun _ => .pure _

theorem baseToDict_grows (fuel : Nat) (x : HV) : Grows (baseToDictH fuel x) := by
  unfold baseToDictH
  refine .bind (asdict_grows _ _) fun v => .bind ?_ fun d => removeOptional_grows d
  cases v
  · exact .throw _
  · exact .pure _

theorem map_grows {f : HV → HM HV} (hf : ∀ v, Grows (f v)) : ∀ items, Grows (mapH f items)
  | [] => .pure _
  | e :: rest => .bind (hf e.2) fun _ => .bind (map_grows hf rest) fun _ => .pure _

theorem listToDict_grows {f : HV → HM HV} (hf : ∀ v, Grows (f v)) (v : HV) : Grows (listToDictH f v) := by
  unfold listToDictH
  split
  · exact .bind (.alloc _) fun _ => .pure _
  · exact .throw _
  · exact .throw _
  · refine .bind (.read _) fun o => ?_
    split
    · exact .bind (map_grows hf _) fun _ => .bind (.alloc _) fun _ => .pure _
    · split
      · exact .bind (.alloc _) fun _ => .pure _
      · exact .throw _
    · exact .throw _

theorem listField_grows (key : String) {f : HV → HM HV} (hf : ∀ v, Grows (f v)) (self : List (String × HV)) (d : Nat) :
    Grows (listFieldH key f self d) := by
  unfold listFieldH
  refine .bind (.read d) fun o => ?_
  split
  · exact .pure _
  · exact .pure _
  · exact .throw _
  · exact .bind (listToDict_grows hf _) fun _ => .setItem _ _ _

theorem attrsField_grows (fuel : Nat) (self : List (String × HV)) (d : Nat) : Grows (attrsFieldH fuel self d) := by
  unfold attrsFieldH
  refine .bind (.read d) fun o => ?_
  split
  · exact .pure _
  · exact .pure _
  · refine .bind (.read _) fun ao => ?_
    split
    · exact .bind (baseToDict_grows _ _) fun _ => .setItem _ _ _
    · exact .pure _
  · exact .pure _

theorem toDict_grows (fuel : Nat) : ∀ x, Grows (toDictH fuel x) := by
  induction fuel with
  | zero => intro x; cases x <;> rw [toDictH] <;> exact .throw _
  | succ fuel ih =>
    intro x
    match x with
    | .imm i => rw [toDictH]; exact .throw _
    | .ref a =>
      rw [toDictH]
      refine .bind (.read a) fun o => ?_
      split
      · refine .bind (asdict_grows _ _) fun v => .bind ?_ fun d => .bind (attrsField_grows _ _ _) fun _ =>
          .bind (listField_grows _ ih _ _) fun _ => .bind (listField_grows _ ih _ _) fun _ => removeOptional_grows d
        cases v
        · exact .throw _
        · exact .pure _
      · exact baseToDict_grows _ _
      · exact .throw _

/-! ## Nested blockquotes -/

/-- The values of `type`. -/
@[irreducible] def quoteT : Imm := .str "blockquote".toList
@[irreducible] def paraT : Imm := .str "paragraph".toList

/-- The objects of a paragraph inside `k` blockquotes. -/
def nodeHeap : Nat → Heap
  | 0 => [⟨.inst (.node .paragraph), [("type", .imm paraT), ("attrs", .imm .opt), ("content", .imm .opt),
      ("marks", .imm .opt)]⟩]
  | k + 1 => nodeHeap k ++ [⟨.list, [("", .ref (2 * k))]⟩,
      ⟨.inst (.node .blockquote), [("type", .imm quoteT), ("attrs", .imm .opt), ("content", .ref (2 * k + 1))]⟩]

theorem nodeHeap_length : ∀ k, (nodeHeap k).length = 2 * k + 1
  | 0 => rfl
  | k + 1 => by rw [nodeHeap, List.length_append, nodeHeap_length k]; simp; omega

/-- `nodeHeap k` at the beginning of `S`. -/
def Starts (k : Nat) (S : Heap) : Prop := ∀ (a : Nat) (o : HObj), (nodeHeap k)[a]? = some o → S[a]? = some o

theorem starts_down {k : Nat} {S : Heap} (h : Starts (k + 1) S) : Starts k S := fun a o ho =>
  h a o (by rw [nodeHeap, List.getElem?_append_left (lt_of_get ho)]; exact ho)

theorem starts_list {k : Nat} {S : Heap} (h : Starts (k + 1) S) : S[2 * k + 1]? = some ⟨.list, [("", .ref (2 * k))]⟩ := by
  refine h _ _ ?_
  rw [nodeHeap, List.getElem?_append_right (by rw [nodeHeap_length]), nodeHeap_length]; simp

theorem starts_node {k : Nat} {S : Heap} (h : Starts (k + 1) S) : S[2 * (k + 1)]? =
    some ⟨.inst (.node .blockquote), [("type", .imm quoteT), ("attrs", .imm .opt), ("content", .ref (2 * k + 1))]⟩ := by
  refine h _ _ ?_
  rw [nodeHeap, List.getElem?_append_right (by rw [nodeHeap_length]; omega), nodeHeap_length,
        show 2 * (k + 1) - (2 * k + 1) = 1 by omega]; rfl

theorem tree_imm (n : Nat) (h : Heap) (i : Imm) : TreeOf n h (.imm i) := by cases n <;> trivial
theorem size_imm (n : Nat) (h : Heap) (i : Imm) : treeSize n h (.imm i) = 0 := by cases n <;> rfl

theorem starts_tree : ∀ {k n : Nat} {S : Heap}, Starts k S → 2 * k + 1 ≤ n → TreeOf n S (.ref (2 * k)) ∧ treeSize n S (.ref (2 * k)) = 2 * k + 1
  | 0, n, S, h, hn => by
    obtain ⟨n, rfl⟩ : ∃ m, n = m + 1 := ⟨n - 1, by omega⟩
    have h0 := h 0 _ rfl
    refine ⟨⟨_, h0, ?_⟩, ?_⟩
    · intro e he
      simp only [List.mem_cons, List.not_mem_nil, or_false] at he
      rcases he with rfl | rfl | rfl | rfl <;> exact tree_imm _ _ _
    · rw [treeSize_ref h0]; simp [itemsSize, size_imm]
  | k + 1, n, S, h, hn => by
    obtain ⟨n, rfl⟩ : ∃ m, n = m + 2 := ⟨n - 2, by omega⟩
    obtain ⟨h1, h2⟩ := starts_tree (n := n) (starts_down h) (by omega)
    have hl := starts_list h
    have hnode := starts_node h
    refine ⟨⟨_, hnode, ?_⟩, ?_⟩
    · intro e he
      simp only [List.mem_cons, List.not_mem_nil, or_false] at he
      rcases he with rfl | rfl | rfl
      · exact tree_imm _ _ _
      · exact tree_imm _ _ _
      · exact ⟨_, hl, fun e he => by simp only [List.mem_cons, List.not_mem_nil, or_false] at he; subst he; exact h1⟩
    · rw [treeSize_ref hnode]
      simp only [itemsSize, List.map_cons, List.map_nil, List.sum_cons, List.sum_nil, size_imm]
      rw [treeSize_ref hl]
      simp only [itemsSize, List.map_cons, List.map_nil, List.sum_cons, List.sum_nil, h2]
      omega

theorem nested_dict_least : ∀ (k fuel : Nat) {S : Heap} {s : St}, Starts k S → 2 * k + 1 ≤ fuel → Has S s →
    Least (toDictH fuel (.ref (2 * k))) s ((k + 1) * (k + 1))
  | 0, fuel, S, s, h, hf, hs => by
    obtain ⟨fuel, rfl⟩ : ∃ n, fuel = n + 1 := ⟨fuel - 1, by omega⟩
    obtain ⟨ht, hz⟩ := starts_tree h hf
    rw [toDictH]
    refine (Least.bind (k := 0) (k' := 1) (s' := s) (by unfold HM.read; rw [hs _ _ (h 0 _ rfl)]) (Grows.read _ _) ?_).mono (by omega)
    have := asdict_least _ _ s ht hs
    rw [hz] at this
    refine this.then fun v => .bind ?_ fun d => .bind (attrsField_grows _ _ _) fun _ =>
          .bind (listField_grows _ (toDict_grows _) _ _) fun _ => .bind (listField_grows _ (toDict_grows _) _ _) fun _ => removeOptional_grows d
    cases v
    · exact .throw _
    · exact .pure _
  | k + 1, fuel, S, s, h, hf, hs => by
    obtain ⟨fuel, rfl⟩ : ∃ n, fuel = n + 1 := ⟨fuel - 1, by omega⟩
    obtain ⟨ht, hz⟩ := starts_tree h hf
    have hnode := starts_node h
    rw [toDictH]
    refine (Least.bind (k := 0) (k' := (k + 2) * (k + 2)) (s' := s) (by unfold HM.read; rw [hs _ _ hnode]) (Grows.read _ _) ?_).mono (by rw [Nat.zero_add])
    simp only
    have hl := asdict_least _ _ s ht hs
    rw [hz] at hl
    have hfin : ∀ e ∈ (⟨.inst (.node .blockquote), [("type", .imm quoteT), ("attrs", .imm .opt), ("content", .ref (2 * k + 1))]⟩ : HObj).items,
        Fin fuel S e.2 := by
      obtain ⟨o, ho, he⟩ := ht
      rw [hnode] at ho
      cases ho
      exact fun e h => fin_tree.mpr (he e h)
    obtain ⟨s1, items1, g1, hr, h1⟩ := asdict_root (asdict_ok S fuel) hnode hfin s.heap.length s hs (Nat.le_refl _)
    refine (Least.bind (k' := (k + 1) * (k + 1)) h1 hl ?_).mono (by
      have : (k + 2) * (k + 2) = (k + 1) * (k + 1) + 2 * k + 3 := by ring
      omega)
    have hs1 : Has S { s1 with heap := s1.heap ++ [⟨Kind.asdict (.inst (.node .blockquote)), items1⟩] } := (hs.grow g1).grow (alloc_grow _ _)
    have hob : ({ s1 with heap := s1.heap ++ [⟨Kind.asdict (.inst (.node .blockquote)), items1⟩] } : St).heap[s1.heap.length]? =
      some ⟨.dict, items1⟩ := alloc_get s1 _
    generalize ({ s1 with heap := s1.heap ++ [⟨Kind.asdict (.inst (.node .blockquote)), items1⟩] } : St) = s2 at *
    obtain ⟨i1, i2, i3, rfl, r1, r2, r3⟩ : ∃ i1 i2 i3, items1 = [("type", i1), ("attrs", .imm .opt), ("content", .ref i3)] ∧ i2 = () ∧ True ∧ True := by
      match hr with
      | .cons a1 (.cons a2 (.cons a3 .nil)) =>
        rename_i b1 b2 b3
        obtain ⟨n1, v1⟩ := b1
        obtain ⟨n2, v2⟩ := b2
        obtain ⟨n3, v3⟩ := b3
        obtain ⟨rfl, _⟩ := a1
        obtain ⟨rfl, a2⟩ := a2
        obtain ⟨rfl, a3⟩ := a3
        obtain ⟨b, hb⟩ := a3.ref _ rfl
        have := a2.imm _ rfl
        simp only at hb this
        exact ⟨v1, (), b, by rw [this, hb], rfl, trivial, trivial⟩
    refine (Least.bind (k := 0) (k' := (k + 1) * (k + 1)) (a := s1.heap.length) (s' := s2) rfl (Nat.le_refl _) ?_).mono (by omega)
    refine (Least.bind (k := 0) (k' := (k + 1) * (k + 1)) (a := ()) (s' := s2) ?_ (attrsField_grows _ _ _ _) ?_).mono (by omega)
    · unfold attrsFieldH
      rw [read_bind hob]
      rfl
    refine Least.then ?_ fun _ => .bind (listField_grows _ (toDict_grows _) _ _) fun _ => removeOptional_grows _
    unfold listFieldH
    refine (Least.bind (k := 0) (k' := (k + 1) * (k + 1)) (s' := s2) (by unfold HM.read; rw [hob]) (Grows.read _ _) ?_).mono (by omega)
    have e1 : itemGet [("type", i1), ("attrs", HV.imm .opt), ("content", HV.ref i3)] "content" = some (.ref i3) := rfl
    have e2 : itemGet [("type", HV.imm quoteT), ("attrs", .imm .opt), ("content", .ref (2 * k + 1))] "content" = some (.ref (2 * k + 1)) := rfl
    simp only [e1, e2]
    refine Least.then ?_ fun _ => .setItem _ _ _
    unfold listToDictH
    refine (Least.bind (k := 0) (k' := (k + 1) * (k + 1)) (s' := s2) (by unfold HM.read; rw [hs1 _ _ (starts_list h)]) (Grows.read _ _) ?_).mono (by omega)
    simp only
    refine Least.then ?_ fun _ => .bind (.alloc _) fun _ => .pure _
    rw [mapH]
    exact (nested_dict_least k fuel (starts_down h) (by omega) hs1).then fun _ => .bind (map_grows (toDict_grows _) _) fun _ => .pure _

end Verif
