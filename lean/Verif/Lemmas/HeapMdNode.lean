import Verif.Lemmas.HeapMdBody
/-! # Converting on the heap: whole trees -/

namespace Verif.HeapMd
open Verif Verif.Spec

variable {P : Nat → Prop} {h0 : Heap} {fuel : Nat}

/-- A JSON value is no node. -/
theorem alien_node {v : Val} {x : HV} (h : IsJson P h0 v x) {R : α → (NodeCls × List (String × HV)) → Prop} :
    Sim P h0 R (nodeOf x) (.error .attributeError) := by
  rcases json_cases h with ⟨i, rfl, _⟩ | ⟨a, o, rfl, hp, ho, hk⟩
  · exact sim_throw _
  · refine sim_eq (sim_read hp ho) ?_
    rcases hk with ⟨_, _, hk, _⟩ | ⟨_, _, hk, _⟩ <;> · rw [hk]; exact sim_throw _

theorem alien_kid (env : Env) {v : Val} {x : HV} (h : IsJson P h0 v x) (hf : 0 < fuel) : KidRel P h0 fuel (markdownH env fuel) alienKid x := by
  obtain ⟨f, rfl⟩ : ∃ f, fuel = f + 1 := ⟨fuel - 1, by omega⟩
  exact ⟨fun l g => sim_bind (R := Eq) (alien_node h) rfl, fun ex => sim_bind (R := Eq) (alien_node h) rfl⟩

theorem alien_item (env : Env) {v : Val} {x : HV} (h : IsJson P h0 v x) (hf : 0 < fuel) : ItemRel P h0 fuel (markdownH env fuel) alienItem x :=
  ⟨alien_kid env h hf, sim_bind (R := Eq) (alien_node h) rfl, sim_bind (R := Eq) (alien_node h) rfl, sim_bind (R := Eq) (alien_node h) rfl⟩

theorem alien_list {K : α → HV → Prop} {alien : α} (hK : ∀ v x, IsJson P h0 v x → K alien x) :
    (vs : List Val) → ∀ items, JsonList P h0 vs items → List.Forall₂ K (List.replicate vs.length alien) (items.map Prod.snd)
  | [], items, h => by cases (h : items = []); exact .nil
  | v :: vs, items, h => by
    obtain ⟨e, rest, rfl, h1, h2⟩ := h
    exact .cons (hK v e.2 h1) (alien_list hK vs rest h2)

theorem alien_dict {K : α → HV → Prop} {alien : α} (hK : ∀ v x, IsJson P h0 v x → K alien x) :
    (d : List (String × Val)) → ∀ items, JsonDict P h0 d items →
      List.Forall₂ K (List.replicate d.length alien) (items.map fun e => HV.imm (.str e.1.toList))
  | [], items, h => by cases (h : items = []); exact .nil
  | (k, v) :: d, items, h => by
    obtain ⟨x, rest, rfl, h1, h2⟩ := h
    exact .cons (hK _ _ (json_str _)) (alien_dict hK d rest h2)

theorem alien_str {K : α → HV → Prop} {alien : α} (hK : ∀ v x, IsJson P h0 v x → K alien x) (s : Str) :
    List.Forall₂ K (List.replicate s.length alien) (s.map fun ch => HV.imm (.str [ch])) := by
  induction s with
  | nil => exact .nil
  | cons c s ih => exact .cons (hK _ _ (json_str _)) ih

/-- Iterating over a `content` that was left unconverted. -/
theorem iter_raw {K : α → HV → Prop} {alien : α} (hK : ∀ v x, IsJson P h0 v x → K alien x) {v : Val} (hne : v ≠ .opt) {x : HV} (h : IsJson P h0 v x) :
    Sim P h0 (List.Forall₂ K) (iterH (some x)) (iterSlot alien (.raw v)) := by
  cases v with
  | list vs =>
    obtain ⟨a, items, rfl, hp, ho, hl⟩ := h
    exact sim_eq (sim_read hp ho) (sim_pure (alien_list hK vs items hl))
  | dict d =>
    obtain ⟨a, items, rfl, hp, ho, hl⟩ := h
    exact sim_eq (sim_read hp ho) (sim_pure (alien_dict hK d items hl))
  | str s =>
    obtain ⟨i, rfl, hi⟩ := h
    cases i <;> cases hi
    exact sim_pure (alien_str hK s)
  | _ => obtain ⟨i, rfl, hi⟩ := h; cases i <;> cases hi <;> first | exact sim_throw _ | exact absurd rfl hne

/-- What is proved of every node by induction on `fuel`. -/
def Renders (env : Env) (P : Nat → Prop) (h0 : Heap) (fuel : Nat) : Prop :=
  ∀ n x, IsNode P h0 n x → depthNode n ≤ fuel → ∀ l g, Sim P h0 (IsJson P h0) (markdownH env fuel x l g) ((n.item env).render l g)

theorem node_of {hd : Hd} {c : Slot (List Node)} {p : Nat} {items : List (String × HV)} (hp : P p)
    (ho : h0[p]? = some ⟨.inst (.node hd.cls), items⟩) :
    Sim P h0 Eq (nodeOf (.ref p)) (.ok (hd.cls, items)) := sim_eq (sim_read hp ho) (sim_pure rfl)

theorem node_kid (env : Env) (hR : Renders env P h0 fuel) {n : Node} {x : HV} (h : IsNode P h0 n x) (hf : depthNode n ≤ fuel) :
    KidRel P h0 fuel (markdownH env fuel) (n.item env).toKid x := by
  refine ⟨hR n x h hf, fun ex => ?_⟩
  obtain ⟨hd, c⟩ := n
  obtain ⟨p, items, rfl, hp, ho, hh, _⟩ := h
  simp only [depthNode, depthHd] at hf
  refine sim_eq (node_of (c := c) hp ho) ?_
  exact sim_eq (sim_plain fuel _ (some hd.type) hh.2.1 (by simp only [Option.map_some, Option.getD_some]; omega)) (sim_pure rfl)

/-- The same from the iteration of nodes to that of kids. -/
theorem kids_of (env : Env) (hR : Renders env P h0 fuel) : (ns : List Node) → ∀ items, AreNodes P h0 ns items → depthNodes ns ≤ fuel →
    List.Forall₂ (KidRel P h0 fuel (markdownH env fuel)) ((listItems env ns).map Item.toKid) (items.map Prod.snd)
  | [], items, h, _ => by cases (h : items = []); exact .nil
  | n :: ns, items, h, hf => by
    obtain ⟨e, rest, rfl, h1, h2⟩ := h
    simp only [depthNodes] at hf
    exact .cons (node_kid env hR h1 (by omega)) (kids_of env hR ns rest h2 (by omega))

theorem iter_kids (env : Env) (hR : Renders env P h0 fuel) (hpos : 0 < fuel) {c : Slot (List Node)} {x : Option HV} (h : IsContent P h0 c x)
    (hf : depthContent c ≤ fuel) : Sim P h0 (List.Forall₂ (KidRel P h0 fuel (markdownH env fuel))) (iterH x)
      (iterSlot alienKid (kidsOf (slotItems env c))) := by
  cases c with
  | absent => cases (h : x = none); exact sim_throw _
  | opt => cases (h : x = some (.imm .opt)); exact sim_throw _
  | raw v => obtain ⟨hne, y, rfl, hy⟩ := h; exact iter_raw (fun v x hj => alien_kid env hj hpos) hne hy
  | val ns =>
    obtain ⟨p, items, rfl, hp, ho, hl⟩ := h
    simp only [depthContent] at hf
    exact sim_eq (sim_read hp ho) (sim_pure (kids_of env hR ns items hl (by omega)))

theorem header_width (env : Env) (hR : Renders env P h0 fuel) (hpos : 0 < fuel) {hd : Hd} {c : Slot (List Node)} {x : HV}
    (h : IsNode P h0 (.mk hd c) x) (hf : depthContent c ≤ fuel) :
    Sim P h0 Eq (headerWidthH fuel x) (headerWidth (kidsOf (slotItems env c))) := by
  obtain ⟨p, items, rfl, hp, ho, hh, h⟩ := h
  refine sim_eq (node_of (c := c) hp ho) ?_
  simp only
  cases c with
  | absent => rw [show itemGet items "content" = none from h]; exact sim_throw _
  | opt => rw [show itemGet items "content" = some (.imm .opt) from h]; exact sim_throw _
  | raw v =>
    obtain ⟨hne, y, hy, hj⟩ := h
    rw [hy]
    cases v with
    | list vs =>
      obtain ⟨a, its, rfl, hp, ho, hl⟩ := hj
      refine sim_eq (sim_read hp ho) ?_
      cases vs with
      | nil => cases (hl : its = []); exact sim_throw _
      | cons v vs =>
        obtain ⟨e, rest, rfl, h1, _⟩ := hl
        exact sim_bind (R := Eq) ((alien_kid env h1 hpos).2 _) rfl
    | dict d => obtain ⟨a, its, rfl, hp, ho, _⟩ := hj; exact sim_eq (sim_read hp ho) (sim_throw _)
    | str s =>
      obtain ⟨i, rfl, hi⟩ := hj
      cases i <;> cases hi
      cases s <;> exact sim_throw _
    | _ => obtain ⟨i, rfl, hi⟩ := hj; cases i <;> cases hi <;> first | exact sim_throw _ | exact absurd rfl hne
  | val ns =>
    obtain ⟨a, its, hy, hp, ho, hl⟩ := h
    rw [hy]
    simp only
    refine sim_eq (sim_read hp ho) ?_
    simp only [depthContent] at hf
    cases ns with
    | nil => cases (hl : its = []); exact sim_throw _
    | cons n ns =>
      have hk := kids_of env hR (n :: ns) its hl (by omega)
      obtain ⟨e, rest, rfl, h1, h2⟩ := hl
      have hlen := hk.length_eq
      simp only [depthNodes] at hf
      refine sim_bind ((node_kid env hR h1 (by omega)).2 _) ?_
      have hw : headerWidth (kidsOf (slotItems env (.val (n :: ns)))) =
          match Kid.isTypeOf (n.item env).toKid [.tableHeader] with
          | .error e => .error e
          | .ok true => .ok (some (((listItems env ns).map Item.toKid).length + 1))
          | .ok false => .ok none := rfl
      rw [hw]
      simp only [listItems, List.map_cons, List.length_cons] at hlen
      cases Kid.isTypeOf (n.item env).toKid [.tableHeader] with
      | error e => rfl
      | ok b =>
        rintro _ rfl
        cases b
        · exact sim_pure rfl
        · exact sim_pure (by rw [if_pos rfl, Nat.succ.inj hlen, List.length_map])

theorem node_item (env : Env) (hR : Renders env P h0 fuel) {n : Node} {x : HV} (h : IsNode P h0 n x) (hf : depthNode n ≤ fuel) :
    ItemRel P h0 fuel (markdownH env fuel) (n.item env) x := by
  refine ⟨node_kid env hR h hf, ?_⟩
  obtain ⟨hd, c⟩ := n
  have h' := h
  obtain ⟨p, items, rfl, hp, ho, hh, hc⟩ := h
  simp only [depthNode, depthHd] at hf
  refine ⟨?_, ?_, ?_⟩
  · exact sim_eq (node_of (c := c) hp ho) (iter_kids env hR (by omega) hc (by omega))
  · refine sim_eq (node_of (c := c) hp ho) ?_
    exact sim_eq (sim_attrs fuel _ hd.attrs hh.2.2.2.2.1 (by omega)) (sim_of _)
  · exact header_width env hR (by omega) h' (by omega)

theorem items_of (env : Env) (hR : Renders env P h0 fuel) : (ns : List Node) → ∀ items, AreNodes P h0 ns items → depthNodes ns ≤ fuel →
    List.Forall₂ (ItemRel P h0 fuel (markdownH env fuel)) (listItems env ns) (items.map Prod.snd)
  | [], items, h, _ => by cases (h : items = []); exact .nil
  | n :: ns, items, h, hf => by
    obtain ⟨e, rest, rfl, h1, h2⟩ := h
    simp only [depthNodes] at hf
    exact .cons (node_item env hR h1 (by omega)) (items_of env hR ns rest h2 (by omega))

theorem slot_rel (env : Env) (hR : Renders env P h0 fuel) (hpos : 0 < fuel) {c : Slot (List Node)} {x : Option HV} (h : IsContent P h0 c x)
    (hf : depthContent c ≤ fuel) : SlotRel P h0 fuel (markdownH env fuel) (slotItems env c) x := by
  cases c with
  | absent => cases (h : x = none); exact ⟨sim_throw _, by simp [slotItems]⟩
  | opt => cases (h : x = some (.imm .opt)); exact ⟨sim_throw _, by simp [slotItems]⟩
  | raw v =>
    obtain ⟨hne, y, rfl, hy⟩ := h
    refine ⟨iter_raw (fun v x hj => alien_item env hj hpos) hne hy, ?_⟩
    simp only [slotItems, reduceCtorEq, iff_false, Option.some.injEq]
    rintro rfl
    rcases json_cases hy with ⟨i, hi, hv⟩ | ⟨a, o, hi, _⟩
    · cases hi; exact hne hv.symm
    · cases hi
  | val ns =>
    obtain ⟨p, items, rfl, hp, ho, hl⟩ := h
    simp only [depthContent] at hf
    exact ⟨sim_eq (sim_read hp ho) (sim_pure (items_of env hR ns items hl (by omega))), by simp [slotItems]⟩

theorem renders (env : Env) (P : Nat → Prop) (h0 : Heap) : ∀ fuel, Renders env P h0 fuel := by
  intro fuel
  induction fuel with
  | zero =>
    intro n x _ hf
    obtain ⟨hd, c⟩ := n
    simp only [depthNode] at hf
    omega
  | succ fuel ih =>
    intro n x h hf l g
    obtain ⟨hd, c⟩ := n
    obtain ⟨p, items, rfl, hp, ho, hh, hc⟩ := h
    simp only [depthNode] at hf
    have hd0 := hf
    simp only [depthHd] at hd0
    have hpos : 0 < fuel := by
      have : 0 < depth hd.type := by cases hd.type <;> simp only [depth] <;> omega
      omega
    show Sim P h0 (IsJson P h0) (markdownH env (fuel + 1) (.ref p) l g) (dispatch env hd (slotItems env c) l g)
    unfold markdownH
    refine sim_eq (node_of (c := c) hp ho) ?_
    simp only
    by_cases hl : (l.isSome && !hd.cls.takesLevel) = true
    · rw [if_pos hl]
      unfold dispatch
      rw [if_pos hl]
      exact sim_throw _
    · rw [if_neg hl]
      refine sim_then (sim_marks fuel _ hd.marks hh.2.2.2.2.2 (by omega)) fun marks hm => ?_
      refine sim_eq (sim_hd fuel hd items marks hh (by omega)) ?_
      exact sim_body env hm (slot_rel env ih hpos hc (by omega)) hh.2.2.2.1 (by omega) l g (by simpa using hl)

end Verif.HeapMd
