import Verif.Lemmas.HeapOutSafe
import Verif.Lemmas.HeapParse
import Verif.Lemmas.Serial
/-!
# `to_dict` on the heap agrees with the value model
-/

namespace Verif
open Verif.Spec

/-- Nothing logged, existing objects unchanged. -/
structure Grow (s s' : St) : Prop where
  log : s'.log = s.log
  len : s.heap.length ≤ s'.heap.length
  old : ∀ a, a < s.heap.length → s'.heap[a]? = s.heap[a]?

theorem Grow.refl (s : St) : Grow s s := ⟨rfl, Nat.le_refl _, fun _ _ => rfl⟩

theorem Grow.trans {s s' s'' : St} (h : Grow s s') (h' : Grow s' s'') : Grow s s'' :=
  ⟨h'.log.trans h.log, Nat.le_trans h.len h'.len, fun a ha =>
    (h'.old a (Nat.lt_of_lt_of_le ha h.len)).trans (h.old a ha)⟩

theorem Grow.keeps {s s' : St} (h : Grow s s') (P : Nat → Prop) : Keeps' P s.heap s'.heap := by
  intro a o _ ho
  rw [h.old a (lt_of_get ho)]; exact ho

theorem Has.grow {S : Heap} {s s' : St} (h : Has S s) (g : Grow s s') : Has S s' := h.next g.old

theorem Has.keeps {S : Heap} {s : St} (h : Has S s) : Keeps' anywhere S s.heap := fun a o _ ho => h a o ho

/-- The objects reachable from `x` form a tree of at most `n` levels. -/
def Fin : Nat → Heap → HV → Prop
  | _, _, .imm _ => True
  | 0, _, .ref _ => False
  | n + 1, h, .ref a => ∃ o, h[a]? = some o ∧ ∀ e ∈ o.items, Fin n h e.2

theorem fin_mono {n n' : Nat} (hn : n ≤ n') {h : Heap} {x : HV} (hf : Fin n h x) : Fin n' h x := by
  induction n generalizing n' x with
  | zero =>
    match x, hf with
    | .imm _, _ => cases n' <;> trivial
  | succ n ih =>
    match x, hf with
    | .imm _, _ => cases n' <;> trivial
    | .ref a, ⟨o, ho, he⟩ =>
      obtain ⟨m, rfl⟩ : ∃ m, n' = m + 1 := ⟨n' - 1, by omega⟩
      exact ⟨o, ho, fun e h => ih (by omega) (he e h)⟩

theorem depth_pos (v : Val) : 1 ≤ depth v := by cases v <;> simp [depth]

theorem fin_json {n : Nat} {h : Heap} {v : Val} {x : HV} (hj : Json anywhere h v x) (hd : depth v ≤ n) :
    Fin n h x := by
  induction n generalizing v x with
  | zero => exact absurd (depth_pos v) (by omega)
  | succ n ih =>
    match x with
    | .imm _ => trivial
    | .ref a =>
      obtain ⟨_, o, ho, he, _⟩ := json_ref hj
      refine ⟨o, ho, fun e h => ?_⟩
      obtain ⟨w, hw, hlt⟩ := he e h
      exact ih hw (by omega)

/-- `r` is what `asdict` makes of `x`. -/
structure AsRel (S : Heap) (N : Nat) (h : Heap) (x r : HV) : Prop where
  imm : ∀ i, x = .imm i → r = .imm i
  ref : ∀ a, x = .ref a → ∃ b, r = .ref b
  json : ∀ v, Json anywhere S v x → Json (fun a => N ≤ a) h v r
  attrs : ∀ a, IsAttrs anywhere S a x → Json (fun a => N ≤ a) h (.dict a.fields) r

theorem AsRel.mono {S : Heap} {N : Nat} {s s' : St} {x r : HV} (hr : AsRel S N s.heap x r) (g : Grow s s') :
    AsRel S N s'.heap x r :=
  ⟨hr.imm, hr.ref, fun v hv => json_mono (g.keeps _) (fun _ h => h) _ _ (hr.json v hv),
    fun a ha => json_mono (g.keeps _) (fun _ h => h) _ _ (hr.attrs a ha)⟩

def AsItem (S : Heap) (N : Nat) (h : Heap) (e e' : String × HV) : Prop := e.1 = e'.1 ∧ AsRel S N h e.2 e'.2

def AsdictOk (S : Heap) (fuel : Nat) : Prop :=
  ∀ (x : HV) (N : Nat) (s : St), Fin fuel S x → Has S s → N ≤ s.heap.length →
    ∃ r s', asdictH fuel x s = (.ok r, s') ∧ Grow s s' ∧ AsRel S N s'.heap x r

theorem asdictItems_ok {S : Heap} {fuel : Nat} (ha : AsdictOk S fuel) :
    ∀ (items : List (String × HV)) (N : Nat) (s : St), (∀ e ∈ items, Fin fuel S e.2) → Has S s →
      N ≤ s.heap.length →
      ∃ items' s', asdictItems fuel items s = (.ok items', s') ∧ Grow s s' ∧
        List.Forall₂ (AsItem S N s'.heap) items items' := by
  intro items
  induction items with
  | nil => intro N s _ _ _; exact ⟨[], s, by rw [asdictItems]; rfl, .refl s, .nil⟩
  | cons e rest ih =>
    intro N s hf hs hN
    obtain ⟨k, v⟩ := e
    obtain ⟨r, s1, h1, g1, r1⟩ := ha v N s (hf _ List.mem_cons_self) hs hN
    obtain ⟨items', s2, h2, g2, r2⟩ := ih N s1 (fun e he => hf e (List.mem_cons_of_mem _ he)) (hs.grow g1)
      (Nat.le_trans hN g1.len)
    refine ⟨(k, r) :: items', s2, ?_, g1.trans g2, .cons ⟨rfl, r1.mono g2⟩ r2⟩
    rw [asdictItems, bind_run, h1]
    simp only
    rw [bind_run, h2]
    rfl

theorem alloc_grow (s : St) (o : HObj) : Grow s { s with heap := s.heap ++ [o] } :=
  ⟨rfl, by simp, fun a ha => by
    show (s.heap ++ [o])[a]? = _
    rw [List.getElem?_append_left ha]⟩

theorem alloc_get (s : St) (o : HObj) : (s.heap ++ [o])[s.heap.length]? = some o := by simp

theorem jsonList_as {S h : Heap} {N : Nat} {vs : List Val} {items items' : List (String × HV)}
    (hj : JsonList anywhere S vs items) (hr : List.Forall₂ (AsItem S N h) items items') :
    JsonList (fun a => N ≤ a) h vs items' := by
  induction vs generalizing items items' with
  | nil => rw [show items = [] from hj] at hr; cases hr; rfl
  | cons v vs ih =>
    obtain ⟨e, rest, rfl, h1, h2⟩ := hj
    cases hr with
    | cons he hrest => exact ⟨_, _, rfl, he.2.json v h1, ih h2 hrest⟩

theorem jsonDict_as {S h : Heap} {N : Nat} {d : List (String × Val)} {items items' : List (String × HV)}
    (hj : JsonDict anywhere S d items) (hr : List.Forall₂ (AsItem S N h) items items') :
    JsonDict (fun a => N ≤ a) h d items' := by
  induction d generalizing items items' with
  | nil => rw [show items = [] from hj] at hr; cases hr; rfl
  | cons e d ih =>
    obtain ⟨k, v⟩ := e
    obtain ⟨x, rest, rfl, h1, h2⟩ := hj
    cases hr with
    | @cons _ e' _ _ he hrest =>
      obtain ⟨k', x'⟩ := e'
      have : k = k' := he.1
      subst this
      exact ⟨_, _, rfl, he.2.json v h1, ih h2 hrest⟩

/-- `asdict` of an object. -/
theorem asdict_root {S : Heap} {fuel : Nat} (ha : AsdictOk S fuel) {a : Nat} {o : HObj} (ho : S[a]? = some o)
    (hf : ∀ e ∈ o.items, Fin fuel S e.2) (N : Nat) (s : St) (hs : Has S s) (hN : N ≤ s.heap.length) :
    ∃ s1 items', Grow s s1 ∧ List.Forall₂ (AsItem S N s1.heap) o.items items' ∧
      asdictH (fuel + 1) (.ref a) s = (.ok (.ref s1.heap.length),
        { s1 with heap := s1.heap ++ [⟨o.kind.asdict, items'⟩] }) := by
  obtain ⟨items', s1, h1, g1, r1⟩ := asdictItems_ok ha o.items N s hf hs hN
  refine ⟨s1, items', g1, r1, ?_⟩
  rw [asdictH, read_bind (hs a o ho), bind_run, h1]
  rfl

theorem asdict_ok (S : Heap) (fuel : Nat) : AsdictOk S fuel := by
  induction fuel with
  | zero =>
    intro x N s hf _ _
    match x, hf with
    | .imm i, _ =>
      refine ⟨.imm i, s, by rw [asdictH]; rfl, .refl s, ⟨fun _ h => h, nofun, ?_, ?_⟩⟩
      · intro v hv; rw [json_imm_iff hv]; exact json_imm i
      · rintro a ⟨p, items, h, _⟩; cases h
  | succ fuel ih =>
    intro x N s hf hs hN
    match x, hf with
    | .imm i, _ =>
      refine ⟨.imm i, s, by rw [asdictH]; rfl, .refl s, ⟨fun _ h => h, nofun, ?_, ?_⟩⟩
      · intro v hv; rw [json_imm_iff hv]; exact json_imm i
      · rintro a ⟨p, items, h, _⟩; cases h
    | .ref a, ⟨o, ho, he⟩ =>
      obtain ⟨s1, items', g1, r1, hrun⟩ := asdict_root ih ho he N s hs hN
      have g2 := alloc_grow s1 ⟨o.kind.asdict, items'⟩
      have hN1 : N ≤ s1.heap.length := Nat.le_trans hN g1.len
      have r2 : List.Forall₂ (AsItem S N (s1.heap ++ [⟨o.kind.asdict, items'⟩])) o.items items' :=
        r1.imp fun _ _ h => ⟨h.1, h.2.mono g2⟩
      refine ⟨_, _, hrun, g1.trans g2, nofun, fun _ _ => ⟨_, rfl⟩, ?_, ?_⟩
      · intro v hv
        obtain ⟨_, o', ho', _, hk⟩ := json_ref hv
        have ho2 : (some o : Option HObj) = some o' := ho.symm.trans ho'
        cases ho2
        rcases hk with ⟨vs, rfl, hk, hl⟩ | ⟨d, rfl, hk, hd⟩
        · refine ⟨_, items', rfl, hN1, ?_, jsonList_as hl r2⟩
          rw [alloc_get, hk]; rfl
        · refine ⟨_, items', rfl, hN1, ?_, jsonDict_as hd r2⟩
          rw [alloc_get, hk]; rfl
      · rintro at' ⟨p, items, hx, _, ho', hd⟩
        cases hx
        have ho2 : (some o : Option HObj) = some _ := ho.symm.trans ho'
        cases ho2
        exact ⟨_, items', rfl, hN1, alloc_get _ _, jsonDict_as hd r2⟩

/-! ## Objects are finite trees -/

theorem itemGet_of_mem {items : List (String × HV)} (hn : (items.map Prod.fst).Nodup) {e : String × HV}
    (he : e ∈ items) : itemGet items e.1 = some e.2 := by
  induction items with
  | nil => cases he
  | cons a rest ih =>
    obtain ⟨k, v⟩ := a
    rw [List.map_cons, List.nodup_cons] at hn
    rcases List.mem_cons.mp he with h | h
    · subst h; simp [itemGet]
    · have : k ≠ e.1 := fun hk => hn.1 (List.mem_map.mpr ⟨e, h, hk.symm⟩)
      rw [itemGet, if_neg this]
      exact ih hn.2 h

theorem fin_dict {n : Nat} {h : Heap} {d : List (String × Val)} {items : List (String × HV)}
    (hj : JsonDict anywhere h d items) (hd : depthDict d ≤ n) : ∀ e ∈ items, Fin n h e.2 := by
  induction d generalizing items with
  | nil => rw [show items = [] from hj]; nofun
  | cons e d ih =>
    obtain ⟨k, v⟩ := e
    obtain ⟨x, rest, rfl, h1, h2⟩ := hj
    rw [depthDict] at hd
    intro e he
    rcases List.mem_cons.mp he with h | h
    · rw [h]; exact fin_json h1 (by omega)
    · exact ih h2 (by omega) e h

theorem fin_attrs {n : Nat} {h : Heap} {a : AttrsObj} {x : HV} (hx : IsAttrs anywhere h a x)
    (hd : depthDict a.fields + 1 ≤ n) : Fin n h x := by
  obtain ⟨p, items, rfl, _, ho, hj⟩ := hx
  obtain ⟨m, rfl⟩ : ∃ m, n = m + 1 := ⟨n - 1, by omega⟩
  exact ⟨_, ho, fin_dict hj (by omega)⟩

theorem fin_plain {n : Nat} {h : Heap} {x : HV} {v : Option Val} (hp : IsPlain anywhere h (some x) v)
    (hd : (v.map depth).getD 0 ≤ n) : Fin n h x := by
  cases v with
  | none => cases hp
  | some v => obtain ⟨y, h1, h2⟩ := hp; cases h1; exact fin_json h2 hd

theorem fin_attrsSlot {n : Nat} {h : Heap} {x : HV} {sl : Slot AttrsObj}
    (hp : IsSlot anywhere h (IsAttrs anywhere h) (some x) sl)
    (hd : depthAttrs sl ≤ n) : Fin n h x := by
  cases sl with
  | absent => cases hp
  | opt => cases hp; cases n <;> trivial
  | raw v => obtain ⟨_, y, h1, h2⟩ := hp; cases h1; exact fin_json h2 hd
  | val a => obtain ⟨y, h1, h2⟩ := hp; cases h1; exact fin_attrs h2 hd

theorem markFields_nodup (c : MarkCls) : (c.fields.map Field.name).Nodup := by cases c <;> decide

theorem markFields_names (c : MarkCls) (k : String) (h : k ∈ c.fields.map Field.name) :
    k = "type" ∨ k = "attrs" := by
  have : ∀ k ∈ c.fields.map Field.name, k = "type" ∨ k = "attrs" := by cases c <;> decide
  exact this k h

theorem fin_mark_items {n : Nat} {h : Heap} {m : Mark} {items : List (String × HV)}
    (hn : items.map Prod.fst = m.cls.fields.map Field.name)
    (ht : IsPlain anywhere h (itemGet items "type") (some m.type))
    (ha : IsSlot anywhere h (IsAttrs anywhere h) (itemGet items "attrs") m.attrs)
    (hd : depthMark m ≤ n + 1) : ∀ e ∈ items, Fin n h e.2 := by
  intro e he
  have hg := itemGet_of_mem (by rw [hn]; exact markFields_nodup _) he
  unfold depthMark at hd
  rcases markFields_names m.cls e.1 (hn ▸ List.mem_map_of_mem he) with hk | hk <;> rw [hk] at hg
  · rw [hg] at ht
    exact fin_plain ht (by show depth m.type ≤ n; omega)
  · rw [hg] at ha
    exact fin_attrsSlot ha (by omega)

theorem fin_mark {n : Nat} {h : Heap} {m : Mark} {x : HV} (hx : IsMark anywhere h m x)
    (hd : depthMark m ≤ n) : Fin n h x := by
  obtain ⟨p, items, rfl, _, ho, hn, ht, ha⟩ := hx
  obtain ⟨k, rfl⟩ : ∃ k, n = k + 1 := ⟨n - 1, by unfold depthMark at hd; omega⟩
  exact ⟨_, ho, fin_mark_items hn ht ha hd⟩

theorem nodeFields_nodup' (c : NodeCls) : (c.fields.map Field.name).Nodup := by cases c <;> decide

/-- The fields a node class can have, in the order in which every class has them. -/
def canon : List String := ["type", "version", "text", "attrs", "content", "marks"]

theorem nodeFields_sublist (c : NodeCls) : List.Sublist (c.fields.map Field.name) canon := by
  cases c <;> decide

theorem fin_forall {α : Type} {n : Nat} {h : Heap} {is : α → HV → Prop} {dp : α → Nat}
    (hf : ∀ a x, is a x → dp a ≤ n → Fin n h x) {as : List α} {items : List (String × HV)}
    (hr : List.Forall₂ (fun a (e : String × HV) => is a e.2) as items)
    (hd : (as.map dp).foldr max 0 ≤ n) : ∀ e ∈ items, Fin n h e.2 := by
  induction hr with
  | nil => nofun
  | @cons a e as items h1 _ ih =>
    rw [List.map_cons, List.foldr_cons] at hd
    intro e' he
    rcases List.mem_cons.mp he with hh | hh
    · rw [hh]; exact hf a _ h1 (by omega)
    · exact ih (by omega) e' hh

theorem fin_marksSlot {n : Nat} {h : Heap} {x : HV} {sl : Slot (List Mark)}
    (hp : IsSlot anywhere h (IsList anywhere h (IsMark anywhere h)) (some x) sl)
    (hd : depthMarks sl ≤ n) : Fin n h x := by
  cases sl with
  | absent => cases hp
  | opt => cases hp; cases n <;> trivial
  | raw v => obtain ⟨_, y, h1, h2⟩ := hp; cases h1; exact fin_json h2 hd
  | val ms =>
    obtain ⟨y, h1, p, items, rfl, _, ho, hr⟩ := hp
    cases h1
    rw [depthMarks] at hd
    obtain ⟨k, rfl⟩ : ∃ k, n = k + 1 := ⟨n - 1, by omega⟩
    exact ⟨_, ho, fin_forall (dp := depthMark) (fun _ _ => fin_mark) hr (by omega)⟩

theorem fin_node_items {n : Nat} {h : Heap} {hd : Hd} {items : List (String × HV)}
    (hh : IsHd anywhere h items hd) (hc : ∀ x, itemGet items "content" = some x → Fin n h x)
    (hdp : depthHd hd ≤ n) : ∀ e ∈ items, Fin n h e.2 := by
  obtain ⟨hn, ht, hv, hx, ha, hm⟩ := hh
  intro e he
  have hg := itemGet_of_mem (by rw [hn]; exact nodeFields_nodup' _) he
  have hk : e.1 ∈ canon := (nodeFields_sublist hd.cls).subset (hn ▸ List.mem_map_of_mem he)
  unfold depthHd at hdp
  simp only [canon, List.mem_cons, List.not_mem_nil, or_false] at hk
  rcases hk with hk | hk | hk | hk | hk | hk <;> rw [hk] at hg
  · rw [hg] at ht; exact fin_plain ht (by show depth hd.type ≤ n; omega)
  · rw [hg] at hv; exact fin_plain hv (by omega)
  · rw [hg] at hx; exact fin_plain hx (by omega)
  · rw [hg] at ha; exact fin_attrsSlot ha (by omega)
  · exact hc _ hg
  · rw [hg] at hm; exact fin_marksSlot hm (by omega)

mutual
theorem fin_node : ∀ (n : Node) {k : Nat} {h : Heap} {x : HV}, IsNode anywhere h n x → depthNode n ≤ k → Fin k h x
  | .mk hd c, k, h, x, hx, hk => by
    obtain ⟨p, items, rfl, _, ho, hh, hc⟩ := hx
    rw [depthNode] at hk
    obtain ⟨m, rfl⟩ : ∃ m, k = m + 1 := ⟨k - 1, by omega⟩
    exact ⟨_, ho, fin_node_items hh (fun x hx => fin_content c (hx ▸ hc) (by omega)) (by omega)⟩

theorem fin_content : ∀ (c : Slot (List Node)) {k : Nat} {h : Heap} {x : HV},
    IsContent anywhere h c (some x) → depthContent c ≤ k → Fin k h x
  | .absent, k, h, x, hx, hk => by cases hx
  | .opt, k, h, x, hx, hk => by cases hx; cases k <;> trivial
  | .raw v, k, h, x, hx, hk => by obtain ⟨_, y, h1, h2⟩ := hx; cases h1; exact fin_json h2 hk
  | .val ns, k, h, x, hx, hk => by
    obtain ⟨p, items, h1, _, ho, hr⟩ := hx
    cases h1
    rw [depthContent] at hk
    obtain ⟨m, rfl⟩ : ∃ m, k = m + 1 := ⟨k - 1, by omega⟩
    exact ⟨_, ho, fin_nodes ns hr (by omega)⟩

theorem fin_nodes : ∀ (ns : List Node) {k : Nat} {h : Heap} {items : List (String × HV)},
    AreNodes anywhere h ns items → depthNodes ns ≤ k → ∀ e ∈ items, Fin k h e.2
  | [], k, h, items, hr, hk => by rw [show items = [] from hr]; nofun
  | n :: ns, k, h, items, hr, hk => by
    obtain ⟨e, rest, rfl, h1, h2⟩ := hr
    rw [depthNodes] at hk
    intro e' he
    rcases List.mem_cons.mp he with hh | hh
    · rw [hh]; exact fin_node n h1 (by omega)
    · exact fin_nodes ns h2 (by omega) e' hh
end

end Verif
