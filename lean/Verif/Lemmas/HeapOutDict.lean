import Verif.Lemmas.HeapOutSim
/-!
# `to_dict` on the heap agrees with the value model: the fields and the result
-/

namespace Verif
open Verif.Spec

mutual
theorem json_lt {P : Nat → Prop} {h : Heap} : ∀ (v : Val) (x : HV), Json P h v x →
    Json (fun a => P a ∧ a < h.length) h v x
  | .list vs, x, hx => by
    obtain ⟨a, items, h1, hp, ho, hi⟩ := hx
    exact ⟨a, items, h1, ⟨hp, lt_of_get ho⟩, ho, jsonList_lt vs items hi⟩
  | .dict d, x, hx => by
    obtain ⟨a, items, h1, hp, ho, hi⟩ := hx
    exact ⟨a, items, h1, ⟨hp, lt_of_get ho⟩, ho, jsonDict_lt d items hi⟩
  | .none, x, hx => hx
  | .bool _, x, hx => hx
  | .int _, x, hx => hx
  | .float _, x, hx => hx
  | .str _, x, hx => hx
  | .opt, x, hx => hx

theorem jsonList_lt {P : Nat → Prop} {h : Heap} : ∀ (vs : List Val) (items : List (String × HV)),
    JsonList P h vs items → JsonList (fun a => P a ∧ a < h.length) h vs items
  | [], _, hi => hi
  | v :: vs, _, hi => by
    obtain ⟨e, rest, rfl, h1, h2⟩ := hi
    exact ⟨e, rest, rfl, json_lt v _ h1, jsonList_lt vs rest h2⟩

theorem jsonDict_lt {P : Nat → Prop} {h : Heap} : ∀ (d : List (String × Val)) (items : List (String × HV)),
    JsonDict P h d items → JsonDict (fun a => P a ∧ a < h.length) h d items
  | [], _, hi => hi
  | (k, v) :: d, _, hi => by
    obtain ⟨x, rest, rfl, h1, h2⟩ := hi
    exact ⟨x, rest, rfl, json_lt v _ h1, jsonDict_lt d rest h2⟩
end

/-! ## Dicts from fields in a fixed order -/

theorem itemGet_none {items : List (String × HV)} {k : String} (h : k ∉ items.map Prod.fst) :
    itemGet items k = none := by
  induction items with
  | nil => rfl
  | cons e rest ih =>
    obtain ⟨k', v⟩ := e
    rw [List.map_cons, List.mem_cons, not_or] at h
    rw [itemGet, if_neg (Ne.symm h.1)]
    exact ih h.2

theorem jsonDict_canon {P : Nat → Prop} {h : Heap} {val : String → Option Val} :
    ∀ (c : List String), c.Nodup → ∀ (items : List (String × HV)), List.Sublist (items.map Prod.fst) c →
      (∀ k ∈ c, IsPlain P h (itemGet items k) (val k)) →
      JsonDict P h (c.flatMap fun k => plainEntry k (val k)) items
  | [], _, items, hs, _ => by
    have : items = [] := List.map_eq_nil_iff.mp (List.sublist_nil.mp hs)
    rw [this]; rfl
  | k :: c, hn, items, hs, hp => by
    rw [List.nodup_cons] at hn
    rw [List.flatMap_cons]
    by_cases hk : k ∈ items.map Prod.fst
    · cases items with
      | nil => cases hk
      | cons e rest =>
        obtain ⟨k', x⟩ := e
        have hkk : k' = k ∧ List.Sublist (rest.map Prod.fst) c := by
          rw [List.map_cons] at hs hk
          cases hs with
          | cons _ h' => exact absurd (h'.subset hk) hn.1
          | cons_cons _ h' => exact ⟨rfl, h'⟩
        obtain ⟨rfl, hs'⟩ := hkk
        have h0 := hp k' List.mem_cons_self
        rw [itemGet, if_pos rfl] at h0
        cases hv : val k' with
        | none => rw [hv] at h0; cases h0
        | some v =>
          rw [hv] at h0
          obtain ⟨y, h1, h2⟩ := h0
          cases h1
          refine ⟨x, rest, rfl, h2, jsonDict_canon c hn.2 rest hs' fun k2 hk2 => ?_⟩
          have := hp k2 (List.mem_cons_of_mem _ hk2)
          rw [itemGet, if_neg (fun h : k' = k2 => hn.1 (h ▸ hk2))] at this
          exact this
    · have h0 := hp k List.mem_cons_self
      rw [itemGet_none hk] at h0
      have hs' : List.Sublist (items.map Prod.fst) c := by
        generalize items.map Prod.fst = l at hs hk
        cases hs with
        | cons _ h' => exact h'
        | cons_cons _ h' => exact absurd List.mem_cons_self hk
      cases hv : val k with
      | some v => rw [hv] at h0; obtain ⟨y, h1, _⟩ := h0; cases h1
      | none => exact jsonDict_canon c hn.2 items hs' fun k2 hk2 => hp k2 (List.mem_cons_of_mem _ hk2)

/-! ## `remove_optional` -/

theorem isOpt_json {P : Nat → Prop} {h : Heap} {v : Val} {x : HV} (hj : Json P h v x) : x.isOpt = v.isOpt := by
  match x with
  | .imm i => rw [json_imm_iff hj]; cases i <;> rfl
  | .ref a =>
    obtain ⟨_, _, _, _, hk⟩ := json_ref hj
    rcases hk with ⟨vs, rfl, _⟩ | ⟨d, rfl, _⟩ <;> rfl

theorem jsonDict_filter {P : Nat → Prop} {h : Heap} {d : List (String × Val)} {items : List (String × HV)}
    (hj : JsonDict P h d items) : JsonDict P h (removeOptional d) (items.filter fun e => !e.2.isOpt) := by
  induction d generalizing items with
  | nil => rw [show items = [] from hj]; rfl
  | cons e d ih =>
    obtain ⟨k, v⟩ := e
    obtain ⟨x, rest, rfl, h1, h2⟩ := hj
    have hi := isOpt_json h1
    unfold removeOptional at ih ⊢
    rw [List.filter_cons, List.filter_cons]
    simp only [hi]
    split
    · exact ⟨x, _, rfl, h1, ih h2⟩
    · exact ih h2

/-! ## Simulation -/

/-- Running `m` from `s` has the outcome `r`: a new JSON value, or the same exception. -/
def OutSim (m : HM HV) (s : St) : Except PyErr Val → Prop
  | .ok v => ∃ x s', m s = (.ok x, s') ∧ Grow s s' ∧ Json (fun a => s.heap.length ≤ a) s'.heap v x
  | .error e => ∃ s', m s = (.error (.py e), s') ∧ Grow s s'

/-- `remove_optional` on a dict object. -/
theorem removeOptional_run {s0 s : St} {d : Nat} {f : List (String × Val)} {items : List (String × HV)}
    (g : Grow s0 s) (ho : s.heap[d]? = some ⟨.dict, items⟩)
    (hj : JsonDict (fun a => s0.heap.length ≤ a) s.heap f items) :
    ∃ x s', removeOptionalH d s = (.ok x, s') ∧ Grow s0 s' ∧
      Json (fun a => s0.heap.length ≤ a) s'.heap (.dict (removeOptional f)) x := by
  have g2 := alloc_grow s ⟨.dict, items.filter fun e => !e.2.isOpt⟩
  refine ⟨.ref s.heap.length, _, ?_, g.trans g2, ?_⟩
  · unfold removeOptionalH; rw [read_bind ho]; rfl
  · exact ⟨_, _, rfl, g.len, alloc_get _ _, jsonDict_mono (g2.keeps _) (fun _ h => h) _ _ (jsonDict_filter hj)⟩

/-- `to_dict` of an attrs instance. -/
theorem attrsToDict_sim {S : Heap} {fuel : Nat} {a : AttrsObj} {x : HV} (hx : IsAttrs anywhere S a x)
    (hd : depthDict a.fields + 1 ≤ fuel) (s : St) (hs : Has S s) :
    OutSim (baseToDictH fuel x) s (.ok a.toDict) := by
  obtain ⟨r, s1, h1, g1, hr⟩ := asdict_ok S fuel x s.heap.length s (fin_attrs hx hd) hs (Nat.le_refl _)
  obtain ⟨b, items, rfl, hb, ho, hj⟩ := hr.attrs a hx
  obtain ⟨y, s2, h2, g2, hy⟩ := removeOptional_run g1 ho hj
  refine ⟨y, s2, ?_, g2, hy⟩
  unfold baseToDictH
  rw [bind_run, h1]
  exact h2

/-- The value in the serialised mark. -/
def markAttrsVal : Slot AttrsObj → Option Val
  | .absent => none
  | .opt => some .opt
  | .raw v => some v
  | .val a => some (.dict a.fields)

theorem forall2_get {S h : Heap} {N : Nat} {items items' : List (String × HV)}
    (hr : List.Forall₂ (AsItem S N h) items items') (k : String) :
    (itemGet items k = none ∧ itemGet items' k = none) ∨
      ∃ x y, itemGet items k = some x ∧ itemGet items' k = some y ∧ AsRel S N h x y := by
  induction hr with
  | nil => exact .inl ⟨rfl, rfl⟩
  | @cons e e' _ _ he _ ih =>
    obtain ⟨k1, x⟩ := e
    obtain ⟨k2, y⟩ := e'
    obtain ⟨h1, h2⟩ := he
    have : k1 = k2 := h1
    subst this
    rw [itemGet, itemGet]
    by_cases hk : k1 = k
    · rw [if_pos hk, if_pos hk]; exact .inr ⟨x, y, rfl, rfl, h2⟩
    · rw [if_neg hk, if_neg hk]; exact ih

theorem forall2_names {S h : Heap} {N : Nat} {items items' : List (String × HV)}
    (hr : List.Forall₂ (AsItem S N h) items items') : items'.map Prod.fst = items.map Prod.fst := by
  induction hr with
  | nil => rfl
  | cons he _ ih => rw [List.map_cons, List.map_cons, ih, he.1]

/-- A plain field after `asdict`. -/
theorem plain_as {S h : Heap} {N : Nat} {items items' : List (String × HV)}
    (hr : List.Forall₂ (AsItem S N h) items items') {k : String} {v : Option Val}
    (hp : IsPlain anywhere S (itemGet items k) v) : IsPlain (fun a => N ≤ a) h (itemGet items' k) v := by
  rcases forall2_get hr k with ⟨h1, h2⟩ | ⟨x, y, h1, h2, h3⟩ <;> rw [h1] at hp <;> rw [h2]
  · cases v with
    | none => rfl
    | some v => obtain ⟨_, h, _⟩ := hp; cases h
  · cases v with
    | none => cases hp
    | some v => obtain ⟨_, h, hj⟩ := hp; cases h; exact ⟨y, rfl, h3.json v hj⟩

/-- The `attrs` field after `asdict`. -/
theorem attrs_as {S h : Heap} {N : Nat} {items items' : List (String × HV)}
    (hr : List.Forall₂ (AsItem S N h) items items') {sl : Slot AttrsObj}
    (hp : IsSlot anywhere S (IsAttrs anywhere S) (itemGet items "attrs") sl) :
    IsPlain (fun a => N ≤ a) h (itemGet items' "attrs") (markAttrsVal sl) := by
  rcases forall2_get hr "attrs" with ⟨h1, h2⟩ | ⟨x, y, h1, h2, h3⟩ <;> rw [h1] at hp <;> rw [h2]
  · cases sl with
    | absent => rfl
    | opt => cases hp
    | raw v => obtain ⟨_, _, h, _⟩ := hp; cases h
    | val a => obtain ⟨_, h, _⟩ := hp; cases h
  · cases sl with
    | absent => cases hp
    | opt =>
      cases hp
      rw [h3.imm _ rfl]
      exact ⟨_, rfl, json_imm .opt⟩
    | raw v => obtain ⟨_, _, h, hj⟩ := hp; cases h; exact ⟨y, rfl, h3.json v hj⟩
    | val a => obtain ⟨_, h, hj⟩ := hp; cases h; exact ⟨y, rfl, h3.attrs a hj⟩

theorem markFields_sublist (c : MarkCls) : List.Sublist (c.fields.map Field.name) ["type", "attrs"] := by
  cases c <;> decide

/-- `to_dict` of a mark instance. -/
theorem markToDict_sim {S : Heap} {fuel : Nat} {m : Mark} {x : HV} (hx : IsMark anywhere S m x)
    (hd : depthMark m ≤ fuel) (s : St) (hs : Has S s) : OutSim (toDictH fuel x) s (.ok m.toDict) := by
  obtain ⟨p, items, rfl, _, ho, hn, ht, ha⟩ := hx
  obtain ⟨fuel, rfl⟩ : ∃ k, fuel = k + 1 := ⟨fuel - 1, by unfold depthMark at hd; omega⟩
  obtain ⟨s1, items', g1, hr, h1⟩ := asdict_root (asdict_ok S fuel) ho (fin_mark_items hn ht ha hd)
    s.heap.length s hs (Nat.le_refl _)
  have g2 := alloc_grow s1 ⟨.dict, items'⟩
  have hj : JsonDict (fun a => s.heap.length ≤ a) s1.heap
      (["type", "attrs"].flatMap fun k => plainEntry k (if k = "type" then some m.type else markAttrsVal m.attrs))
      items' := by
    refine jsonDict_canon _ (by decide) items' ?_ ?_
    · rw [forall2_names hr, hn]; exact markFields_sublist _
    · intro k hk
      simp only [List.mem_cons, List.not_mem_nil, or_false] at hk
      rcases hk with rfl | rfl
      · exact plain_as hr ht
      · exact attrs_as hr ha
  obtain ⟨y, s2, h2, g3, hy⟩ := removeOptional_run (g1.trans g2) (alloc_get s1 ⟨.dict, items'⟩)
    (jsonDict_mono (g2.keeps _) (fun _ h => h) _ _ hj)
  refine ⟨y, s2, ?_, g3, ?_⟩
  · rw [toDictH, read_bind (hs p _ ho)]
    simp only
    unfold baseToDictH
    rw [bind_run, h1]
    exact h2
  · have : m.toDict = .dict (removeOptional (["type", "attrs"].flatMap fun k =>
        plainEntry k (if k = "type" then some m.type else markAttrsVal m.attrs))) := by
      unfold Mark.toDict Mark.attrsEntry
      cases m.attrs <;> rfl
    rw [this]; exact hy

/-! ## Lists -/

/-- Results in order, up to the first error. -/
def seqD {α : Type} (f : α → Except PyErr Val) : List α → Except PyErr (List Val)
  | [] => .ok []
  | a :: as =>
    match f a with
    | .error e => .error e
    | .ok v =>
      match seqD f as with
      | .error e => .error e
      | .ok vs => .ok (v :: vs)

theorem seqD_node (ns : List Node) : seqD Node.toDict ns = listToDict ns := by
  induction ns with
  | nil => rw [listToDict]; rfl
  | cons n ns ih => rw [seqD, listToDict, ih]; rfl

theorem seqD_mark (ms : List Mark) : seqD (fun m => .ok (Mark.toDict m)) ms = .ok (ms.map Mark.toDict) := by
  induction ms with
  | nil => rfl
  | cons n ns ih => simp only [seqD, ih, List.map_cons]

/-- The value in the serialised node for a list field. -/
def listVal {α : Type} (f : α → Except PyErr Val) : Slot (List α) → Except PyErr (Option Val)
  | .absent => .ok none
  | .opt => .ok (some .opt)
  | .raw v => (rawToDict v).map some
  | .val as => (seqD f as).map fun l => some (.list l)

/-- The calls on the elements. -/
def CallSim {α : Type} (S : Heap) (call : HV → HM HV) (is : α → HV → Prop) (f : α → Except PyErr Val)
    (as : List α) : Prop :=
  ∀ a ∈ as, ∀ x s, is a x → Has S s → OutSim (call x) s (f a)

theorem map_sim {α : Type} {S : Heap} {call : HV → HM HV} {is : α → HV → Prop} {f : α → Except PyErr Val}
    {as : List α} (hc : CallSim S call is f as) {items : List (String × HV)}
    (hr : List.Forall₂ (fun a (e : String × HV) => is a e.2) as items) (s : St) (hs : Has S s) :
    match seqD f as with
    | .ok vs => ∃ xs s', mapH call items s = (.ok xs, s') ∧ Grow s s' ∧
        JsonList (fun a => s.heap.length ≤ a) s'.heap vs (xs.map fun v => ("", v))
    | .error e => ∃ s', mapH call items s = (.error (.py e), s') ∧ Grow s s' := by
  induction hr generalizing s with
  | nil => exact ⟨[], s, rfl, .refl s, rfl⟩
  | @cons a e as items h1 _ ih =>
    have hcall := hc a List.mem_cons_self e.2 s h1 hs
    unfold seqD mapH
    cases hf : f a with
    | error er =>
      rw [hf] at hcall
      obtain ⟨s', h2, g⟩ := hcall
      refine ⟨s', ?_, g⟩
      rw [bind_run, h2]
    | ok v =>
      rw [hf] at hcall
      obtain ⟨x, s1, h2, g1, hx⟩ := hcall
      have hrest := ih (fun a ha => hc a (List.mem_cons_of_mem _ ha)) s1 (hs.grow g1)
      cases hq : seqD f as with
      | error er =>
        rw [hq] at hrest
        obtain ⟨s2, h3, g2⟩ := hrest
        refine ⟨s2, ?_, g1.trans g2⟩
        rw [bind_run, h2]
        simp only
        rw [bind_run, h3]
      | ok vs =>
        rw [hq] at hrest
        obtain ⟨xs, s2, h3, g2, hxs⟩ := hrest
        refine ⟨x :: xs, s2, ?_, g1.trans g2, ("", x), _, rfl, ?_, ?_⟩
        · rw [bind_run, h2]
          simp only
          rw [bind_run, h3]
          rfl
        · exact json_mono (g2.keeps _) (fun _ h => h) _ _ hx
        · exact jsonList_mono (fun a o _ h => h) (fun a h => Nat.le_trans g1.len h) _ _ hxs

theorem newList_run (s : St) {vs : List Val} {items : List (String × HV)}
    {s0 : St} (g : Grow s0 s) (hj : JsonList (fun a => s0.heap.length ≤ a) s.heap vs items) :
    ∃ x s', (HM.alloc ⟨.list, items⟩ >>= fun r => HM.pure (HV.ref r)) s = (.ok x, s') ∧ Grow s0 s' ∧
      Json (fun a => s0.heap.length ≤ a) s'.heap (.list vs) x := by
  have g2 := alloc_grow s ⟨.list, items⟩
  exact ⟨.ref s.heap.length, _, rfl, g.trans g2, _, _, rfl, g.len, alloc_get _ _,
    jsonList_mono (g2.keeps _) (fun _ h => h) _ _ hj⟩

/-- `[c.to_dict() for c in v]` over converted elements. -/
theorem listToDict_val {α : Type} {S : Heap} {call : HV → HM HV} {is : α → HV → Prop}
    {f : α → Except PyErr Val} {as : List α} (hc : CallSim S call is f as) {x : HV}
    (hx : IsList anywhere S is as x) (s : St) (hs : Has S s) :
    OutSim (listToDictH call x) s (match seqD f as with | .ok vs => .ok (.list vs) | .error e => .error e) := by
  obtain ⟨p, items, rfl, _, ho, hr⟩ := hx
  have hm := map_sim hc hr s hs
  unfold listToDictH
  simp only
  rw [OutSim.eq_def]
  cases hq : seqD f as with
  | error e =>
    rw [hq] at hm
    obtain ⟨s', h1, g⟩ := hm
    refine ⟨s', ?_, g⟩
    rw [read_bind (hs p _ ho)]
    simp only
    rw [bind_run, h1]
  | ok vs =>
    rw [hq] at hm
    obtain ⟨xs, s1, h1, g1, hj⟩ := hm
    obtain ⟨y, s2, h2, g2, hy⟩ := newList_run s1 g1 hj
    refine ⟨y, s2, ?_, g2, hy⟩
    rw [read_bind (hs p _ ho)]
    simp only
    rw [bind_run, h1]
    exact h2

/-- `[c.to_dict() for c in v]` over an unconverted value. -/
theorem listToDict_raw {S : Heap} {call : HV → HM HV} {v : Val} {x : HV}
    (hc : 2 ≤ depth v → ∀ w y s, Json anywhere S w y → Has S s →
      ∃ s', call y s = (.error (.py .attributeError), s') ∧ Grow s s')
    (hx : Json anywhere S v x) (s : St) (hs : Has S s) :
    OutSim (listToDictH call x) s (rawToDict v) := by
  match x with
  | .imm i =>
    rw [json_imm_iff hx]
    match i with
    | .str [] => exact newList_run s (.refl s) (vs := []) (items := []) rfl
    | .str (_ :: _) => exact ⟨s, rfl, .refl s⟩
    | .none => exact ⟨s, rfl, .refl s⟩
    | .bool _ => exact ⟨s, rfl, .refl s⟩
    | .int _ => exact ⟨s, rfl, .refl s⟩
    | .float _ => exact ⟨s, rfl, .refl s⟩
    | .opt => exact ⟨s, rfl, .refl s⟩
  | .ref a =>
    obtain ⟨_, o, ho, _, hk⟩ := json_ref hx
    unfold listToDictH
    simp only
    rcases hk with ⟨vs, rfl, hk, hl⟩ | ⟨d, rfl, hk, hd⟩
    · cases vs with
      | nil =>
        obtain ⟨y, s2, h2, g2, hy⟩ := newList_run s (.refl s) (vs := []) (items := []) rfl
        refine ⟨y, s2, ?_, g2, hy⟩
        rw [read_bind (hs a _ ho), hk]
        simp only
        rw [show o.items = [] from hl]
        exact h2
      | cons w vs =>
        obtain ⟨e, rest, hi, hw, _⟩ := hl
        obtain ⟨s', h1, g⟩ := hc (by simp only [depth, depthList]; have := depth_pos w; omega) w e.2 s hw hs
        refine ⟨s', ?_, g⟩
        rw [read_bind (hs a _ ho), hk]
        simp only
        rw [hi, bind_run, mapH, bind_run, h1]
    · cases d with
      | nil =>
        obtain ⟨y, s2, h2, g2, hy⟩ := newList_run s (.refl s) (vs := []) (items := []) rfl
        refine ⟨y, s2, ?_, g2, hy⟩
        rw [read_bind (hs a _ ho), hk]
        simp only
        rw [show o.items = [] from hd]
        exact h2
      | cons w d =>
        obtain ⟨k, w⟩ := w
        obtain ⟨y, rest, hi, hw, _⟩ := hd
        refine ⟨s, ?_, .refl s⟩
        rw [read_bind (hs a _ ho), hk]
        simp only
        rw [hi]
        rfl

/-- JSON values have no `to_dict`. -/
theorem toDict_json {S : Heap} {fuel : Nat} (hf : 1 ≤ fuel) {w : Val} {y : HV} (hw : Json anywhere S w y)
    (s : St) (hs : Has S s) : ∃ s', toDictH fuel y s = (.error (.py .attributeError), s') ∧ Grow s s' := by
  refine ⟨s, ?_, .refl s⟩
  match y with
  | .imm i => rw [toDictH]; rfl
  | .ref a =>
    obtain ⟨fuel, rfl⟩ : ∃ k, fuel = k + 1 := ⟨fuel - 1, by omega⟩
    obtain ⟨_, o, ho, _, hk⟩ := json_ref hw
    rw [toDictH, read_bind (hs a _ ho)]
    rcases hk with ⟨vs, _, hk, _⟩ | ⟨d, _, hk, _⟩ <;> rw [hk] <;> rfl

/-! ## The dict being filled -/

/-- The addresses of the parts of the dict being filled at `d`. -/
def Parts (N d : Nat) : Nat → Prop := fun a => N ≤ a ∧ a ≠ d

/-- From `s` to `s'`, the entry `key` of the dict at `d` may have changed; it is now `v`. -/
structure Filled (N d : Nat) (key : String) (s s' : St) (items items' : List (String × HV)) (v : Option Val) :
    Prop where
  log : s'.log = s.log
  len : s.heap.length ≤ s'.heap.length
  old : ∀ a, a < s.heap.length → a ≠ d → s'.heap[a]? = s.heap[a]?
  obj : s'.heap[d]? = some ⟨.dict, items'⟩
  names : items'.map Prod.fst = items.map Prod.fst
  other : ∀ k, k ≠ key → itemGet items' k = itemGet items k
  val : IsPlain (Parts N d) s'.heap (itemGet items' key) v

theorem Filled.noop {N d : Nat} {key : String} {s : St} {items : List (String × HV)} {v : Option Val}
    (ho : s.heap[d]? = some ⟨.dict, items⟩) (hv : IsPlain (Parts N d) s.heap (itemGet items key) v) :
    Filled N d key s s items items v := ⟨rfl, Nat.le_refl _, fun _ _ _ => rfl, ho, rfl, fun _ _ => rfl, hv⟩

theorem itemSet_names (items : List (String × HV)) (k : String) (v : HV) :
    (itemSet items k v).map Prod.fst = items.map Prod.fst := by
  induction items with
  | nil => rfl
  | cons e rest ih =>
    obtain ⟨k', v'⟩ := e
    unfold itemSet
    by_cases hk : k' = k
    · rw [if_pos hk]; rfl
    · rw [if_neg hk, List.map_cons, List.map_cons, ih]

theorem setItem_run {s : St} {d : Nat} {items : List (String × HV)} (ho : s.heap[d]? = some ⟨.dict, items⟩)
    (k : String) (v : HV) : HM.setItem d k v s = (.ok (), { s with heap := s.heap.set d ⟨.dict, itemSet items k v⟩ }) := by
  unfold HM.setItem; rw [read_bind ho]; rfl

theorem Filled.set {N d : Nat} {key : String} {s s1 : St} {items : List (String × HV)} {v : Val} {x : HV}
    (hN : N ≤ s.heap.length) (ho : s.heap[d]? = some ⟨.dict, items⟩) (g : Grow s s1)
    (hk : (itemGet items key).isSome = true) (hx : Json (fun a => s.heap.length ≤ a) s1.heap v x) :
    Filled N d key s { s1 with heap := s1.heap.set d ⟨.dict, itemSet items key x⟩ } items (itemSet items key x)
      (some v) := by
  have hlt := lt_of_get ho
  have hlt1 : d < s1.heap.length := Nat.lt_of_lt_of_le hlt g.len
  refine ⟨g.log, by simp only [List.length_set]; exact g.len, ?_, ?_, itemSet_names _ _ _,
    fun k hk => itemGet_itemSet_ne hk, x, itemGet_itemSet_self hk, ?_⟩
  · intro a ha hne
    simp only
    rw [List.getElem?_set_ne (Ne.symm hne), g.old a ha]
  · simp only
    rw [List.getElem?_set_self hlt1]
  · refine json_mono (P := fun a => s.heap.length ≤ a) ?_ (fun a h => ⟨Nat.le_trans hN h, by omega⟩) _ _ hx
    intro a o ha ho'
    simp only
    rw [List.getElem?_set_ne (by omega)]
    exact ho'

theorem isPlain_same {P : Nat → Prop} {h h' : Heap} {x x' : Option HV} {v : Option Val}
    (hp : IsPlain P h x v) (hk : Keeps' P h h') (hx : x' = x) : IsPlain P h' x' v := by
  rw [hx]; exact isPlain_mono hk (fun _ h => h) hp

/-- The attrs step. -/
theorem attrsField_sim {S : Heap} {fuel : Nat} {self items : List (String × HV)} {sl : Slot AttrsObj}
    (hp : IsSlot anywhere S (IsAttrs anywhere S) (itemGet self "attrs") sl) (hdp : depthAttrs sl ≤ fuel)
    {N d : Nat} {s : St} (hs : Has S s) (hN : N ≤ s.heap.length) (ho : s.heap[d]? = some ⟨.dict, items⟩)
    (ha : IsPlain (Parts N d) s.heap (itemGet items "attrs") (markAttrsVal sl)) :
    ∃ s' items', attrsFieldH fuel self d s = (.ok (), s') ∧
      Filled N d "attrs" s s' items items' (attrsVal sl) := by
  unfold attrsFieldH
  rw [read_bind ho]
  simp only
  cases sl with
  | absent =>
    have h0 : itemGet items "attrs" = none := ha
    rw [h0]
    exact ⟨s, items, rfl, .noop ho ha⟩
  | opt =>
    have ha' := ha
    obtain ⟨y, h1, i, rfl, hi⟩ := ha
    rw [h1]
    have : i = .opt := by cases i <;> first | rfl | cases hi
    rw [this]
    exact ⟨s, items, rfl, .noop ho ha'⟩
  | raw v =>
    have ha' := ha
    obtain ⟨hne, z, h2, hz⟩ := hp
    obtain ⟨y, h1, hy⟩ := ha
    rw [h1, h2]
    refine ⟨s, items, ?_, .noop ho ha'⟩
    have hopt : y.isOpt = false := by
      rw [isOpt_json hy]; cases v <;> first | rfl | exact absurd rfl hne
    match y, z with
    | .imm .opt, _ => cases hopt
    | .imm .none, .imm _ => rfl
    | .imm (.bool _), .imm _ => rfl
    | .imm (.int _), .imm _ => rfl
    | .imm (.float _), .imm _ => rfl
    | .imm (.str _), .imm _ => rfl
    | .ref _, .imm _ => rfl
    | .imm .none, .ref a =>
      obtain ⟨_, o, hz1, _, hk⟩ := json_ref hz
      simp only
      rw [read_bind (hs a _ hz1)]
      rcases hk with ⟨_, _, hk, _⟩ | ⟨_, _, hk, _⟩ <;> rw [hk] <;> rfl
    | .imm (.bool _), .ref a =>
      obtain ⟨_, o, hz1, _, hk⟩ := json_ref hz
      simp only
      rw [read_bind (hs a _ hz1)]
      rcases hk with ⟨_, _, hk, _⟩ | ⟨_, _, hk, _⟩ <;> rw [hk] <;> rfl
    | .imm (.int _), .ref a =>
      obtain ⟨_, o, hz1, _, hk⟩ := json_ref hz
      simp only
      rw [read_bind (hs a _ hz1)]
      rcases hk with ⟨_, _, hk, _⟩ | ⟨_, _, hk, _⟩ <;> rw [hk] <;> rfl
    | .imm (.float _), .ref a =>
      obtain ⟨_, o, hz1, _, hk⟩ := json_ref hz
      simp only
      rw [read_bind (hs a _ hz1)]
      rcases hk with ⟨_, _, hk, _⟩ | ⟨_, _, hk, _⟩ <;> rw [hk] <;> rfl
    | .imm (.str _), .ref a =>
      obtain ⟨_, o, hz1, _, hk⟩ := json_ref hz
      simp only
      rw [read_bind (hs a _ hz1)]
      rcases hk with ⟨_, _, hk, _⟩ | ⟨_, _, hk, _⟩ <;> rw [hk] <;> rfl
    | .ref _, .ref a =>
      obtain ⟨_, o, hz1, _, hk⟩ := json_ref hz
      simp only
      rw [read_bind (hs a _ hz1)]
      rcases hk with ⟨_, _, hk, _⟩ | ⟨_, _, hk, _⟩ <;> rw [hk] <;> rfl
  | val a =>
    obtain ⟨z, h2, hz⟩ := hp
    obtain ⟨y, h1, hy⟩ := ha
    obtain ⟨b, items1, rfl, _, _, _⟩ := hy
    rw [h1, h2]
    obtain ⟨x, s1, hrun, g1, hx⟩ := attrsToDict_sim hz hdp s hs
    obtain ⟨p, aitems, rfl, _, hpo, _⟩ := hz
    refine ⟨_, _, ?_, Filled.set hN ho g1 (by rw [h1]; rfl) hx⟩
    simp only
    rw [read_bind (hs p _ hpo)]
    simp only
    rw [bind_run, hrun]
    simp only
    rw [setItem_run ((g1.old d (lt_of_get ho)).trans ho)]

/-- A list step: `m` is what the value model says about the entry. -/
theorem listField_sim {α : Type} {S : Heap} {key : String} {call : HV → HM HV} {is : α → HV → Prop}
    {f : α → Except PyErr Val} {self items : List (String × HV)} {sl : Slot (List α)}
    (hp : IsSlot anywhere S (IsList anywhere S is) (itemGet self key) sl)
    (hraw : ∀ v, sl = .raw v → 2 ≤ depth v → ∀ w y s, Json anywhere S w y → Has S s →
      ∃ s', call y s = (.error (.py .attributeError), s') ∧ Grow s s')
    (hval : ∀ as, sl = .val as → CallSim S call is f as)
    {N d : Nat} {s : St} (hs : Has S s) (hN : N ≤ s.heap.length) (ho : s.heap[d]? = some ⟨.dict, items⟩)
    (hnone : itemGet self key = none → itemGet items key = none)
    (himm : ∀ i, itemGet self key = some (.imm i) → itemGet items key = some (.imm i))
    (href : ∀ a, itemGet self key = some (.ref a) → ∃ b, itemGet items key = some (.ref b)) :
    match listVal f sl with
    | .ok v => ∃ s' items', listFieldH key call self d s = (.ok (), s') ∧ Filled N d key s s' items items' v
    | .error e => ∃ s', listFieldH key call self d s = (.error (.py e), s') ∧ Grow s s' := by
  have hcall : ∀ (z : HV) (r : Except PyErr Val), itemGet self key = some z → z.isOpt = false →
      OutSim (listToDictH call z) s r →
      match r.map some with
      | .ok v => ∃ s' items', listFieldH key call self d s = (.ok (), s') ∧ Filled N d key s s' items items' v
      | .error e => ∃ s', listFieldH key call self d s = (.error (.py e), s') ∧ Grow s s' := by
    intro z r hz hopt hr
    have hex : ∃ y, itemGet items key = some y ∧ y.isOpt = false := by
      match z with
      | .imm i => exact ⟨_, himm i hz, hopt⟩
      | .ref a => obtain ⟨b, hb⟩ := href a hz; exact ⟨_, hb, rfl⟩
    obtain ⟨y, hy, hyo⟩ := hex
    have hstep : listFieldH key call self d s = (listToDictH call z >>= fun r => HM.setItem d key r) s := by
      unfold listFieldH
      rw [read_bind ho]
      simp only
      rw [hy, hz]
      match y with
      | .imm .opt => cases hyo
      | .imm .none => rfl
      | .imm (.bool _) => rfl
      | .imm (.int _) => rfl
      | .imm (.float _) => rfl
      | .imm (.str _) => rfl
      | .ref _ => rfl
    cases r with
    | error e =>
      obtain ⟨s', h1, g⟩ := hr
      refine ⟨s', ?_, g⟩
      rw [hstep, bind_run, h1]
    | ok v =>
      obtain ⟨x, s1, h1, g1, hx⟩ := hr
      refine ⟨_, _, ?_, Filled.set hN ho g1 (by rw [hy]; rfl) hx⟩
      rw [hstep, bind_run, h1]
      simp only
      rw [setItem_run ((g1.old d (lt_of_get ho)).trans ho)]
  cases sl with
  | absent =>
    have h0 : itemGet items key = none := hnone hp
    refine ⟨s, items, ?_, .noop ho h0⟩
    unfold listFieldH
    rw [read_bind ho]
    simp only
    rw [h0]
    rfl
  | opt =>
    have h0 := himm .opt hp
    refine ⟨s, items, ?_, .noop ho ⟨_, h0, json_imm .opt⟩⟩
    unfold listFieldH
    rw [read_bind ho]
    simp only
    rw [h0]
    rfl
  | raw v =>
    obtain ⟨hne, z, h2, hz⟩ := hp
    refine hcall z _ h2 ?_ (listToDict_raw (hraw v rfl) hz s hs)
    rw [isOpt_json hz]; cases v <;> first | rfl | exact absurd rfl hne
  | val as =>
    obtain ⟨z, h2, hz⟩ := hp
    have h3 := listToDict_val (hval as rfl) hz s hs
    have hopt : z.isOpt = false := by obtain ⟨p, _, rfl, _⟩ := hz; rfl
    have := hcall z _ h2 hopt h3
    unfold listVal
    simp only
    cases hq : seqD f as with
    | error e => rw [hq] at this; exact this
    | ok vs => rw [hq] at this; exact this

theorem contentEntry_eq (c : Slot (List Node)) :
    contentEntry c = (listVal Node.toDict c).map (plainEntry "content") := by
  cases c with
  | absent => rw [contentEntry]; rfl
  | opt => rw [contentEntry]; rfl
  | raw v => rw [contentEntry, listVal]; cases rawToDict v <;> rfl
  | val ns => rw [contentEntry, listVal, seqD_node]; cases listToDict ns <;> rfl

theorem marksEntry_eq (c : Slot (List Mark)) :
    marksEntry c = (listVal (fun m => .ok m.toDict) c).map (plainEntry "marks") := by
  cases c with
  | absent => rfl
  | opt => rfl
  | raw v => rw [marksEntry, listVal]; cases rawToDict v <;> rfl
  | val ns => rw [marksEntry, listVal, seqD_mark]; rfl

theorem Filled.grow {N d : Nat} {key : String} {s0 s s' : St} {items items' : List (String × HV)}
    {v : Option Val} (h : Filled N d key s s' items items' v) (g : Grow s0 s) (hd : s0.heap.length ≤ d) :
    Grow s0 s' :=
  ⟨h.log.trans g.log, Nat.le_trans g.len h.len, fun a ha =>
    (h.old a (Nat.lt_of_lt_of_le ha g.len) (by omega)).trans (g.old a ha)⟩

theorem Filled.carry {N d : Nat} {key k : String} {s s' : St} {items items' : List (String × HV)}
    {v w : Option Val} (h : Filled N d key s s' items items' v) (hk : k ≠ key)
    (hp : IsPlain (Parts N d) s.heap (itemGet items k) w) :
    IsPlain (Parts N d) s'.heap (itemGet items' k) w :=
  isPlain_same hp (fun a o ha ho => by rw [h.old a (lt_of_get ho) ha.2]; exact ho) (h.other k hk)

theorem slot_of_content {P : Nat → Prop} {h : Heap} {x : Option HV} {sl : Slot (List Node)}
    (hx : IsContent P h sl x) : IsSlot P h (IsList P h (IsNode P h)) x sl := by
  cases sl with
  | absent => exact hx
  | opt => exact hx
  | raw v => exact hx
  | val ns =>
    obtain ⟨p, items, rfl, hp, ho, hi⟩ := hx
    refine ⟨_, rfl, p, items, rfl, hp, ho, ?_⟩
    clear ho
    induction ns generalizing items with
    | nil => rw [show items = [] from hi]; exact .nil
    | cons n ns ih => obtain ⟨e, rest, rfl, h1, h2⟩ := hi; exact .cons h1 (ih rest h2)

theorem depth_mem_nodes {ns : List Node} {n : Node} (h : n ∈ ns) : depthNode n ≤ depthNodes ns := by
  induction ns with
  | nil => cases h
  | cons a ns ih =>
    rw [depthNodes]
    rcases List.mem_cons.mp h with rfl | h
    · omega
    · have := ih h; omega

theorem depth_mem_marks {ms : List Mark} {m : Mark} (h : m ∈ ms) :
    depthMark m ≤ (ms.map depthMark).foldr max 0 := by
  induction ms with
  | nil => cases h
  | cons a ms ih =>
    rw [List.map_cons, List.foldr_cons]
    rcases List.mem_cons.mp h with rfl | h
    · omega
    · have := ih h; omega

theorem plain_as_parts {N : Nat} {s1 : St} {items' : List (String × HV)}
    {k : String} {v : Option Val} (o : HObj)
    (hp : IsPlain (fun a => N ≤ a) s1.heap (itemGet items' k) v) :
    IsPlain (Parts N s1.heap.length) (s1.heap ++ [o]) (itemGet items' k) v := by
  cases v with
  | none => exact hp
  | some v =>
    obtain ⟨y, h1, h2⟩ := hp
    refine ⟨y, h1, json_mono (P := fun a => N ≤ a ∧ a < s1.heap.length) ?_ ?_ _ _ (json_lt _ _ h2)⟩
    · exact (alloc_grow s1 o).keeps _
    · intro a ha; exact ⟨ha.1, by omega⟩

/-- `to_dict` of a node instance. -/
theorem toDict_sim (fuel : Nat) : ∀ (n : Node) (x : HV) (S : Heap) (s : St), IsNode anywhere S n x →
    depthNode n ≤ fuel → Has S s → OutSim (toDictH fuel x) s n.toDict := by
  induction fuel with
  | zero => intro n x S s _ hd; cases n; rw [depthNode] at hd; omega
  | succ fuel ih =>
    intro n x S s hx hdp hs
    obtain ⟨hd, c⟩ := n
    have hx0 := hx
    obtain ⟨p, items, rfl, _, ho, hh, hc⟩ := hx
    rw [depthNode] at hdp
    obtain ⟨s1, items1, g1, hr, h1⟩ := asdict_root (asdict_ok S fuel) ho
      (fin_node_items hh (fun x hx => fin_content c (hx ▸ hc) (by omega)) (by omega))
      s.heap.length s hs (Nat.le_refl _)
    have hr' := hr
    obtain ⟨hn, ht, hv, hxt, ha, hm⟩ := hh
    have g2 : Grow s { s1 with heap := s1.heap ++ [⟨.dict, items1⟩] } := g1.trans (alloc_grow s1 ⟨.dict, items1⟩)
    obtain ⟨d, hdd⟩ : ∃ d, d = s1.heap.length := ⟨_, rfl⟩
    obtain ⟨s2, hs2⟩ : ∃ s2 : St, s2 = { s1 with heap := s1.heap ++ [⟨.dict, items1⟩] } := ⟨_, rfl⟩
    have hdN : s.heap.length ≤ d := by rw [hdd]; exact g1.len
    have ho2 : s2.heap[d]? = some ⟨.dict, items1⟩ := by rw [hs2, hdd]; exact alloc_get _ _
    have hpl : ∀ k v, IsPlain (fun a => s.heap.length ≤ a) s1.heap (itemGet items1 k) v →
        IsPlain (Parts s.heap.length d) s2.heap (itemGet items1 k) v := by
      intro k v h; rw [hs2, hdd]; exact plain_as_parts _ h
    have ht2 := hpl _ _ (plain_as hr ht)
    have hv2 := hpl _ _ (plain_as hr hv)
    have hx2 := hpl _ _ (plain_as hr hxt)
    have ha2 := hpl _ _ (attrs_as hr ha)
    rw [← hs2] at g2
    have hdh : depthAttrs hd.attrs ≤ fuel ∧ depthMarks hd.marks ≤ fuel := by
      unfold depthHd at hdp; omega
    -- attrs
    obtain ⟨s3, items3, h3, f3⟩ := attrsField_sim ha hdh.1 (hs.grow g2) g2.len ho2 ha2
    have g3 := f3.grow g2 hdN
    -- content
    have hnone : ∀ k, itemGet items k = none → itemGet items1 k = none := by
      intro k hk
      rcases forall2_get hr k with ⟨_, h⟩ | ⟨x, y, h, _⟩
      · exact h
      · rw [hk] at h; cases h
    have himm : ∀ k i, itemGet items k = some (.imm i) → itemGet items1 k = some (.imm i) := by
      intro k i hk
      rcases forall2_get hr k with ⟨h, _⟩ | ⟨x, y, h, h', hxy⟩
      · rw [hk] at h; cases h
      · rw [hk] at h; cases h; rw [h', hxy.imm i rfl]
    have href : ∀ k a, itemGet items k = some (.ref a) → ∃ b, itemGet items1 k = some (.ref b) := by
      intro k a hk
      rcases forall2_get hr k with ⟨h, _⟩ | ⟨x, y, h, h', hxy⟩
      · rw [hk] at h; cases h
      · rw [hk] at h; cases h
        obtain ⟨b, rfl⟩ := hxy.ref a rfl
        exact ⟨b, h'⟩
    have hcont := listField_sim (f := Node.toDict) (call := toDictH fuel) (key := "content")
      (slot_of_content hc)
      (by
        intro v hv h2 w y s' hw hs'
        rw [hv, depthContent] at hdp
        exact toDict_json (by omega) hw s' hs')
      (by
        intro as has a ha' y s' hy hs'
        rw [has, depthContent] at hdp
        have := depth_mem_nodes ha'
        exact ih a y S s' hy (by omega) hs')
      (hs.grow g3) g3.len f3.obj
      (by rw [f3.other _ (by decide)]; exact hnone _) (by rw [f3.other _ (by decide)]; exact himm _)
      (by rw [f3.other _ (by decide)]; exact href _)
    have hrun : toDictH (fuel + 1) (.ref p) s = (do
        listFieldH "content" (toDictH fuel) items d
        listFieldH "marks" (toDictH fuel) items d
        removeOptionalH d : HM HV) s3 := by
      rw [toDictH, read_bind (hs p _ ho)]
      simp only
      rw [bind_run, h1]
      show (attrsFieldH fuel items s1.heap.length >>= _) { s1 with heap := s1.heap ++ [⟨.dict, items1⟩] } = _
      rw [← hs2, ← hdd, bind_run, h3]
    rw [Node.toDict, contentEntry_eq, marksEntry_eq]
    cases hq : listVal Node.toDict c with
    | error e =>
      rw [hq] at hcont
      obtain ⟨s4, h4, g4⟩ := hcont
      refine ⟨s4, ?_, g3.trans g4⟩
      rw [hrun, bind_run, h4]
    | ok cv =>
      rw [hq] at hcont
      obtain ⟨s4, items4, h4, f4⟩ := hcont
      have g4 := f4.grow g3 hdN
      have hmarks := listField_sim (f := fun m => .ok (Mark.toDict m)) (call := toDictH fuel) (key := "marks") hm
        (by
          intro v hv h2 w y s' hw hs'
          have := hdh.2
          rw [hv, depthMarks] at this
          exact toDict_json (by omega) hw s' hs')
        (by
          intro as has a ha' y s' hy hs'
          have := hdh.2
          rw [has, depthMarks] at this
          have := depth_mem_marks ha'
          exact markToDict_sim hy (by omega) s' hs')
        (hs.grow g4) g4.len f4.obj
        (by rw [f4.other _ (by decide), f3.other _ (by decide)]; exact hnone _)
        (by rw [f4.other _ (by decide), f3.other _ (by decide)]; exact himm _)
        (by rw [f4.other _ (by decide), f3.other _ (by decide)]; exact href _)
      cases hq2 : listVal (fun m => .ok (Mark.toDict m)) hd.marks with
      | error e =>
        rw [hq2] at hmarks
        obtain ⟨s5, h5, g5⟩ := hmarks
        refine ⟨s5, ?_, g4.trans g5⟩
        rw [hrun, bind_run, h4]
        simp only
        rw [bind_run, h5]
      | ok mv =>
        rw [hq2] at hmarks
        obtain ⟨s5, items5, h5, f5⟩ := hmarks
        have g5 := f5.grow g4 hdN
        have hj : JsonDict (Parts s.heap.length d) s5.heap (canon.flatMap fun k => plainEntry k
            (if k = "type" then some hd.type else if k = "version" then hd.version else
              if k = "text" then hd.text else if k = "attrs" then attrsVal hd.attrs else
              if k = "content" then cv else mv)) items5 := by
          refine jsonDict_canon _ (by decide) items5 ?_ ?_
          · rw [f5.names, f4.names, f3.names, forall2_names hr, hn]; exact nodeFields_sublist _
          · intro k hk
            simp only [canon, List.mem_cons, List.not_mem_nil, or_false] at hk
            rcases hk with rfl | rfl | rfl | rfl | rfl | rfl
            · exact f5.carry (by decide) (f4.carry (by decide) (f3.carry (by decide) ht2))
            · exact f5.carry (by decide) (f4.carry (by decide) (f3.carry (by decide) hv2))
            · exact f5.carry (by decide) (f4.carry (by decide) (f3.carry (by decide) hx2))
            · exact f5.carry (by decide) (f4.carry (by decide) f3.val)
            · exact f5.carry (by decide) f4.val
            · exact f5.val
        obtain ⟨y, s6, h6, g6, hy⟩ := removeOptional_run g5 f5.obj
          (jsonDict_mono (fun a o _ h => h) (fun a h => h.1) _ _ hj)
        refine ⟨y, s6, ?_, g6, ?_⟩
        · rw [hrun, bind_run, h4]
          simp only
          rw [bind_run, h5]
          exact h6
        · have : (("type", hd.type) :: (plainEntry "version" hd.version ++ plainEntry "text" hd.text ++
              nodeAttrsEntry hd.attrs ++ plainEntry "content" cv ++ plainEntry "marks" mv)) =
              canon.flatMap fun k => plainEntry k
                (if k = "type" then some hd.type else if k = "version" then hd.version else
                  if k = "text" then hd.text else if k = "attrs" then attrsVal hd.attrs else
                  if k = "content" then cv else mv) := by
            rw [nodeAttrsEntry_eq]
            simp [canon, plainEntry]
          rw [this]
          exact hy

end Verif
