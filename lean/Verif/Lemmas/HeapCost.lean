import Verif.Lemmas.HeapParse
import Verif.Spec.Cost
import Mathlib.Tactic.Ring
/-!
# How many objects parsing creates
-/

namespace Verif
open Verif.Spec

/-- From `s`, the program creates at most `k` objects. -/
def Most {α : Type} (m : HM α) (s : St) (k : Nat) : Prop := (m s).2.heap.length ≤ s.heap.length + k

theorem Most.mono {α : Type} {m : HM α} {s : St} {k k' : Nat} (h : Most m s k) (hk : k ≤ k') : Most m s k' := by
  unfold Most at *; omega

theorem Most.bind {α β : Type} {m : HM α} {f : α → HM β} {s : St} {k k' : Nat} (hm : Most m s k)
    (hf : ∀ a s', m s = (.ok a, s') → Most (f a) s' k') : Most (m >>= f) s (k + k') := by
  unfold Most at *
  rw [bind_run]
  cases hr : m s with
  | mk r s' =>
    rw [hr] at hm
    cases r with
    | error e => simp only at hm ⊢; omega
    | ok a =>
      have := hf a s' hr
      simp only at hm ⊢
      omega

theorem Most.pure {α : Type} (a : α) (s : St) : Most (HM.pure a) s 0 := Nat.le_refl _
theorem Most.throw {α : Type} (e : HErr) (s : St) : Most (HM.throw (α := α) e) s 0 := Nat.le_refl _
theorem Most.alloc (o : HObj) (s : St) : Most (HM.alloc o) s 1 := by unfold Most HM.alloc; simp
theorem Most.write (a : Nat) (o : HObj) (s : St) : Most (HM.write a o) s 0 := by unfold Most HM.write; simp

theorem Most.read (a : Nat) (s : St) : Most (HM.read a) s 0 := by
  unfold Most HM.read; cases s.heap[a]? <;> exact Nat.le_refl _

theorem Most.ofExcept {α : Type} (x : Except PyErr α) (s : St) : Most (HM.ofExcept x) s 0 := by
  cases x <;> exact Nat.le_refl _

theorem Most.append (a : Nat) (e : String × HV) (s : St) : Most (HM.append a e) s 0 :=
  Most.bind (Most.read a s) fun _ s' _ => Most.write a _ s'

theorem Most.setItem (a : Nat) (k : String) (v : HV) (s : St) : Most (HM.setItem a k v) s 0 :=
  Most.bind (Most.read a s) fun _ s' _ => Most.write a _ s'

/-! ## Copying -/

def CopyMost (S : Heap) (fuel : Nat) : Prop :=
  ∀ (w : Val) (x : HV), Json anywhere S w x → depth w ≤ fuel → ∀ (memo : Memo) (s : St), Has S s →
    Most (deepcopy fuel memo x) s (objects w)

theorem copyItems_most {S : Heap} {fuel : Nat} (hc : CopyMost S fuel) (b : Nat) (hS : S.length ≤ b) :
    ∀ (ws : List Val) (items : List (String × HV)), List.Forall₂ (fun w e => Json anywhere S w e.2 ∧ depth w ≤ fuel) ws items →
    ∀ (memo : Memo) (s : St), Has S s → Most (copyItems fuel b memo items) s (objectsList ws) := by
  intro ws items hi
  induction hi with
  | nil => intro memo s _; rw [copyItems]; exact Most.pure _ _
  | @cons w e ws items h1 h2 ih =>
    intro memo s hs
    obtain ⟨k, v⟩ := e
    rw [copyItems, objectsList]
    refine Most.bind (hc w v h1.1 h1.2 memo s hs) fun r s1 hr => ?_
    obtain ⟨x', new, s1', h3, c1, _⟩ := deepcopy_ok S fuel w v h1.1 h1.2 memo s hs
    rw [hr] at h3
    cases h3
    have hs1 := hs.next c1.old
    refine (Most.bind (Most.append b (k, x') s1) fun _ s2 h4 => ih _ s2 ?_).mono (by omega)
    intro a o ha
    have := hs1 a o ha
    have hne : a ≠ b := by have := lt_of_get ha; omega
    unfold HM.append at h4
    rw [bind_run] at h4
    unfold HM.read at h4
    cases hb : s1.heap[b]? with
    | none => rw [hb] at h4; cases h4
    | some ob =>
      rw [hb] at h4
      simp only [HM.write] at h4
      cases h4
      show (s1.heap.set _ _)[a]? = _
      rw [List.getElem?_set_ne (Ne.symm hne)]
      exact this

theorem forall_list {P : Nat → Prop} {h : Heap} {n : Nat} : ∀ (vs : List Val) (items : List (String × HV)), JsonList P h vs items →
    depthList vs ≤ n → List.Forall₂ (fun w e => Json P h w e.2 ∧ depth w ≤ n) vs items
  | [], items, hj, _ => by rw [show items = [] from hj]; exact .nil
  | v :: vs, items, hj, hd => by
    obtain ⟨e, rest, rfl, h1, h2⟩ := hj
    simp only [depthList] at hd
    exact .cons ⟨h1, by omega⟩ (forall_list vs rest h2 (by omega))

theorem forall_dict {P : Nat → Prop} {h : Heap} {n : Nat} : ∀ (d : List (String × Val)) (items : List (String × HV)), JsonDict P h d items →
    depthDict d ≤ n → List.Forall₂ (fun w e => Json P h w e.2 ∧ depth w ≤ n) (d.map Prod.snd) items
  | [], items, hj, _ => by rw [show items = [] from hj]; exact .nil
  | (k, v) :: d, items, hj, hd => by
    obtain ⟨x, rest, rfl, h1, h2⟩ := hj
    simp only [depthDict] at hd
    exact .cons ⟨h1, by show depth v ≤ n; omega⟩ (forall_dict d rest h2 (by omega))

theorem objectsList_snd (d : List (String × Val)) : objectsList (d.map Prod.snd) = objectsDict d := by
  induction d with
  | nil => rfl
  | cons e d ih => obtain ⟨k, v⟩ := e; simp only [List.map_cons, objectsList, objectsDict, ih]

theorem deepcopy_most (S : Heap) (fuel : Nat) : CopyMost S fuel := by
  induction fuel with
  | zero =>
    intro w x hj hf
    exfalso
    cases w <;> simp [depth] at hf
  | succ fuel ih =>
    intro w x hj hf memo s hs
    match x with
    | .imm i => rw [deepcopy]; exact (Most.pure _ _).mono (Nat.zero_le _)
    | .ref a =>
      rw [deepcopy]
      cases hg : memo.get a with
      | some b => exact (Most.pure _ _).mono (Nat.zero_le _)
      | none =>
        obtain ⟨_, o, ho, _, hk⟩ := json_ref hj
        obtain ⟨ws, hw, hn⟩ : ∃ ws, List.Forall₂ (fun w e => Json anywhere S w e.2 ∧ depth w ≤ fuel) ws o.items ∧
            1 + objectsList ws = objects w := by
          rcases hk with ⟨vs, rfl, _, hl⟩ | ⟨d, rfl, _, hl⟩
          · simp only [depth] at hf
            exact ⟨vs, forall_list vs _ hl (by omega), by rw [objects]⟩
          · simp only [depth] at hf
            exact ⟨d.map Prod.snd, forall_dict d _ hl (by omega), by rw [objects, objectsList_snd]⟩
        rw [← hn]
        refine (Most.bind (k' := 1 + objectsList ws) (Most.read a s) fun o' s1 h1 => ?_).mono (by omega)
        unfold HM.read at h1
        rw [hs a o ho] at h1
        cases h1
        refine Most.bind (Most.alloc _ _) fun b s2 h2 => ?_
        unfold HM.alloc at h2
        cases h2
        refine (Most.bind (k' := 0) (copyItems_most ih _ (has_lt hs) ws o.items hw _ _ ?_) fun _ _ _ => Most.pure _ _).mono (by omega)
        intro a o ha
        have := hs a o ha
        show (s.heap ++ [_])[a]? = _
        rw [List.getElem?_append_left (lt_of_get this)]
        exact this

theorem copyDict_most {s : St} {v : Val} {x : HV} {fuel : Nat} (hj : Json anywhere s.heap v x) (hf : depth v ≤ fuel) :
    Most (copyDictH fuel x) s (objects v) := by
  unfold copyDictH
  refine (Most.bind (k' := 0) (deepcopy_most s.heap fuel v x hj hf [] s (fun _ _ h => h)) fun r s1 _ => ?_).mono (by omega)
  obtain ⟨y, m⟩ := r
  match y with
  | .imm i => exact Most.throw _ _
  | .ref b =>
    refine Most.bind (k' := 0) (Most.read b s1) fun o s2 _ => ?_
    cases o.kind with
    | dict => exact Most.pure _ _
    | list => exact Most.throw _ _
    | inst t => exact Most.throw _ _

/-! ## Steps -/

theorem base_most (t : Tag) (fs : List Field) (v : HV) (s : St) : Most (baseFromDictH t fs v) s 1 := by
  unfold baseFromDictH
  match v with
  | .imm i => exact (Most.throw _ _).mono (by omega)
  | .ref a =>
    refine (Most.bind (k' := 1) (Most.read a s) fun o s1 _ => ?_).mono (by omega)
    cases o.kind with
    | dict =>
      refine (Most.bind (k' := 1) (Most.ofExcept _ _) fun _ s2 _ => ?_).mono (by omega)
      exact (Most.bind (k' := 0) (Most.alloc _ _) fun _ _ _ => Most.pure _ _)
    | list => exact (Most.throw _ _).mono (by omega)
    | inst t => exact (Most.throw _ _).mono (by omega)

theorem attrsStep_most (afs : Option (List Field)) (b : Nat) (s : St) : Most (attrsStepH afs b) s 1 := by
  unfold attrsStepH
  refine (Most.bind (k' := 1) (Most.read b s) fun o s1 _ => ?_).mono (by omega)
  split
  · exact Most.bind (k' := 0) (base_most _ _ _ _) fun _ _ _ => Most.setItem _ _ _ _
  · exact (Most.pure _ _).mono (by omega)

theorem registry_most {C : Type} (reg : List (TypeEnum × C)) (cat : String) (v : HV) (s : St) :
    Most (registryH reg cat v) s 0 := by
  unfold registryH
  match v with
  | .imm i => exact Most.throw _ _
  | .ref a =>
    refine Most.bind (k' := 0) (Most.read a s) fun o s1 _ => ?_
    split
    · split
      · exact Most.throw _ _
      · exact Most.throw _ _
      · split
        · exact Most.throw _ _
        · exact Most.throw _ _
        · exact Most.pure _ _
    · exact Most.throw _ _

theorem skip_most {w : Bool} {m : HM HV} {s : St} {k : Nat} (h : Most m s k) : Most (skipH w m) s k := by
  unfold Most at *
  rw [skip_run]
  split
  · rename_i hr; rw [hr] at h; exact h
  · rename_i hr; rw [hr] at h
    exact h
  · rename_i hr; rw [hr] at h; exact h

/-- The loop: each element costs at most `k`. -/
theorem loop_most {α : Type} {is : Heap → α → HV → Prop} {f : HV → HM HV} {p : Val → Res α} (w : Bool) (bound N : Nat)
    (k : Val → Nat)
    (hf : ∀ v x s, Json anywhere s.heap v x → depth v ≤ bound → N ≤ s.heap.length → Sim is (f x) s (p v) ∧ Most (f x) s (k v)) :
    ∀ (vs : List Val) (items : List (String × HV)) (s : St), JsonList anywhere s.heap vs items →
      depthList vs ≤ bound → N ≤ s.heap.length → Most (loopH w f items) s (vs.map k).sum := by
  intro vs
  induction vs with
  | nil =>
    intro items s hj _ _
    rw [show items = [] from hj]
    exact Most.pure _ _
  | cons v vs ih =>
    intro items s hj hb hN
    obtain ⟨e, rest, rfl, h1, h2⟩ := hj
    simp only [depthList] at hb
    obtain ⟨hsim, hm⟩ := hf v e.2 s h1 (by omega) hN
    rw [loopH, List.map_cons, List.sum_cons]
    refine Most.bind (skip_most hm) fun o s1 ho => ?_
    obtain ⟨s1', _, len1, old1, m1⟩ := skip_sim w hsim
    have : s1' = s1 := by
      cases hr : ((p v).skipUnimplemented w).out with
      | error e => rw [hr] at m1; simp only at m1; rw [ho] at m1; cases m1
      | ok o => rw [hr] at m1; obtain ⟨_, m1, _⟩ := m1; rw [ho] at m1; cases m1; rfl
    subst this
    have hk1 : Keeps' anywhere s.heap s1'.heap := fun a o _ ho => by
      rw [old1 a (lt_of_get ho)]; exact ho
    exact (Most.bind (k' := 0) (ih rest s1' (jsonList_mono hk1 (fun _ h => h) vs rest h2) (by omega) (by omega))
      fun _ _ _ => Most.pure _ _).mono (by omega)

/-- What the elements of a list entry cost. -/
def entryCost (k : Val → Nat) : Option Val → Nat
  | some (.list vs) => 1 + (vs.map k).sum
  | _ => 0

theorem listStep_most {α : Type} {is : Heap → α → HV → Prop} {f : HV → HM HV} {p : Val → Res α}
    (w : Bool) (key : String) {b : Nat} {d : List (String × Val)} {K : List String} (hK : key ∉ K) (k : Val → Nat)
    (hf : ∀ v x s, Json anywhere s.heap v x → depth v + 1 < depth (.dict d) → b + 1 ≤ s.heap.length →
      Sim is (f x) s (p v) ∧ Most (f x) s (k v))
    {s : St} {items : List (String × HV)} (hw : Work b d K s.heap items) :
    Most (listStepH w key f b) s (entryCost k (lookupKey d key)) := by
  have hb : b < s.heap.length := lt_of_get hw.obj
  have hp := hw.plain key hK
  unfold listStepH Most
  rw [read_bind hw.obj]
  cases hv : lookupKey d key with
  | none =>
    rw [hv] at hp
    rw [show itemGet items key = none from hp]
    exact Nat.le_refl _
  | some v =>
    rw [hv] at hp
    obtain ⟨y, h1, h2⟩ := hp
    match y, h1, h2 with
    | .imm i, h1, h2 =>
      simp only [h1]
      exact Nat.le_add_right _ _
    | .ref q, h1, h2 =>
      obtain ⟨hq, o, ho, _, hk⟩ := json_ref h2
      rcases hk with ⟨vs, rfl, hk, hl⟩ | ⟨da, rfl, hk, _⟩
      swap
      · simp only [h1]
        rw [read_bind ho]
        simp only [hk]
        exact Nat.le_add_right _ _
      · rw [h1]
        simp only
        rw [read_bind ho]
        simp only [hk]
        have hsz := lookup_depth hv
        simp only [depth] at hsz hf
        have := loop_most w (depthDict d - 1) (b + 1) k
          (fun u y t h1 h2 h3 => hf u y t h1 (by omega) h3) vs o.items s (jsonList_mono (fun _ _ _ h => h) (fun _ _ => trivial) vs _ hl)
          (by omega) hb
        show _ ≤ _ + (1 + _)
        have g := Most.bind (k' := 1) this fun xs s1 _ =>
          (Most.bind (k' := 0) (Most.alloc ⟨.list, xs.map fun v => ("", v)⟩ s1) fun n s2 _ => Most.setItem b key (.ref n) s2)
        unfold Most at g
        refine Nat.le_trans g ?_
        omega

/-! ## Marks and nodes -/

theorem mark_most (fuel : Nat) (c : MarkCls) {v : Val} {x : HV} {s : St} (hj : Json anywhere s.heap v x) (hf : depth v ≤ fuel) :
    Most (markFromDictH fuel c x) s (objects v + 2) := by
  unfold markFromDictH
  refine (Most.bind (k' := 2) (copyDict_most hj hf) fun b s1 _ => ?_)
  exact Most.bind (k' := 1) (attrsStep_most _ _ _) fun _ s2 _ => base_most _ _ _ _

theorem parseMark_most (fuel : Nat) {v : Val} {x : HV} {s : St} (hj : Json anywhere s.heap v x) (hf : depth v ≤ fuel) :
    Most (parseMarkH fuel x) s (3 * objects v) := by
  have hr := registry_run markRegistry "mark" hj
  by_cases hd : ∃ d, v = .dict d
  · obtain ⟨d, rfl⟩ := hd
    unfold parseMarkH
    refine (Most.bind (k' := objects (.dict d) + 2) (registry_most _ _ _ _) fun c s1 h1 => ?_).mono ?_
    · have : s1 = s := by
        rw [h1] at hr
        simp only at hr
        split at hr
        · cases hr
        · split at hr <;> cases hr
          rfl
      subst this
      exact mark_most fuel c hj hf
    · simp only [objects]; omega
  · have : registryH markRegistry "mark" x s = (.error (.py .typeError), s) := by
      rw [hr]; cases v <;> first | rfl | exact absurd ⟨_, rfl⟩ hd
    unfold parseMarkH Most
    rw [bind_run, this]
    exact Nat.le_add_right _ _

theorem lookup_one {d : List (String × Val)} {k : String} {v : Val} (h : lookupKey d k = some v) : objects v ≤ objectsDict d := by
  induction d with
  | nil => cases h
  | cons e d ih =>
    obtain ⟨k1, v1⟩ := e
    unfold lookupKey at h
    split at h
    · cases h; simp only [objectsDict]; omega
    · have := ih h; simp only [objectsDict]; omega

theorem lookup_two {d : List (String × Val)} {k k' : String} (hk : k ≠ k') {v v' : Val} (h : lookupKey d k = some v)
    (h' : lookupKey d k' = some v') : objects v + objects v' ≤ objectsDict d := by
  induction d with
  | nil => cases h
  | cons e d ih =>
    obtain ⟨k1, v1⟩ := e
    unfold lookupKey at h h'
    simp only [objectsDict]
    split at h
    · rename_i e1
      rw [if_neg (by rw [e1]; exact hk)] at h'
      cases h
      have := lookup_one h'
      omega
    · split at h'
      · cases h'
        have := lookup_one h
        omega
      · have := ih h h'
        omega

theorem sum_le {f g : Val → Nat} : ∀ {vs : List Val}, (∀ v ∈ vs, f v ≤ g v) → (vs.map f).sum ≤ (vs.map g).sum
  | [], _ => Nat.le_refl _
  | v :: vs, h => by
    have h1 := h v List.mem_cons_self
    have h2 := sum_le (vs := vs) fun u hu => h u (List.mem_cons_of_mem _ hu)
    simp only [List.map_cons, List.sum_cons]
    omega

theorem sum_objects (k : Nat) (vs : List Val) : (vs.map fun v => k * objects v).sum = k * objectsList vs := by
  induction vs with
  | nil => rfl
  | cons v vs ih => simp only [List.map_cons, List.sum_cons, objectsList, ih, Nat.mul_add]

theorem depth_mem {vs : List Val} {v : Val} (h : v ∈ vs) : depth v ≤ depthList vs := by
  induction vs with
  | nil => cases h
  | cons u vs ih =>
    simp only [depthList]
    rcases List.mem_cons.mp h with rfl | h
    · omega
    · have := ih h; omega

theorem depth_pos' (v : Val) : 1 ≤ depth v := by cases v <;> simp [depth]

theorem objects_flat {d : List (String × Val)} (h : depthDict d = 0) : objectsDict d = 0 := by
  cases d with
  | nil => rfl
  | cons e d => obtain ⟨k, v⟩ := e; simp only [depthDict] at h; have := depth_pos' v; omega

/-- What parsing a value costs at most. -/
def parseCost (v : Val) : Nat := 5 * depth v * objects v

theorem content_cost (d : List (String × Val)) : entryCost parseCost (lookupKey d "content") ≤
    1 + 5 * (depth (.dict d) - 2) * (match lookupKey d "content" with | some (.list vs) => objectsList vs | _ => 0) := by
  unfold entryCost
  split
  · rename_i vs hv
    have hd := lookup_depth hv
    simp only [depth] at hd ⊢
    rw [← sum_objects]
    refine Nat.add_le_add_left (sum_le fun v hm => ?_) 1
    have := depth_mem hm
    exact Nat.mul_le_mul_right _ (Nat.mul_le_mul_left _ (by omega))
  · exact Nat.zero_le _

theorem node_cost (d : List (String × Val)) : objects (.dict d) + (1 + (entryCost parseCost (lookupKey d "content") +
    (entryCost (fun v => 3 * objects v) (lookupKey d "marks") + 1))) ≤ parseCost (.dict d) := by
  have h1 := content_cost d
  have h2 : entryCost (fun v => 3 * objects v) (lookupKey d "marks") ≤
      1 + 3 * (match lookupKey d "marks" with | some (.list vs) => objectsList vs | _ => 0) := by
    unfold entryCost
    split
    · rw [sum_objects]
    · exact Nat.zero_le _
  have h3 : (match lookupKey d "content" with | some (.list vs) => objectsList vs | _ => 0) +
      (match lookupKey d "marks" with | some (.list vs) => objectsList vs | _ => 0) ≤ objectsDict d := by
    cases hc : lookupKey d "content" with
    | none => 
      cases hm : lookupKey d "marks" with
      | none => exact Nat.zero_le _
      | some v' => have := lookup_one hm; cases v' <;> simp [objects] at this ⊢ <;> omega
    | some v =>
      cases hm : lookupKey d "marks" with
      | none => have := lookup_one hc; cases v <;> simp [objects] at this ⊢ <;> omega
      | some v' => have := lookup_two (by decide) hc hm; cases v <;> cases v' <;> simp [objects] at this ⊢ <;> omega
  generalize (match lookupKey d "content" with | some (.list vs) => objectsList vs | _ => 0) = A at *
  generalize (match lookupKey d "marks" with | some (.list vs) => objectsList vs | _ => 0) = B at *
  rw [show parseCost (.dict d) = 5 * (depthDict d + 1) * (1 + objectsDict d) from by unfold parseCost; rw [objects, depth]]
  rw [objects]
  rw [depth] at h1
  by_cases hD : depthDict d = 0
  · have : objectsDict d = 0 := objects_flat hD
    rw [hD]
    simp only [hD] at h1
    omega
  · obtain ⟨m, hm⟩ : ∃ m, depthDict d = m + 1 := ⟨depthDict d - 1, by omega⟩
    rw [hm] at h1 ⊢
    have e : m + 1 + 1 - 2 = m := by omega
    rw [e] at h1
    have h4 : 5 * m * A ≤ 5 * m * (1 + objectsDict d) := Nat.mul_le_mul_left _ (by omega)
    have e2 : 5 * (m + 1 + 1) * (1 + objectsDict d) = 5 * m * (1 + objectsDict d) + 10 * (1 + objectsDict d) := by ring
    rw [e2]
    omega

theorem node_most (fuel : Nat) (w : Bool) (parse : HV → HM HV) (c : NodeCls) {v : Val} {x : HV} {s : St}
    (hj : Json anywhere s.heap v x) (hf : depth v ≤ fuel)
    (hp : ∀ u y t, Json anywhere t.heap u y → depth u < depth v →
      Sim (IsNode fun q => t.heap.length ≤ q) (parse y) t (parseNode w u) ∧ Most (parse y) t (parseCost u)) :
    Most (nodeFromDictH fuel w parse c x) s (parseCost v) := by
  by_cases hd : ∃ d, v = .dict d
  swap
  · obtain ⟨s', h1, _⟩ := copy_not_dict hj hf fun d h => hd ⟨d, h⟩
    have := copyDict_most hj hf
    unfold nodeFromDictH Most
    unfold Most at this
    rw [bind_run]
    rw [h1] at this ⊢
    simp only at this ⊢
    have h2 : 1 * objects v ≤ 5 * depth v * objects v := Nat.mul_le_mul_right _ (by have := depth_pos' v; omega)
    unfold parseCost
    omega
  · obtain ⟨d, rfl⟩ := hd
    refine Most.mono ?_ (node_cost d)
    unfold nodeFromDictH
    refine Most.bind (copyDict_most hj hf) fun b s1 hb => ?_
    obtain ⟨s1', items1, e1, l1, old1, ob1, j1⟩ := copyDict_ok hj hf
    rw [hb] at e1
    cases e1
    have hlen1 := lt_of_get ob1
    refine Most.bind (attrsStep_most _ _ _) fun _ s2 h2 => ?_
    obtain ⟨s2', l2, len2, old2, m2⟩ := attrsStep_post c.attrsFields (work_of_json ob1 j1) (nodeAttrs_litOk c)
    cases hr : attrsStep c.attrsFields d with
    | error e => rw [hr] at m2; simp only at m2; rw [m2] at h2; cases h2
    | ok given =>
      rw [hr] at m2
      obtain ⟨items2, m2, w2, _⟩ := m2
      rw [m2] at h2
      cases h2
      refine Most.bind (listStep_most (is := IsNode fun q => s.heap.length < q) (p := parseNode w) w "content" (by simp) parseCost
        (fun u y t hu hs ht => ?_) w2) fun _ s3 h3 => ?_
      · obtain ⟨h1, h2⟩ := hp u y t hu (by omega)
        exact ⟨h1.weaken fun h a x hx => isNode_mono (fun _ _ _ h => h) (fun q hq => by omega) a x hx, h2⟩
      have hsz : depthDict d < depth (Val.dict d) := by simp [depth]
      obtain ⟨s3', l3, len3, old3, m3⟩ := listStep_sim (is := IsNode fun q => s.heap.length < q) (f := parse)
        (p := parseNode w) (lp := parseNodes w) w "content" (by simp)
        (by rw [parseNodes]) (fun v vs => by rw [parseNodes])
        (fun h h' hh a x => isNode_mono hh (fun _ h => h) a x)
        (fun u y t hu hs ht => (hp u y t hu (by omega)).1.weaken fun h a x hx =>
          isNode_mono (fun _ _ _ h => h) (fun q hq => by omega) a x hx) w2
      rw [← contentStep_stepOf] at l3 m3
      cases hr3 : (contentStep w d).out with
      | error e => rw [hr3] at m3; simp only at m3; rw [m3] at h3; cases h3
      | ok gc =>
        rw [hr3] at m3
        obtain ⟨items3, m3, w3, _⟩ := m3
        rw [m3] at h3
        cases h3
        refine Most.bind (listStep_most (is := IsMark fun q => s.heap.length < q) (p := fun v => Res.ofExcept (parseMark v)) w "marks" (by simp) (fun v => 3 * objects v)
          (fun u y t hu hs ht => ?_) w3) fun _ s4 _ => base_most _ _ _ _
        refine ⟨(parseMark_sim fuel hu (by omega)).weaken fun h a x hx =>
            isMark_mono (fun _ _ _ h => h) (fun q hq => by omega) hx, parseMark_most fuel hu (by omega)⟩

theorem parseNode_most (fuel : Nat) (w : Bool) : ∀ {v : Val} {x : HV} {s : St}, Json anywhere s.heap v x →
    depth v ≤ fuel → Most (parseNodeH fuel w x) s (parseCost v) := by
  induction fuel with
  | zero =>
    intro v x s _ hf
    exfalso
    cases v <;> simp [depth] at hf
  | succ fuel ih =>
    intro v x s hj hf
    have hr := registry_run nodeRegistry "node" hj
    rw [parseNodeH]
    by_cases hd : ∃ d, v = .dict d
    · obtain ⟨d, rfl⟩ := hd
      refine (Most.bind (k' := parseCost (.dict d)) (registry_most _ _ _ _) fun c s1 h1 => ?_).mono (by omega)
      have : s1 = s := by
        rw [h1] at hr
        simp only at hr
        split at hr
        · cases hr
        · split at hr <;> cases hr
          rfl
      subst this
      exact node_most (fuel + 1) w _ c hj hf fun u y t hu hs => ⟨parseNode_sim fuel w hu (by omega), ih hu (by omega)⟩
    · have : registryH nodeRegistry "node" x s = (.error (.py .typeError), s) := by
        rw [hr]; cases v <;> first | rfl | exact absurd ⟨_, rfl⟩ hd
      unfold Most
      rw [bind_run, this]
      exact Nat.le_add_right _ _

end Verif
