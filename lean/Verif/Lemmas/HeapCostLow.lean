import Verif.Lemmas.HeapCost
import Mathlib.Order.Interval.Finset.Nat
/-!
# How many objects parsing creates at least: nested blockquotes
-/

namespace Verif
open Verif.Spec

/-- From `s`, the program creates at least `k` objects. -/
def Least {α : Type} (m : HM α) (s : St) (k : Nat) : Prop := s.heap.length + k ≤ (m s).2.heap.length

/-- The program never removes objects. -/
def Grows {α : Type} (m : HM α) : Prop := ∀ s, Least m s 0

theorem Least.mono {α : Type} {m : HM α} {s : St} {k k' : Nat} (h : Least m s k) (hk : k' ≤ k) : Least m s k' := by
  unfold Least at *; omega

theorem Least.bind {α β : Type} {m : HM α} {f : α → HM β} {s s' : St} {a : α} {k k' : Nat} (hr : m s = (.ok a, s'))
    (hm : Least m s k) (hf : Least (f a) s' k') : Least (m >>= f) s (k + k') := by
  unfold Least at *
  rw [bind_run]
  rw [hr] at hm ⊢
  simp only at hm ⊢
  omega

theorem Least.then {α β : Type} {m : HM α} {f : α → HM β} {s : St} {k : Nat} (hm : Least m s k) (hf : ∀ a, Grows (f a)) :
    Least (m >>= f) s k := by
  unfold Least at *
  rw [bind_run]
  cases hr : m s with
  | mk r s' =>
    rw [hr] at hm
    cases r with
    | error e => exact hm
    | ok a => have := hf a s'; unfold Least at this; simp only at hm ⊢; omega

theorem Grows.bind {α β : Type} {m : HM α} {f : α → HM β} (hm : Grows m) (hf : ∀ a, Grows (f a)) : Grows (m >>= f) :=
  fun s => (hm s).then hf

theorem Grows.pure {α : Type} (a : α) : Grows (HM.pure a) := fun _ => Nat.le_refl _
theorem Grows.throw {α : Type} (e : HErr) : Grows (HM.throw (α := α) e) := fun _ => Nat.le_refl _
theorem Grows.alloc (o : HObj) : Grows (HM.alloc o) := fun s => by unfold Least HM.alloc; simp
theorem Grows.write (a : Nat) (o : HObj) : Grows (HM.write a o) := fun s => by unfold Least HM.write; simp

theorem Grows.read (a : Nat) : Grows (HM.read a) := fun s => by
  unfold Least HM.read; cases s.heap[a]? <;> exact Nat.le_refl _

theorem Grows.ofExcept {α : Type} (x : Except PyErr α) : Grows (HM.ofExcept x) := fun s => by
  cases x <;> exact Nat.le_refl _

theorem Grows.append (a : Nat) (e : String × HV) : Grows (HM.append a e) := .bind (.read a) fun _ => .write a _
theorem Grows.setItem (a : Nat) (k : String) (v : HV) : Grows (HM.setItem a k v) := .bind (.read a) fun _ => .write a _

mutual
theorem deepcopy_grows (fuel : Nat) (memo : Memo) (x : HV) : Grows (deepcopy fuel memo x) := by
  match fuel, x with
  | _, .imm i => rw [deepcopy]; exact .pure _
  | 0, .ref a => rw [deepcopy]; exact .throw _
  | fuel + 1, .ref a =>
    rw [deepcopy]
    split
    · exact .pure _
    · exact .bind (.read a) fun o => .bind (.alloc _) fun b => .bind (copyItems_grows fuel b _ _) fun _ => .pure _
termination_by (fuel, 0)

theorem copyItems_grows (fuel : Nat) (b : Nat) (memo : Memo) (items : List (String × HV)) : Grows (copyItems fuel b memo items) := by
  match items with
  | [] => rw [copyItems]; exact .pure _
  | (k, v) :: rest =>
    rw [copyItems]
    exact .bind (deepcopy_grows fuel memo v) fun r => .bind (.append _ _) fun _ => copyItems_grows fuel b _ rest
termination_by (fuel, items.length + 1)
end

theorem copyDict_grows (fuel : Nat) (x : HV) : Grows (copyDictH fuel x) := by
  unfold copyDictH
  refine .bind (deepcopy_grows _ _ _) fun r => ?_
  obtain ⟨y, m⟩ := r
  match y with
  | .imm i => exact .throw _
  | .ref b =>
    refine .bind (.read b) fun o => ?_
    cases o.kind with
    | dict => exact .pure _
    | list => exact .throw _
    | inst t => exact .throw _

theorem base_grows (t : Tag) (fs : List Field) (v : HV) : Grows (baseFromDictH t fs v) := by
  unfold baseFromDictH
  match v with
  | .imm i => exact .throw _
  | .ref a =>
    refine .bind (.read a) fun o => ?_
    cases o.kind with
    | dict => exact .bind (.ofExcept _) fun _ => .bind (.alloc _) fun _ => .pure _
    | list => exact .throw _
    | inst t => exact .throw _

theorem attrsStep_grows (afs : Option (List Field)) (b : Nat) : Grows (attrsStepH afs b) := by
  unfold attrsStepH
  refine .bind (.read b) fun o => ?_
  split
  · exact .bind (base_grows _ _ _) fun _ => .setItem _ _ _
  · exact .pure _

theorem registry_grows {C : Type} (reg : List (TypeEnum × C)) (cat : String) (v : HV) : Grows (registryH reg cat v) := by
  unfold registryH
  match v with
  | .imm i => exact .throw _
  | .ref a =>
    refine .bind (.read a) fun o => ?_
    split
    · split
      · exact .throw _
      · exact .throw _
      · split
        · exact .throw _
        · exact .throw _
        · exact .pure _
    · exact .throw _

theorem skip_least {w : Bool} {m : HM HV} {s : St} {k : Nat} (h : Least m s k) : Least (skipH w m) s k := by
  unfold Least at *
  rw [skip_run]
  split
  · rename_i hr; rw [hr] at h; exact h
  · rename_i hr; rw [hr] at h; exact h
  · rename_i hr; rw [hr] at h; exact h

theorem loop_grows {f : HV → HM HV} (w : Bool) (hf : ∀ v, Grows (f v)) : ∀ items, Grows (loopH w f items)
  | [] => .pure _
  | e :: rest => .bind (fun s => skip_least (hf e.2 s)) fun _ => .bind (loop_grows w hf rest) fun _ => .pure _

theorem listStep_grows {f : HV → HM HV} (w : Bool) (key : String) (hf : ∀ v, Grows (f v)) (b : Nat) : Grows (listStepH w key f b) := by
  unfold listStepH
  refine .bind (.read b) fun o => ?_
  split
  · refine .bind (.read _) fun lo => ?_
    split
    · exact .bind (loop_grows w hf _) fun _ => .bind (.alloc _) fun _ => .setItem _ _ _
    · exact .pure _
  · exact .pure _

theorem parseMark_grows (fuel : Nat) (v : HV) : Grows (parseMarkH fuel v) := by
  unfold parseMarkH
  refine .bind (registry_grows _ _ _) fun c => ?_
  unfold markFromDictH
  exact .bind (copyDict_grows _ _) fun b => .bind (attrsStep_grows _ _) fun _ => base_grows _ _ _

theorem parseNode_grows (fuel : Nat) (w : Bool) : ∀ v, Grows (parseNodeH fuel w v) := by
  induction fuel with
  | zero => intro v; rw [parseNodeH]; exact .throw _
  | succ fuel ih =>
    intro v
    rw [parseNodeH]
    refine .bind (registry_grows _ _ _) fun c => ?_
    unfold nodeFromDictH
    exact .bind (copyDict_grows _ _) fun b => .bind (attrsStep_grows _ _) fun _ => .bind (listStep_grows w _ ih b) fun _ =>
      .bind (listStep_grows w _ (parseMark_grows _) b) fun _ => base_grows _ _ _

/-! ## Nested blockquotes -/

theorem quote_depth : ∀ k, depth (inQuotes k) = 2 * k + 2
  | 0 => rfl
  | k + 1 => by
    rw [inQuotes]
    simp only [depth, depthDict, depthList, quote_depth k]
    omega

theorem quote_objects : ∀ k, objects (inQuotes k) = 2 * k + 1
  | 0 => rfl
  | k + 1 => by
    rw [inQuotes]
    simp only [objects, objectsDict, objectsList, quote_objects k]
    omega

theorem quote_addrs : ∀ (k : Nat) (P : Nat → Prop) (h : Heap) (x : HV), Json P h (inQuotes k) x →
    ∃ l : List Nat, l.Nodup ∧ l.length = 2 * k + 1 ∧ ∀ a ∈ l, P a ∧ a < h.length
  | 0, P, h, x, hj => by
    obtain ⟨a, items, _, hp, ho, _⟩ := hj
    exact ⟨[a], by simp, rfl, fun b hb => by rw [List.mem_singleton.mp hb]; exact ⟨hp, lt_of_get ho⟩⟩
  | k + 1, P, h, x, hj => by
    have hj0 := hj
    obtain ⟨a, items, rfl, hp, ho, x1, r1, rfl, h1, x2, r2, rfl, h2, h3⟩ := hj
    have hl := json_avoid hj0 _ _ h2 (by simp [inQuotes]; omega)
    have hl0 := hl
    obtain ⟨b, items', rfl, hpb, hob, e, r3, rfl, h4, h5⟩ := hl
    have hin := json_avoid hl0 _ _ h4 (by simp; omega)
    obtain ⟨l, g1, g2, g3⟩ := quote_addrs k _ h _ hin
    refine ⟨a :: b :: l, ?_, by simp [g2]; omega, ?_⟩
    · rw [List.nodup_cons, List.nodup_cons]
      refine ⟨fun hm => ?_, fun hm => (g3 b hm).1.2 rfl, g1⟩
      rcases List.mem_cons.mp hm with rfl | hm
      · exact hpb.2 rfl
      · exact (g3 a hm).1.1.2 rfl
    · intro c hc
      rcases List.mem_cons.mp hc with rfl | hc
      · exact ⟨hp, lt_of_get ho⟩
      · rcases List.mem_cons.mp hc with rfl | hc
        · exact ⟨hpb.1, lt_of_get hob⟩
        · exact ⟨(g3 c hc).1.1.1, (g3 c hc).2⟩

/-- Different numbers between `a` and `b` are at most `b - a` many. -/
theorem nodup_range {l : List Nat} (hl : l.Nodup) {a b : Nat} (h : ∀ x ∈ l, a ≤ x ∧ x < b) : l.length ≤ b - a := by
  have h1 : l.toFinset ⊆ Finset.Ico a b := fun x hx => Finset.mem_Ico.mpr (h x (List.mem_toFinset.mp hx))
  have h2 := Finset.card_le_card h1
  rw [List.toFinset_card_of_nodup hl, Nat.card_Ico] at h2
  exact h2

theorem quote_copy_least (k : Nat) {x : HV} {s : St} {fuel : Nat} (hj : Json anywhere s.heap (inQuotes k) x)
    (hf : depth (inQuotes k) ≤ fuel) : Least (copyDictH fuel x) s (2 * k + 1) := by
  obtain ⟨d, hd⟩ : ∃ d, inQuotes k = .dict d := by cases k <;> exact ⟨_, rfl⟩
  rw [hd] at hj hf
  obtain ⟨s1, items1, e1, l1, old1, ob1, j1⟩ := copyDict_ok hj hf
  have : Json (fun a => s.heap.length ≤ a) s1.heap (inQuotes k) (.ref s.heap.length) := by
    rw [hd]
    exact ⟨_, items1, rfl, Nat.le_refl _, ob1, jsonDict_mono (fun _ _ _ h => h) (fun a h => Nat.le_of_lt h) _ _ j1⟩
  obtain ⟨l, g1, g2, g3⟩ := quote_addrs k _ _ _ this
  have := nodup_range g1 g3
  have hlt := lt_of_get ob1
  unfold Least
  rw [e1]
  simp only
  omega

theorem quote_least : ∀ (k : Nat) (fuel : Nat) (w : Bool) {x : HV} {s : St}, Json anywhere s.heap (inQuotes k) x →
    depth (inQuotes k) ≤ fuel → Least (parseNodeH fuel w x) s ((k + 1) * (k + 1))
  | 0, fuel, w, x, s, hj, hf => by
    obtain ⟨fuel, rfl⟩ : ∃ n, fuel = n + 1 := ⟨fuel - 1, by rw [quote_depth] at hf; omega⟩
    have hr := registry_run nodeRegistry "node" hj
    rw [parseNodeH]
    refine (Least.bind (k := 0) (k' := 1) (a := NodeCls.paragraph) (s' := s) hr (registry_grows _ _ _ _) ?_).mono (by omega)
    unfold nodeFromDictH
    exact (quote_copy_least 0 hj hf).then fun b => .bind (attrsStep_grows _ _) fun _ =>
      .bind (listStep_grows w _ (parseNode_grows fuel w) b) fun _ => .bind (listStep_grows w _ (parseMark_grows _) b) fun _ => base_grows _ _ _
  | k + 1, fuel, w, x, s, hj, hf => by
    obtain ⟨fuel, rfl⟩ : ∃ n, fuel = n + 1 := ⟨fuel - 1, by rw [quote_depth] at hf; omega⟩
    have hr := registry_run nodeRegistry "node" hj
    rw [parseNodeH]
    refine (Least.bind (k := 0) (k' := (k + 2) * (k + 2)) (a := NodeCls.blockquote) (s' := s) hr (registry_grows _ _ _ _) ?_).mono (by rw [Nat.zero_add])
    unfold nodeFromDictH
    have hc := quote_copy_least (k + 1) hj hf
    obtain ⟨s1, items1, e1, l1, old1, ob1, j1⟩ := copyDict_ok hj hf
    refine (Least.bind (k' := (k + 1) * (k + 1)) e1 hc ?_).mono (by
      have : (k + 2) * (k + 2) = (k + 1) * (k + 1) + 2 * k + 3 := by ring
      omega)
    obtain ⟨s2, l2, len2, old2, m2⟩ := attrsStep_post NodeCls.blockquote.attrsFields (work_of_json ob1 j1) (nodeAttrs_litOk _)
    obtain ⟨items2, m2, w2, _⟩ := m2
    refine (Least.bind (k := 0) (k' := (k + 1) * (k + 1)) m2 (attrsStep_grows _ _ _) ?_).mono (by omega)
    refine Least.then ?_ fun _ => .bind (listStep_grows w _ (parseMark_grows _) _) fun _ => base_grows _ _ _
    obtain ⟨y, hy1, hy2⟩ := w2.plain "content" (by simp)
    obtain ⟨q, qi, rfl, hq, ho, e, rest, rfl, he, _⟩ := hy2
    unfold listStepH
    refine (Least.bind (k := 0) (k' := (k + 1) * (k + 1)) (s' := s2) (a := ⟨.dict, items2⟩) (by unfold HM.read; rw [w2.obj]) (Grows.read _ _) ?_).mono (by omega)
    simp only [hy1]
    refine (Least.bind (k := 0) (k' := (k + 1) * (k + 1)) (s' := s2) (a := ⟨.list, e :: rest⟩) (by unfold HM.read; rw [ho]) (Grows.read _ _) ?_).mono (by omega)
    simp only
    refine Least.then ?_ fun _ => .bind (.alloc _) fun _ => .setItem _ _ _
    rw [loopH]
    refine Least.then (skip_least ?_) fun _ => .bind (loop_grows w (parseNode_grows fuel w) rest) fun _ => .pure _
    refine quote_least k fuel w (json_mono (fun _ _ _ h => h) (fun _ _ => trivial) _ _ he) ?_
    rw [quote_depth] at hf ⊢
    omega

/-- The chain laid out in a heap. -/
def nestedHeap : Nat → Heap
  | 0 => [⟨.dict, [("type", .imm (.str "paragraph".toList))]⟩]
  | k + 1 => nestedHeap k ++ [⟨.list, [("", .ref (2 * k))]⟩,
      ⟨.dict, [("type", .imm (.str "blockquote".toList)), ("content", .ref (2 * k + 1))]⟩]

theorem nestedHeap_length : ∀ k, (nestedHeap k).length = 2 * k + 1
  | 0 => rfl
  | k + 1 => by rw [nestedHeap, List.length_append, nestedHeap_length k]; simp; omega

theorem nestedHeap_json : ∀ k, Json anywhere (nestedHeap k) (inQuotes k) (.ref (2 * k))
  | 0 => ⟨0, _, rfl, trivial, rfl, _, _, rfl, ⟨_, rfl, rfl⟩, rfl⟩
  | k + 1 => by
    have h0 : Json anywhere (nestedHeap (k + 1)) (inQuotes k) (.ref (2 * k)) :=
      json_mono (fun a o _ ho => by rw [nestedHeap, List.getElem?_append_left (lt_of_get ho)]; exact ho) (fun _ h => h) _ _ (nestedHeap_json k)
    have h1 : (nestedHeap (k + 1))[2 * k + 1]? = some ⟨.list, [("", .ref (2 * k))]⟩ := by
      rw [nestedHeap, List.getElem?_append_right (by rw [nestedHeap_length]), nestedHeap_length]; simp
    have h2 : (nestedHeap (k + 1))[2 * (k + 1)]? = some ⟨.dict, [("type", .imm (.str "blockquote".toList)), ("content", .ref (2 * k + 1))]⟩ := by
      rw [nestedHeap, List.getElem?_append_right (by rw [nestedHeap_length]; omega), nestedHeap_length,
        show 2 * (k + 1) - (2 * k + 1) = 1 by omega]; rfl
    exact ⟨_, _, rfl, trivial, h2, _, _, rfl, ⟨_, rfl, rfl⟩, _, _, rfl, ⟨_, _, rfl, trivial, h1, _, _, rfl, h0, rfl⟩, rfl⟩

end Verif
