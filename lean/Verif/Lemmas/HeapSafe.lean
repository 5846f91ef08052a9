import Verif.Spec.Heap
/-!
# The heap programs write only to objects they create, and build only from such objects
-/

namespace Verif
open Verif.Spec

/-- Immutable, or an object created at address `N` or later (and before `L`). -/
def Fresh (N L : Nat) : HV → Prop
  | .imm _ => True
  | .ref a => N ≤ a ∧ a < L

theorem Fresh.mono {N L L' : Nat} {v : HV} (h : Fresh N L v) (hl : L ≤ L') : Fresh N L' v := by
  match v with
  | .imm _ => trivial
  | .ref a => exact ⟨h.1, Nat.lt_of_lt_of_le h.2 hl⟩

/-- Objects at `N` or later refer only to such objects. -/
def Sep (N : Nat) (h : Heap) : Prop :=
  ∀ a o, N ≤ a → h[a]? = some o → ∀ e ∈ o.items, Fresh N h.length e.2

/-- In a heap of at least `L` objects, `m` leaves objects below `N` alone, keeps the region from `N` on
separate, and its result satisfies `Q` (with the number of objects at that time). -/
def Safe {α : Type} (N L : Nat) (m : HM α) (Q : Nat → α → Prop) : Prop :=
  ∀ s, Sep N s.heap → N ≤ s.heap.length → L ≤ s.heap.length →
    (∀ a, a < N → (m s).2.heap[a]? = s.heap[a]?) ∧ s.heap.length ≤ (m s).2.heap.length ∧
    Sep N (m s).2.heap ∧ ∀ r, (m s).1 = .ok r → Q (m s).2.heap.length r

theorem bind_run {α β : Type} (m : HM α) (f : α → HM β) (s : St) :
    (m >>= f) s = match m s with
      | (.error e, s') => (.error e, s')
      | (.ok a, s') => f a s' := rfl

theorem Safe.bind {α β : Type} {N L : Nat} {m : HM α} {f : α → HM β} {P : Nat → α → Prop}
    {Q : Nat → β → Prop} (hm : Safe N L m P) (hf : ∀ L' a, L ≤ L' → P L' a → Safe N L' (f a) Q) :
    Safe N L (m >>= f) Q := by
  intro s hs hn hl
  obtain ⟨h1, h2, h3, h4⟩ := hm s hs hn hl
  rw [bind_run]
  cases hr : m s with
  | mk r s' =>
    rw [hr] at h1 h2 h3 h4
    cases r with
    | error e => exact ⟨h1, h2, h3, by intro r h; cases h⟩
    | ok a =>
      obtain ⟨k1, k2, k3, k4⟩ := hf _ a (Nat.le_trans hl h2) (h4 a rfl) s' h3 (Nat.le_trans hn h2)
        (Nat.le_refl _)
      exact ⟨fun a ha => (k1 a ha).trans (h1 a ha), Nat.le_trans h2 k2, k3, k4⟩

theorem Safe.pure {α : Type} {N L : Nat} {a : α} {Q : Nat → α → Prop} (h : ∀ L', L ≤ L' → Q L' a) :
    Safe N L (HM.pure a) Q := by
  intro s hs hn hl
  exact ⟨fun _ _ => rfl, Nat.le_refl _, hs, by intro r h'; cases h'; exact h _ hl⟩

theorem Safe.throw {α : Type} {N L : Nat} {e : HErr} {Q : Nat → α → Prop} : Safe N L (HM.throw e) Q := by
  intro s hs hn hl
  exact ⟨fun _ _ => rfl, Nat.le_refl _, hs, by intro r h'; cases h'⟩

theorem Safe.ofExcept {α : Type} {N L : Nat} {x : Except PyErr α} :
    Safe N L (HM.ofExcept x) fun _ _ => True := by
  intro s hs hn hl
  cases x <;> exact ⟨fun _ _ => rfl, Nat.le_refl _, hs, fun _ _ => trivial⟩

theorem Safe.read {N L a : Nat} :
    Safe N L (HM.read a) fun L' o => N ≤ a → ∀ e ∈ o.items, Fresh N L' e.2 := by
  intro s hs hn hl
  unfold HM.read
  cases ho : s.heap[a]? with
  | none => exact ⟨fun _ _ => rfl, Nat.le_refl _, hs, by intro r h'; cases h'⟩
  | some o => exact ⟨fun _ _ => rfl, Nat.le_refl _, hs, by intro r h'; cases h'; intro h; exact hs a o h ho⟩

theorem Safe.alloc {N L : Nat} {o : HObj} (h : ∀ e ∈ o.items, Fresh N L e.2) :
    Safe N L (HM.alloc o) fun L' a => N ≤ a ∧ a < L' := by
  intro s hs hn hl
  refine ⟨fun a ha => ?_, by simp [HM.alloc], ?_, by intro r h'; cases h'; exact ⟨hn, by simp [HM.alloc]⟩⟩
  · simp only [HM.alloc]
    rw [List.getElem?_append_left (by omega)]
  · intro a o' ha ho e he
    simp only [HM.alloc] at ho ⊢
    have hlen : s.heap.length ≤ (s.heap ++ [o]).length := by simp
    rcases Nat.lt_or_ge a s.heap.length with hl' | hl'
    · rw [List.getElem?_append_left hl'] at ho
      exact (hs a o' ha ho e he).mono hlen
    · rw [List.getElem?_append_right hl'] at ho
      have : a - s.heap.length = 0 := by
        by_contra hne
        rw [List.getElem?_eq_none (by simp; omega)] at ho
        cases ho
      rw [this] at ho
      cases ho
      exact (h e he).mono (Nat.le_trans hl hlen)

theorem Safe.write {N L a : Nat} {o : HObj} (ha : N ≤ a) (h : ∀ e ∈ o.items, Fresh N L e.2) :
    Safe N L (HM.write a o) fun _ _ => True := by
  intro s hs hn hl
  refine ⟨fun b hb => ?_, by simp [HM.write], ?_, fun _ _ => trivial⟩
  · simp only [HM.write]
    rw [List.getElem?_set_ne (by omega)]
  · intro b o' hb ho e he
    simp only [HM.write] at ho ⊢
    rw [List.length_set]
    by_cases hab : a = b
    · subst hab
      rw [List.getElem?_set] at ho
      simp only [if_true] at ho
      split at ho
      · cases ho; exact (h e he).mono hl
      · cases ho
    · rw [List.getElem?_set_ne hab] at ho
      exact hs b o' hb ho e he

theorem Safe.append {N L a : Nat} {e : String × HV} (ha : N ≤ a) (he : Fresh N L e.2) :
    Safe N L (HM.append a e) fun _ _ => True :=
  Safe.bind Safe.read fun L' o hl ho => Safe.write ha (by
    intro x hx
    rcases List.mem_append.mp hx with h | h
    · exact ho ha x h
    · rw [List.mem_singleton] at h; rw [h]; exact he.mono hl)

theorem mem_itemSet {items : List (String × HV)} {k : String} {v : HV} {x : String × HV}
    (h : x ∈ itemSet items k v) : x ∈ items ∨ x.2 = v := by
  induction items with
  | nil => exact absurd h (by simp [itemSet])
  | cons e rest ih =>
    obtain ⟨k', v'⟩ := e
    unfold itemSet at h
    split at h
    · rcases List.mem_cons.mp h with h | h
      · exact .inr (by rw [h])
      · exact .inl (List.mem_cons_of_mem _ h)
    · rcases List.mem_cons.mp h with h | h
      · exact .inl (by rw [h]; exact List.mem_cons_self ..)
      · exact (ih h).imp (List.mem_cons_of_mem _) id

theorem itemGet_mem {items : List (String × HV)} {k : String} {v : HV} (h : itemGet items k = some v) :
    (k, v) ∈ items := by
  induction items with
  | nil => cases h
  | cons e rest ih =>
    obtain ⟨k', v'⟩ := e
    unfold itemGet at h
    split at h
    · next hk => cases h; rw [hk]; exact List.mem_cons_self ..
    · exact List.mem_cons_of_mem _ (ih h)

theorem Safe.setItem {N L a : Nat} {k : String} {v : HV} (ha : N ≤ a) (hv : Fresh N L v) :
    Safe N L (HM.setItem a k v) fun _ _ => True :=
  Safe.bind Safe.read fun L' o hl ho => Safe.write ha (by
    intro x hx
    rcases mem_itemSet hx with h | h
    · exact ho ha x h
    · rw [h]; exact hv.mono hl)

theorem memo_get_mem {m : Memo} {a b : Nat} (h : m.get a = some b) : (a, b) ∈ m := by
  induction m with
  | nil => cases h
  | cons e rest ih =>
    obtain ⟨x, y⟩ := e
    unfold Memo.get at h
    split at h
    · next hk => cases h; rw [hk]; exact List.mem_cons_self ..
    · exact List.mem_cons_of_mem _ (ih h)

/-- All copies in the memo are fresh. -/
def FreshMemo (N L : Nat) (m : Memo) : Prop := ∀ e ∈ m, N ≤ e.2 ∧ e.2 < L

theorem FreshMemo.mono {N L L' : Nat} {m : Memo} (h : FreshMemo N L m) (hl : L ≤ L') :
    FreshMemo N L' m := fun e he => ⟨(h e he).1, Nat.lt_of_lt_of_le (h e he).2 hl⟩

mutual
theorem safe_deepcopy (N L fuel : Nat) (memo : Memo) (v : HV) (hm : FreshMemo N L memo) :
    Safe N L (deepcopy fuel memo v) fun L' r => Fresh N L' r.1 ∧ FreshMemo N L' r.2 := by
  match fuel, v with
  | fuel, .imm i => rw [deepcopy]; exact Safe.pure fun L' hl => ⟨trivial, hm.mono hl⟩
  | 0, .ref a => rw [deepcopy]; exact Safe.throw
  | fuel + 1, .ref a =>
    rw [deepcopy]
    cases hg : memo.get a with
    | some b =>
      exact Safe.pure fun L' hl => ⟨(hm.mono hl) _ (memo_get_mem hg), hm.mono hl⟩
    | none =>
      refine Safe.bind Safe.read fun L1 o hl1 _ => Safe.bind (Safe.alloc (by simp)) fun L2 b hl2 hb => ?_
      refine Safe.bind (safe_copyItems N L2 fuel b ((a, b) :: memo) o.items hb.1 ?_) fun L3 memo' hl3 hm' => ?_
      · intro e he
        rcases List.mem_cons.mp he with h | h
        · rw [h]; exact hb
        · exact (hm.mono (Nat.le_trans hl1 hl2)) e h
      · exact Safe.pure fun L' hl => ⟨⟨hb.1, by have := hb.2; omega⟩, hm'.mono hl⟩
termination_by (fuel, 0)

theorem safe_copyItems (N L fuel b : Nat) (memo : Memo) (items : List (String × HV)) (hb : N ≤ b)
    (hm : FreshMemo N L memo) : Safe N L (copyItems fuel b memo items) fun L' r => FreshMemo N L' r := by
  match items with
  | [] => rw [copyItems]; exact Safe.pure fun L' hl => hm.mono hl
  | (k, v) :: rest =>
    rw [copyItems]
    refine Safe.bind (safe_deepcopy N L fuel memo v hm) fun L1 r hl1 hr => ?_
    obtain ⟨v', memo'⟩ := r
    exact Safe.bind (Safe.append hb hr.1) fun L2 _ hl2 _ =>
      safe_copyItems N L2 fuel b memo' rest hb (hr.2.mono hl2)
termination_by (fuel, items.length + 1)
end

theorem fresh_fieldValue {N L : Nat} {items : List (String × HV)} (h : ∀ e ∈ items, Fresh N L e.2)
    (f : Field) : Fresh N L (fieldValueH items f) := by
  unfold fieldValueH
  split
  · next v hv => exact h _ (itemGet_mem hv)
  · split <;> exact trivial

theorem safe_base (N L : Nat) (t : Tag) (fs : List Field) (v : HV) (hv : ∀ a, v = .ref a → N ≤ a) :
    Safe N L (baseFromDictH t fs v) (Fresh N) := by
  unfold baseFromDictH
  match v with
  | .imm _ => exact Safe.throw
  | .ref a =>
    refine Safe.bind Safe.read fun L1 o hl1 ho => ?_
    split
    · refine Safe.bind Safe.ofExcept fun L2 _ hl2 _ => Safe.bind (Safe.alloc ?_) fun L3 r hl3 hr =>
        Safe.pure fun L' hl => ⟨hr.1, Nat.lt_of_lt_of_le hr.2 hl⟩
      intro e he
      obtain ⟨f, _, rfl⟩ := List.mem_map.mp he
      exact fresh_fieldValue (fun e he => (ho (hv a rfl) e he).mono hl2) f
    · exact Safe.throw

theorem fresh_ref {N L : Nat} {v : HV} (h : Fresh N L v) : ∀ a, v = .ref a → N ≤ a := by
  rintro a rfl; exact h.1

theorem safe_attrsStep (N L : Nat) (afs : Option (List Field)) (b : Nat) (hb : N ≤ b) :
    Safe N L (attrsStepH afs b) fun _ _ => True := by
  unfold attrsStepH
  refine Safe.bind Safe.read fun L1 o hl ho => ?_
  split
  · next v fs hv =>
    exact Safe.bind (safe_base N _ _ _ _ (fresh_ref (ho hb _ (itemGet_mem hv)))) fun L2 inst _ hi =>
      Safe.setItem hb hi
  · exact Safe.pure fun _ _ => trivial

theorem safe_copyDict (N L fuel : Nat) (v : HV) : Safe N L (copyDictH fuel v) fun _ b => N ≤ b := by
  unfold copyDictH
  refine Safe.bind (safe_deepcopy N L fuel [] v (by intro e he; cases he)) fun L1 r _ hr => ?_
  obtain ⟨v', memo⟩ := r
  match v' with
  | .imm _ => exact Safe.throw
  | .ref b =>
    refine Safe.bind Safe.read fun L2 o _ _ => ?_
    split
    · exact Safe.pure fun _ _ => hr.1.1
    · exact Safe.throw

theorem safe_mark (N L fuel : Nat) (c : MarkCls) (v : HV) :
    Safe N L (markFromDictH fuel c v) (Fresh N) := by
  unfold markFromDictH
  exact Safe.bind (safe_copyDict N L fuel v) fun L1 b _ hb =>
    Safe.bind (safe_attrsStep N L1 _ b hb) fun L2 _ _ _ =>
    safe_base N L2 _ _ _ (by rintro a h; cases h; exact hb)

theorem safe_registry {C : Type} (N L : Nat) (reg : List (TypeEnum × C)) (cat : String) (v : HV) :
    Safe N L (registryH reg cat v) fun _ _ => True := by
  unfold registryH
  match v with
  | .imm _ => exact Safe.throw
  | .ref a =>
    refine Safe.bind Safe.read fun L1 o _ _ => ?_
    split
    · split
      · exact Safe.throw
      · exact Safe.throw
      · split
        · exact Safe.throw
        · exact Safe.throw
        · exact Safe.pure fun _ _ => trivial
    · exact Safe.throw

theorem safe_parseMark (N L fuel : Nat) (v : HV) : Safe N L (parseMarkH fuel v) (Fresh N) := by
  unfold parseMarkH
  exact Safe.bind (safe_registry N L _ _ v) fun L1 c _ _ => safe_mark N L1 fuel c v

theorem safe_skip (N L : Nat) (w : Bool) {m : HM HV} (h : Safe N L m (Fresh N)) :
    Safe N L (skipH w m) fun L' vs => ∀ v ∈ vs, Fresh N L' v := by
  intro s hs hn hl
  obtain ⟨h1, h2, h3, h4⟩ := h s hs hn hl
  unfold skipH
  cases hr : m s with
  | mk r s' =>
    rw [hr] at h1 h2 h3 h4
    cases r with
    | ok v => exact ⟨h1, h2, h3, by intro r h; cases h; simpa using h4 v rfl⟩
    | error e =>
      cases e with
      | recursion => exact ⟨h1, h2, h3, by intro r h; cases h⟩
      | py e =>
        cases e
        case unimplementedType => exact ⟨h1, h2, h3, by intro r h v hv; cases h; cases hv⟩
        all_goals exact ⟨h1, h2, h3, by intro r h; cases h⟩

theorem safe_loop (N L : Nat) (w : Bool) {f : HV → HM HV} (hf : ∀ L v, Safe N L (f v) (Fresh N))
    (items : List (String × HV)) :
    Safe N L (loopH w f items) fun L' vs => ∀ v ∈ vs, Fresh N L' v := by
  induction items generalizing L with
  | nil => exact Safe.pure (by intro _ _ v h; cases h)
  | cons e rest ih =>
    unfold loopH
    refine Safe.bind (safe_skip N L w (hf L e.2)) fun L1 o _ ho => Safe.bind (ih L1) fun L2 vs hl2 hvs =>
      Safe.pure fun L' hl => ?_
    intro v hv
    rcases List.mem_append.mp hv with h | h
    · exact (ho v h).mono (Nat.le_trans hl2 hl)
    · exact (hvs v h).mono hl

theorem safe_listStep (N L : Nat) (w : Bool) (key : String) {f : HV → HM HV}
    (hf : ∀ L v, Safe N L (f v) (Fresh N)) (b : Nat) (hb : N ≤ b) :
    Safe N L (listStepH w key f b) fun _ _ => True := by
  unfold listStepH
  refine Safe.bind Safe.read fun L1 o _ _ => ?_
  split
  · refine Safe.bind Safe.read fun L2 lo _ _ => ?_
    split
    · refine Safe.bind (safe_loop N L2 w hf _) fun L3 vs _ hvs => Safe.bind (Safe.alloc ?_) fun L4 n _ hn =>
        Safe.setItem hb hn
      intro e he
      obtain ⟨v, hv, rfl⟩ := List.mem_map.mp he
      exact hvs v hv
    · exact Safe.pure fun _ _ => trivial
  · exact Safe.pure fun _ _ => trivial

theorem safe_node (N L fuel : Nat) (w : Bool) {parse : HV → HM HV}
    (hp : ∀ L v, Safe N L (parse v) (Fresh N)) (c : NodeCls) (v : HV) :
    Safe N L (nodeFromDictH fuel w parse c v) (Fresh N) := by
  unfold nodeFromDictH
  exact Safe.bind (safe_copyDict N L fuel v) fun L1 b _ hb =>
    Safe.bind (safe_attrsStep N L1 _ b hb) fun L2 _ _ _ =>
    Safe.bind (safe_listStep N L2 w _ hp b hb) fun L3 _ _ _ =>
    Safe.bind (safe_listStep N L3 w _ (fun L => safe_parseMark N L fuel) b hb) fun L4 _ _ _ =>
    safe_base N L4 _ _ _ (by rintro a h; cases h; exact hb)

theorem safe_parseNode (N L fuel : Nat) (w : Bool) (v : HV) :
    Safe N L (parseNodeH fuel w v) (Fresh N) := by
  induction fuel generalizing v L with
  | zero => exact Safe.throw
  | succ fuel ih =>
    rw [parseNodeH]
    exact Safe.bind (safe_registry N L _ _ v) fun L1 c _ _ => safe_node N L1 _ w (fun L v => ih L v) c v

/-- From a fresh value only fresh objects can be reached. -/
theorem reach_fresh {N : Nat} {h : Heap} (hs : Sep N h) {v : HV} {a : Nat} (hv : Fresh N h.length v)
    (hr : Reach h v a) : N ≤ a ∧ a < h.length := by
  induction hr with
  | here a => exact hv
  | @step a b o e ho he _ ih => exact ih (hs a o hv.1 ho e he)

/-- What is seen from a fresh value depends only on the fresh region. -/
theorem observe_fresh {N : Nat} {h h' : Heap} (hs : Sep N h)
    (hh : ∀ a, N ≤ a → a < h.length → h'[a]? = h[a]?) (n : Nat) {v : HV} (hv : Fresh N h.length v) :
    observe n h' v = observe n h v := by
  induction n generalizing v with
  | zero => rfl
  | succ n ih =>
    match v with
    | .imm _ => rfl
    | .ref a =>
      rw [observe, observe, hh a hv.1 hv.2]
      cases ho : h[a]? with
      | none => rfl
      | some o =>
        simp only
        congr 1
        refine List.map_congr_left fun e he => ?_
        rw [ih (hs a _ hv.1 ho e he)]

end Verif
