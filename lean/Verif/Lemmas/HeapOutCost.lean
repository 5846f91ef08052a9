import Verif.Lemmas.HeapCost
import Verif.Lemmas.HeapOutSim
/-!
# How many objects `to_dict` creates
-/

namespace Verif
open Verif.Spec

/-- The objects of `S` are as they were, and nothing new is referred to by them. -/
structure Intact (S : Heap) (s : St) : Prop where
  has : Has S s
  sep : Sep S.length s.heap

theorem Intact.next {α : Type} {S : Heap} {s : St} (h : Intact S s) {m : HM α} {Q : Nat → α → Prop} (hm : Safe S.length S.length m Q) :
    Intact S (m s).2 := by
  obtain ⟨h1, _, h3, _⟩ := hm s h.sep (has_lt h.has) (has_lt h.has)
  exact ⟨fun a o ha => by rw [h1 a (lt_of_get ha)]; exact h.has a o ha, h3⟩

theorem Intact.next' {α : Type} {S : Heap} {s s' : St} (h : Intact S s) {m : HM α} {Q : Nat → α → Prop} (hm : Safe S.length S.length m Q)
    {r : Except HErr α} (hr : m s = (r, s')) : Intact S s' := by
  have := h.next hm
  rw [hr] at this
  exact this

/-- What the result of a safe program satisfies. -/
theorem Intact.res {α : Type} {S : Heap} {s s' : St} (h : Intact S s) {m : HM α} {Q : Nat → α → Prop} (hm : Safe S.length S.length m Q)
    {a : α} (hr : m s = (.ok a, s')) : Q s'.heap.length a := by
  obtain ⟨_, _, _, h4⟩ := hm s h.sep (has_lt h.has) (has_lt h.has)
  rw [hr] at h4
  exact h4 a rfl

theorem Most.readBind {β : Type} {s : St} {a k : Nat} {o : HObj} (h : s.heap[a]? = some o) {f : HObj → HM β}
    (hf : Most (f o) s k) : Most (HM.read a >>= f) s k := by
  unfold Most
  rw [read_bind h]
  exact hf

def itemsSize (n : Nat) (S : Heap) (items : List (String × HV)) : Nat := (items.map fun e => treeSize n S e.2).sum

theorem treeSize_ref {n : Nat} {S : Heap} {a : Nat} {o : HObj} (ho : S[a]? = some o) :
    treeSize (n + 1) S (.ref a) = 1 + itemsSize n S o.items := by
  rw [treeSize, ho]; rfl

mutual
theorem asdict_most {S : Heap} (fuel : Nat) (n : Nat) (x : HV) (s : St) (hx : TreeOf n S x) (hs : Intact S s) :
    Most (asdictH fuel x) s (treeSize n S x) := by
  match fuel, x, n with
  | _, .imm i, _ => rw [asdictH]; exact (Most.pure _ _).mono (Nat.zero_le _)
  | 0, .ref a, _ => rw [asdictH]; exact (Most.throw _ _).mono (Nat.zero_le _)
  | fuel + 1, .ref a, 0 => exact absurd hx (by simp [TreeOf])
  | fuel + 1, .ref a, n + 1 =>
    obtain ⟨o, ho, he⟩ := hx
    rw [asdictH, treeSize_ref ho]
    refine Most.readBind (hs.has a o ho) ?_
    have := Most.bind (k' := 1) (asdictItems_most fuel n o.items s he hs) fun items s1 _ =>
      Most.bind (k' := 0) (Most.alloc ⟨o.kind.asdict, items⟩ s1) fun r s2 _ => Most.pure (HV.ref r) s2
    exact this.mono (by omega)
termination_by (fuel, 0)

theorem asdictItems_most {S : Heap} (fuel : Nat) (n : Nat) (items : List (String × HV)) (s : St)
    (hx : ∀ e ∈ items, TreeOf n S e.2) (hs : Intact S s) : Most (asdictItems fuel items) s (itemsSize n S items) := by
  match items with
  | [] => rw [asdictItems]; exact Most.pure _ _
  | (k, v) :: rest =>
    rw [asdictItems]
    refine Most.bind (asdict_most fuel n v s (hx _ List.mem_cons_self) hs) fun v' s1 h1 => ?_
    exact (Most.bind (k' := 0) (asdictItems_most fuel n rest s1 (fun e he => hx e (List.mem_cons_of_mem _ he))
      (hs.next' (safe_asdict _ _ _ _) h1)) fun _ _ _ => Most.pure _ _)
termination_by (fuel, items.length + 1)
end

theorem removeOptional_most (d : Nat) (s : St) : Most (removeOptionalH d) s 1 :=
  (Most.bind (k' := 1) (Most.read d s) fun _ s1 _ => Most.bind (k' := 0) (Most.alloc _ s1) fun _ _ _ => Most.pure _ _).mono (by omega)

theorem addrOf_most (v : HV) (s : St) : Most (addrOf v) s 0 := by cases v <;> exact Nat.le_refl _

theorem baseToDict_most {S : Heap} (fuel n : Nat) (x : HV) (s : St) (hx : TreeOf n S x) (hs : Intact S s) :
    Most (baseToDictH fuel x) s (treeSize n S x + 1) := by
  unfold baseToDictH
  refine Most.bind (asdict_most fuel n x s hx hs) fun v s1 _ => ?_
  exact (Most.bind (k' := 1) (addrOf_most v s1) fun d s2 _ => removeOptional_most d s2).mono (by omega)

theorem map_most {S : Heap} {f : HV → HM HV} (hsafe : ∀ v, Safe S.length S.length (f v) (Fresh S.length)) (c : HV → Nat) :
    ∀ (items : List (String × HV)) (s : St), Intact S s → (∀ e ∈ items, ∀ t, Intact S t → Most (f e.2) t (c e.2)) →
    Most (mapH f items) s (items.map fun e => c e.2).sum
  | [], s, _, _ => Most.pure _ _
  | e :: rest, s, hs, hf => by
    rw [mapH, List.map_cons, List.sum_cons]
    refine Most.bind (hf e List.mem_cons_self s hs) fun v s1 h1 => ?_
    exact Most.bind (k' := 0) (map_most hsafe c rest s1 (hs.next' (hsafe _) h1) fun e he => hf e (List.mem_cons_of_mem _ he))
      fun _ _ _ => Most.pure _ _

/-- `itemGet` of an entry counts. -/
theorem item_le {n : Nat} {S : Heap} {items : List (String × HV)} {k : String} {v : HV} (h : itemGet items k = some v) :
    treeSize n S v ≤ itemsSize n S items := by
  induction items with
  | nil => cases h
  | cons e rest ih =>
    obtain ⟨k1, v1⟩ := e
    unfold itemGet at h
    unfold itemsSize
    rw [List.map_cons, List.sum_cons]
    split at h
    · cases h; simp only; omega
    · have := ih h; unfold itemsSize at this; omega

/-- What the entry under `k` contributes. -/
def entrySize (n : Nat) (S : Heap) (items : List (String × HV)) (k : String) : Nat :=
  match itemGet items k with
  | some v => treeSize n S v
  | none => 0

theorem entries_le {n : Nat} {S : Heap} (items : List (String × HV)) : ∀ (ks : List String), ks.Nodup →
    (ks.map (entrySize n S items)).sum ≤ itemsSize n S items := by
  induction items with
  | nil =>
    intro ks _
    induction ks with
    | nil => exact Nat.le_refl _
    | cons k ks ih =>
      rename_i h
      have h1 := ih (List.nodup_cons.mp h).2
      have h2 : entrySize n S [] k = 0 := rfl
      rw [List.map_cons, List.sum_cons, h2]
      omega
  | cons e rest ih =>
    obtain ⟨k1, v1⟩ := e
    have hne : ∀ k, k ≠ k1 → entrySize n S ((k1, v1) :: rest) k = entrySize n S rest k := by
      intro k hk; unfold entrySize; rw [itemGet, if_neg (Ne.symm hk)]
    have heq : entrySize n S ((k1, v1) :: rest) k1 = treeSize n S v1 := by
      unfold entrySize; rw [itemGet, if_pos rfl]
    have hi : itemsSize n S ((k1, v1) :: rest) = treeSize n S v1 + itemsSize n S rest := rfl
    intro ks hks
    rw [hi]
    by_cases hm : k1 ∈ ks
    · obtain ⟨A, B, rfl⟩ := List.append_of_mem hm
      have hp : (k1 :: (A ++ B)).Nodup := (List.perm_middle.nodup_iff).mp hks
      have hAB : (A ++ B).Nodup := (List.nodup_cons.mp hp).2
      have hno : k1 ∉ A ++ B := (List.nodup_cons.mp hp).1
      have := ih (A ++ B) hAB
      have hA : A.map (entrySize n S ((k1, v1) :: rest)) = A.map (entrySize n S rest) :=
        List.map_congr_left fun k hk => hne k fun e => hno (by rw [← e]; exact List.mem_append_left _ hk)
      have hB : B.map (entrySize n S ((k1, v1) :: rest)) = B.map (entrySize n S rest) :=
        List.map_congr_left fun k hk => hne k fun e => hno (by rw [← e]; exact List.mem_append_right _ hk)
      rw [List.map_append, List.map_cons, List.sum_append, List.sum_cons, hA, hB, heq]
      rw [List.map_append, List.sum_append] at this
      omega
    · have := ih ks hks
      rw [List.map_congr_left fun k hk => hne k fun e => hm (by rw [← e]; exact hk)]
      omega

/-- What `to_dict` costs at most. -/
def dictCost (n : Nat) (S : Heap) (x : HV) : Nat := 6 * n * treeSize n S x

theorem sum_mul (k : Nat) (f : String × HV → Nat) (l : List (String × HV)) : (l.map fun e => k * f e).sum = k * (l.map f).sum := by
  induction l with
  | nil => rfl
  | cons e l ih => simp only [List.map_cons, List.sum_cons, ih, Nat.mul_add]

/-- The list step: `call` on the elements costs `dictCost`. -/
theorem listToDict_most {S : Heap} {call : HV → HM HV} (hsafe : ∀ v, Safe S.length S.length (call v) (Fresh S.length))
    (hcall : ∀ n x t, TreeOf n S x → Intact S t → Most (call x) t (dictCost n S x)) (m : Nat) (v : HV) (hv : TreeOf m S v)
    (s : St) (hs : Intact S s) : Most (listToDictH call v) s (6 * (m - 1) * treeSize m S v + 1) := by
  match v, m with
  | .imm (.str []), _ =>
    exact (Most.bind (k' := 0) (Most.alloc ⟨.list, []⟩ s) fun r s1 _ => Most.pure (HV.ref r) s1).mono (by omega)
  | .imm (.str (_ :: _)), _ => exact (Most.throw _ _).mono (Nat.zero_le _)
  | .imm .none, _ => exact (Most.throw _ _).mono (Nat.zero_le _)
  | .imm .opt, _ => exact (Most.throw _ _).mono (Nat.zero_le _)
  | .imm (.bool _), _ => exact (Most.throw _ _).mono (Nat.zero_le _)
  | .imm (.int _), _ => exact (Most.throw _ _).mono (Nat.zero_le _)
  | .imm (.float _), _ => exact (Most.throw _ _).mono (Nat.zero_le _)
  | .ref a, 0 => exact absurd hv (by simp [TreeOf])
  | .ref a, m + 1 =>
    obtain ⟨o, ho, he⟩ := hv
    rw [treeSize_ref ho]
    refine Most.readBind (hs.has a o ho) ?_
    split
    · have h1 := map_most hsafe (dictCost m S) o.items s hs fun e h t ht => hcall m e.2 t (he e h) ht
      have h2 := Most.bind (k' := 1) h1 fun vs s1 _ =>
        Most.bind (k' := 0) (Most.alloc ⟨.list, vs.map fun v => ("", v)⟩ s1) fun r s2 _ => Most.pure (HV.ref r) s2
      refine h2.mono ?_
      have : (o.items.map fun e => dictCost m S e.2).sum = 6 * m * itemsSize m S o.items := sum_mul (6 * m) (fun e => treeSize m S e.2) o.items
      rw [this, Nat.add_sub_cancel, Nat.mul_add]
      omega
    · split
      · exact (Most.bind (k' := 0) (Most.alloc ⟨.list, []⟩ s) fun r s1 _ => Most.pure (HV.ref r) s1).mono (by omega)
      · exact (Most.throw _ _).mono (Nat.zero_le _)
    · exact (Most.throw _ _).mono (Nat.zero_le _)

theorem listField_most {S : Heap} {call : HV → HM HV} (hsafe : ∀ v, Safe S.length S.length (call v) (Fresh S.length))
    (hcall : ∀ n x t, TreeOf n S x → Intact S t → Most (call x) t (dictCost n S x)) (m : Nat) (key : String)
    (self : List (String × HV)) (hv : ∀ e ∈ self, TreeOf m S e.2) (d : Nat) (s : St) (hs : Intact S s) :
    Most (listFieldH key call self d) s (6 * (m - 1) * entrySize m S self key + 1) := by
  unfold listFieldH
  refine (Most.bind (k' := 6 * (m - 1) * entrySize m S self key + 1) (Most.read d s) fun o s1 h1 => ?_).mono (by omega)
  split
  · exact (Most.pure _ _).mono (Nat.zero_le _)
  · exact (Most.pure _ _).mono (Nat.zero_le _)
  · exact (Most.throw _ _).mono (Nat.zero_le _)
  · rename_i v _ _ hg
    have hk' := itemGet_mem hg
    have := listToDict_most hsafe hcall m v (hv _ hk') s1 (hs.next' Safe.read h1)
    have e : entrySize m S self key = treeSize m S v := by unfold entrySize; rw [hg]
    rw [e]
    exact Most.bind (k' := 0) this fun r s2 _ => Most.setItem _ _ _ _

theorem attrsField_most {S : Heap} (fuel m : Nat) (self : List (String × HV)) (hv : ∀ e ∈ self, TreeOf m S e.2) (d : Nat)
    (s : St) (hs : Intact S s) : Most (attrsFieldH fuel self d) s (entrySize m S self "attrs" + 1) := by
  unfold attrsFieldH
  refine (Most.bind (k' := entrySize m S self "attrs" + 1) (Most.read d s) fun o s1 h1 => ?_).mono (by omega)
  split
  · exact (Most.pure _ _).mono (Nat.zero_le _)
  · exact (Most.pure _ _).mono (Nat.zero_le _)
  · rename_i a _ _ hg
    have hk' := itemGet_mem hg
    have e : entrySize m S self "attrs" = treeSize m S (.ref a) := by unfold entrySize; rw [hg]
    rw [e]
    have hs1 := hs.next' Safe.read h1
    refine (Most.bind (k' := treeSize m S (.ref a) + 1) (Most.read a s1) fun ao s2 h2 => ?_).mono (by omega)
    have hs2 := hs1.next' Safe.read h2
    split
    · exact Most.bind (k' := 0) (baseToDict_most fuel m _ s2 (hv _ hk') hs2) fun r s3 _ => Most.setItem _ _ _ _
    · exact (Most.pure _ _).mono (Nat.zero_le _)
  · exact (Most.pure _ _).mono (Nat.zero_le _)

theorem toDict_most {S : Heap} (fuel : Nat) : ∀ (n : Nat) (x : HV) (s : St), TreeOf n S x → Intact S s →
    Most (toDictH fuel x) s (dictCost n S x) := by
  induction fuel with
  | zero =>
    intro n x s _ _
    cases x <;> rw [toDictH] <;> exact (Most.throw _ _).mono (Nat.zero_le _)
  | succ fuel ih =>
    intro n x s hx hs
    match x, n with
    | .imm i, _ => rw [toDictH]; exact (Most.throw _ _).mono (Nat.zero_le _)
    | .ref a, 0 => exact absurd hx (by simp [TreeOf])
    | .ref a, m + 1 =>
      have hx0 := hx
      obtain ⟨o, ho, he⟩ := hx
      have hU := treeSize_ref (n := m) ho
      have h3 := entries_le (n := m) (S := S) o.items ["attrs", "content", "marks"] (by decide)
      simp only [List.map_cons, List.map_nil, List.sum_cons, List.sum_nil] at h3
      rw [toDictH]
      unfold dictCost
      refine Most.readBind (hs.has a o ho) ?_
      split
      · have step : Most (do
            let v ← asdictH (fuel + 1) (.ref a)
            let d ← addrOf v
            attrsFieldH fuel o.items d
            listFieldH "content" (toDictH fuel) o.items d
            listFieldH "marks" (toDictH fuel) o.items d
            removeOptionalH d) s
            (treeSize (m + 1) S (.ref a) + (0 + ((entrySize m S o.items "attrs" + 1) +
              ((6 * (m - 1) * entrySize m S o.items "content" + 1) + ((6 * (m - 1) * entrySize m S o.items "marks" + 1) + 1))))) := by
          refine Most.bind (asdict_most _ _ _ s hx0 hs) fun v s1 h1 => ?_
          have hs1 := hs.next' (safe_asdict _ _ _ _) h1
          have hf1 := hs.res (safe_asdict _ _ _ _) h1
          refine Most.bind (addrOf_most v s1) fun d s2 h2 => ?_
          have hs2 : Intact S s2 := by
            cases v with
            | imm i => cases h2
            | ref b => cases h2; exact hs1
          have hd : S.length ≤ d := by
            cases v with
            | imm i => cases h2
            | ref b => cases h2; exact hf1.1
          refine Most.bind (attrsField_most fuel m o.items he d s2 hs2) fun _ s3 h3 => ?_
          have hs3 := hs2.next' (safe_attrsField _ _ _ _ _ hd) h3
          refine Most.bind (listField_most (fun v => safe_toDict _ _ _ v) ih m "content" o.items he d s3 hs3) fun _ s4 h4 => ?_
          have hs4 := hs3.next' (safe_listField _ _ _ (fun L v => safe_toDict _ L _ v) _ _ hd) h4
          refine Most.bind (listField_most (fun v => safe_toDict _ _ _ v) ih m "marks" o.items he d s4 hs4) fun _ s5 h5 => ?_
          exact removeOptional_most _ _
        refine step.mono ?_
        have e1 : 6 * (m - 1) * entrySize m S o.items "content" + 6 * (m - 1) * entrySize m S o.items "marks" ≤
            6 * (m - 1) * treeSize (m + 1) S (.ref a) := by
          rw [← Nat.mul_add]
          exact Nat.mul_le_mul_left _ (by omega)
        have e2 : 6 * (m - 1) * treeSize (m + 1) S (.ref a) ≤ 6 * m * treeSize (m + 1) S (.ref a) :=
          Nat.mul_le_mul_right _ (by omega)
        have e3 : 6 * (m + 1) * treeSize (m + 1) S (.ref a) = 6 * m * treeSize (m + 1) S (.ref a) + 6 * treeSize (m + 1) S (.ref a) := by ring
        omega
      · have := baseToDict_most (fuel + 1) (m + 1) (.ref a) s hx0 hs
        refine this.mono ?_
        have e2 : 6 * 1 * treeSize (m + 1) S (.ref a) ≤ 6 * (m + 1) * treeSize (m + 1) S (.ref a) :=
          Nat.mul_le_mul_right _ (by omega)
        omega
      · exact (Most.throw _ _).mono (Nat.zero_le _)

end Verif
