import Verif.Lemmas.Cycle
import Verif.Lemmas.Registry
/-!
# `parse_node` and nodes that are their own descendants
-/

namespace Verif
open Verif.Spec

/-! ## `deepcopy`, with cycles -/

def DeepcopyRes (S : Heap) (fuel : Nat) : Prop :=
  ∀ (x : HV), NoDangling S x → ∀ (memo : Memo) (s : St), Has S s → ∀ (r : HV × Memo) (s' : St),
    deepcopy fuel memo x s = (.ok r, s') →
    ∃ new, r.2 = new ++ memo ∧ CopyOk S memo new s s' ∧ Rel (new ++ memo) x r.1

theorem copyItems_res {S : Heap} {fuel : Nat} (hd : DeepcopyRes S fuel) (b : Nat) :
    ∀ (items : List (String × HV)), (∀ e ∈ items, NoDangling S e.2) → ∀ (memo : Memo) (s : St), Has S s → S.length ≤ b →
    ∀ k its, s.heap[b]? = some ⟨k, its⟩ → ∀ (m' : Memo) (s' : St), copyItems fuel b memo items s = (.ok m', s') →
    ∃ new its', m' = new ++ memo ∧
      s'.log = s.log ∧ s.heap.length ≤ s'.heap.length ∧
      (∀ a, a < s.heap.length → a ≠ b → s'.heap[a]? = s.heap[a]?) ∧
      (∀ e ∈ new, s.heap.length ≤ e.2 ∧ e.2 < s'.heap.length ∧ Copied S s'.heap (new ++ memo) e) ∧
      s'.heap[b]? = some ⟨k, its ++ its'⟩ ∧ List.Forall₂ (RelItem (new ++ memo)) items its' := by
  intro items
  induction items with
  | nil =>
    intro _ memo s _ _ k its ho m' s' hrun
    rw [copyItems] at hrun
    cases hrun
    exact ⟨[], [], rfl, rfl, Nat.le_refl _, fun _ _ _ => rfl, by simp, by simpa using ho, .nil⟩
  | cons e rest ih =>
    intro hi memo s hs hS k its ho m' s' hrun
    obtain ⟨key, v⟩ := e
    rw [copyItems, bind_run] at hrun
    cases h1 : deepcopy fuel memo v s with
    | mk r s1 =>
    rw [h1] at hrun
    cases r with
    | error e => cases hrun
    | ok r =>
    obtain ⟨x', m1⟩ := r
    obtain ⟨new1, rfl, c1, r1⟩ := hd v (hi (key, v) (by simp)) memo s hs _ s1 h1
    simp only at hrun r1
    have hb := lt_of_get ho
    have ho1 : s1.heap[b]? = some ⟨k, its⟩ := (c1.old b hb).trans ho
    let s2 : St := { s1 with heap := s1.heap.set b ⟨k, its ++ [(key, x')]⟩ }
    have ha : HM.append b (key, x') s1 = (.ok (), s2) := by
      unfold HM.append
      rw [bind_run]
      unfold HM.read
      rw [ho1]
      rfl
    rw [bind_run, ha] at hrun
    simp only at hrun
    have hb1 : b < s1.heap.length := lt_of_get ho1
    have ho2 : s2.heap[b]? = some ⟨k, its ++ [(key, x')]⟩ := List.getElem?_set_self hb1
    have hother : ∀ a, a ≠ b → s2.heap[a]? = s1.heap[a]? := fun a ha => List.getElem?_set_ne (Ne.symm ha)
    have hl2 : s2.heap.length = s1.heap.length := List.length_set
    have hs2 : Has S s2 := by
      intro a o hSa
      have hlt := lt_of_get hSa
      rw [hother a (by omega)]
      exact (hs.next c1.old) a o hSa
    obtain ⟨new2, its', rfl, l3, len3, old3, done3, ob3, rel3⟩ :=
      ih (fun e he => hi e (by simp [he])) (new1 ++ memo) s2 hs2 hS k _ ho2 m' s' hrun
    have hmem : ∀ e ∈ new1 ++ memo, e ∈ (new2 ++ new1) ++ memo := by
      intro e he
      rw [List.append_assoc]
      exact List.mem_append_right _ he
    refine ⟨new2 ++ new1, (key, x') :: its', by rw [List.append_assoc], l3.trans c1.log, ?_, ?_, ?_, ?_, ?_⟩
    · have := c1.len; omega
    · intro a hal hab
      rw [old3 a (by rw [hl2]; exact Nat.lt_of_lt_of_le hal c1.len) hab, hother a hab, c1.old a hal]
    · intro e he
      rcases List.mem_append.mp he with he | he
      · obtain ⟨g1, g2, g3⟩ := done3 e he
        refine ⟨by have := c1.len; omega, g2, ?_⟩
        rw [List.append_assoc]; exact g3
      · obtain ⟨g1, g2, g3⟩ := c1.done e he
        refine ⟨g1, by omega, g3.mono ?_ hmem⟩
        have hne : e.2 ≠ b := by omega
        rw [old3 e.2 (by rw [hl2]; exact g2) hne, hother e.2 hne]
    · rw [ob3]; simp
    · refine .cons ⟨rfl, r1.mono hmem⟩ ?_
      rw [List.append_assoc]; exact rel3

theorem deepcopy_res (S : Heap) (fuel : Nat) : DeepcopyRes S fuel := by
  induction fuel with
  | zero =>
    intro x hx memo s hs r s' hrun
    match x with
    | .imm i =>
      rw [deepcopy] at hrun
      cases hrun
      exact ⟨[], rfl, ⟨rfl, Nat.le_refl _, fun _ _ => rfl, by simp⟩, rfl⟩
    | .ref a => rw [deepcopy] at hrun; cases hrun
  | succ fuel ih =>
    intro x hx memo s hs r s' hrun
    match x with
    | .imm i =>
      rw [deepcopy] at hrun
      cases hrun
      exact ⟨[], rfl, ⟨rfl, Nat.le_refl _, fun _ _ => rfl, by simp⟩, rfl⟩
    | .ref a =>
      rw [deepcopy] at hrun
      cases hg : memo.get a with
      | some b =>
        rw [hg] at hrun
        cases hrun
        exact ⟨[], rfl, ⟨rfl, Nat.le_refl _, fun _ _ => rfl, by simp⟩, memo_get_mem hg⟩
      | none =>
        rw [hg] at hrun
        simp only at hrun
        obtain ⟨o, ho⟩ := exists_get hx
        have hr := hs a o ho
        let s1 : St := { s with heap := s.heap ++ [⟨o.kind, []⟩] }
        have hs1 : Has S s1 := by
          intro a o ha
          have := hs a o ha
          show (s.heap ++ [_])[a]? = _
          rw [List.getElem?_append_left (lt_of_get this)]
          exact this
        have hb1 : s1.heap[s.heap.length]? = some ⟨o.kind, []⟩ := by
          show (s.heap ++ [_])[_]? = _
          rw [List.getElem?_append_right (Nat.le_refl _)]
          simp
        rw [read_bind hr, bind_run] at hrun
        unfold HM.alloc at hrun
        simp only at hrun
        rw [bind_run] at hrun
        cases h2 : copyItems fuel s.heap.length ((a, s.heap.length) :: memo) o.items s1 with
        | mk q s2 =>
        rw [show ({ s with heap := s.heap ++ [⟨o.kind, []⟩] } : St) = s1 from rfl, h2] at hrun
        cases q with
        | error e => cases hrun
        | ok q =>
        cases hrun
        obtain ⟨new, its', rfl, l2, len2, old2, done2, ob2, rel2⟩ :=
          copyItems_res ih s.heap.length o.items (fun e he => exists_item hx ho he)
            ((a, s.heap.length) :: memo) s1 hs1 (has_lt hs) o.kind [] hb1 _ _ h2
        have hl1 : s1.heap.length = s.heap.length + 1 := by
          show (s.heap ++ [_]).length = _
          simp
        refine ⟨new ++ [(a, s.heap.length)], by simp, ⟨l2, by omega, ?_, ?_⟩, ?_⟩
        · intro b hb
          rw [old2 b (by omega) (by omega)]
          show (s.heap ++ [_])[b]? = _
          rw [List.getElem?_append_left hb]
        · intro e he
          rw [List.append_assoc, List.singleton_append]
          rcases List.mem_append.mp he with he | he
          · obtain ⟨g1, g2, g3⟩ := done2 e he
            exact ⟨by omega, g2, g3⟩
          · rw [List.mem_singleton] at he
            subst he
            refine ⟨Nat.le_refl _, by simp only; omega, o, its', ho, ?_, rel2⟩
            simpa using ob2
        · show (a, s.heap.length) ∈ _
          simp

/-! ## Nodes without end -/

/-- Following children never has to stop. -/
def Loop (h : Heap) (x : HV) : Prop :=
  ∃ P : Nat → Prop, (∃ a, x = .ref a ∧ P a) ∧ ∀ a, P a → ∃ b, P b ∧ ChildDict h b a

theorem loop_of_cycle {h : Heap} {x : HV} (hc : HasNodeCycle h x) : Loop h x := by
  obtain ⟨a, b, rfl, hab, hbb⟩ := hc
  refine ⟨fun z => z = b ∨ Descendant h b z, ⟨a, rfl, ?_⟩, ?_⟩
  · rcases hab with rfl | h
    · exact .inl rfl
    · exact .inr h
  · have key : ∀ z, Descendant h b z → ∃ y, (y = b ∨ Descendant h b y) ∧ ChildDict h y z := by
      intro z hz
      cases hz with
      | child hc => exact ⟨b, .inl rfl, hc⟩
      | deeper hc hb => exact ⟨_, .inr hb, hc⟩
    rintro z (rfl | hz)
    · exact key _ hbb
    · exact key _ hz

theorem Loop.mono {h h' : Heap} (hh : ∀ (a : Nat) (o : HObj), h[a]? = some o → h'[a]? = some o) {x : HV} (hl : Loop h x) : Loop h' x := by
  obtain ⟨P, hx, hP⟩ := hl
  refine ⟨P, hx, fun a ha => ?_⟩
  obtain ⟨b, hb, items, elems, name, c, l, k, h1, h2, h3, h4, h5, h6⟩ := hP a ha
  exact ⟨b, hb, items, elems, name, c, l, k, hh _ _ h1, h2, h3, h4, hh _ _ h5, h6⟩

theorem exists_mono {h h' : Heap} (hh : ∀ (a : Nat) (o : HObj), h[a]? = some o → h'[a]? = some o) {x : HV} (hx : NoDangling h x) : NoDangling h' x := by
  intro b hb
  suffices Reach h x b from by
    obtain ⟨o, ho⟩ : ∃ o, h[b]? = some o := ⟨_, List.getElem?_eq_getElem (hx b this)⟩
    exact lt_of_get (hh _ _ ho)
  induction hb with
  | here a => exact .here a
  | step ho he _ ih =>
    obtain ⟨o', ho'⟩ := exists_get hx
    have := (hh _ _ ho').symm.trans ho
    cases this
    exact .step ho' he (ih (exists_item hx ho' he))

theorem forall2_itemGet {m : Memo} {items items' : List (String × HV)} (hr : List.Forall₂ (RelItem m) items items') {k : String} {v : HV}
    (hg : itemGet items k = some v) : ∃ v', itemGet items' k = some v' ∧ Rel m v v' := by
  induction hr with
  | nil => cases hg
  | @cons e e' l l' h1 h2 ih =>
    obtain ⟨k1, v1⟩ := e
    obtain ⟨k2, v2⟩ := e'
    obtain ⟨hk, hv⟩ := h1
    simp only at hk hv
    subst hk
    unfold itemGet at hg ⊢
    by_cases h : k1 = k
    · rw [if_pos h] at hg ⊢
      cases hg
      exact ⟨_, rfl, hv⟩
    · rw [if_neg h] at hg ⊢
      exact ih hg

theorem forall2_mem {m : Memo} {items items' : List (String × HV)} (hr : List.Forall₂ (RelItem m) items items') {e : String × HV}
    (he : e ∈ items) : ∃ e' ∈ items', RelItem m e e' := by
  induction hr with
  | nil => cases he
  | cons h1 _ ih =>
    rcases List.mem_cons.mp he with rfl | he
    · exact ⟨_, List.mem_cons_self, h1⟩
    · obtain ⟨e', h, r⟩ := ih he
      exact ⟨e', List.mem_cons_of_mem _ h, r⟩

theorem rel_imm {m : Memo} {i : Imm} {y : HV} (h : Rel m (.imm i) y) : y = .imm i := by
  match y, h with
  | .imm j, h => rw [show i = j from h]

theorem rel_ref {m : Memo} {a : Nat} {y : HV} (h : Rel m (.ref a) y) : ∃ b, y = .ref b ∧ (a, b) ∈ m := by
  match y, h with
  | .ref b, h => exact ⟨b, rfl, h⟩

/-- The copy of a node without end is one. -/
theorem loop_copy {S h : Heap} {m : Memo} (hm : ∀ e ∈ m, Copied S h m e) {x y : HV} (hl : Loop S x) (hr : Rel m x y) : Loop h y := by
  obtain ⟨P, ⟨a, rfl, ha⟩, hP⟩ := hl
  obtain ⟨b, rfl, hab⟩ := rel_ref hr
  refine ⟨fun z => ∃ w, P w ∧ (w, z) ∈ m, ⟨b, rfl, a, ha, hab⟩, ?_⟩
  rintro z ⟨w, hw, hwz⟩
  obtain ⟨c, hc, items, elems, name, cls, l, k, h1, h2, h3, h4, h5, h6⟩ := hP w hw
  obtain ⟨o, items', g1, g2, g3⟩ := hm _ hwz
  have : (some o : Option HObj) = some _ := g1.symm.trans h1
  cases this
  obtain ⟨v2, e2, r2⟩ := forall2_itemGet g3 h2
  obtain rfl := rel_imm r2
  obtain ⟨v4, e4, r4⟩ := forall2_itemGet g3 h4
  obtain ⟨l', rfl, hll⟩ := rel_ref r4
  obtain ⟨ol, elems', k1, k2, k3⟩ := hm _ hll
  have : (some ol : Option HObj) = some _ := k1.symm.trans h5
  cases this
  obtain ⟨⟨k', y⟩, e6, _, r6⟩ := forall2_mem k3 h6
  obtain ⟨c', rfl, hcc⟩ := rel_ref r6
  exact ⟨c', ⟨c, hc, hcc⟩, items', elems', name, cls, l', k', g2, e2, h3, e4, k2, e6⟩

/-- Replacing the attrs of one dict does not matter. -/
theorem loop_setAttrs {h h' : Heap} {b : Nat} {items : List (String × HV)} {v : HV} (hb : h[b]? = some ⟨.dict, items⟩)
    (hb' : h'[b]? = some ⟨.dict, itemSet items "attrs" v⟩) (hh : ∀ (a : Nat) (o : HObj), a ≠ b → h[a]? = some o → h'[a]? = some o) {x : HV} (hl : Loop h x) : Loop h' x := by
  obtain ⟨P, hx, hP⟩ := hl
  refine ⟨P, hx, fun a ha => ?_⟩
  obtain ⟨c, hc, its, elems, name, cls, l, k, h1, h2, h3, h4, h5, h6⟩ := hP a ha
  have hl : h'[l]? = some ⟨.list, elems⟩ := by
    refine hh l _ ?_ h5
    rintro rfl
    have := hb.symm.trans h5
    cases this
  by_cases hab : a = b
  · subst hab
    have : (some (HObj.mk .dict items) : Option HObj) = some _ := hb.symm.trans h1
    cases this
    exact ⟨c, hc, _, elems, name, cls, l, k, hb', by rw [itemGet_itemSet_ne (by decide)]; exact h2, h3,
      by rw [itemGet_itemSet_ne (by decide)]; exact h4, hl, h6⟩
  · exact ⟨c, hc, its, elems, name, cls, l, k, hh _ _ hab h1, h2, h3, h4, hl, h6⟩

/-! ## Such a node is not converted -/

/-- The program raises, and not an exception that a conversion loop skips. -/
def Stuck {α : Type} (m : HM α) (s : St) : Prop := ∃ e, (m s).1 = .error e ∧ ∀ t c, e ≠ .py (.unimplementedType t c)

theorem Stuck.left {α β : Type} {m : HM α} {f : α → HM β} {s : St} (hm : Stuck m s) : Stuck (m >>= f) s := by
  obtain ⟨e, h, he⟩ := hm
  refine ⟨e, ?_, he⟩
  rw [bind_run]
  cases hr : m s with
  | mk r s' =>
    rw [hr] at h
    cases h
    rfl

theorem Stuck.bind {α β : Type} {m : HM α} {f : α → HM β} {s : St} (hm : (∃ a s', m s = (.ok a, s')) ∨ Stuck m s)
    (hf : ∀ a s', m s = (.ok a, s') → Stuck (f a) s') : Stuck (m >>= f) s := by
  rcases hm with ⟨a, s', h⟩ | h
  · obtain ⟨e, h1, h2⟩ := hf a s' h
    refine ⟨e, ?_, h2⟩
    rw [bind_run, h]
    exact h1
  · exact h.left

/-- Either fine or stuck: it does not raise what a conversion loop skips. -/
def Plain {α : Type} (m : HM α) (s : St) : Prop := (∃ a s', m s = (.ok a, s')) ∨ Stuck m s

theorem Plain.bind {α β : Type} {m : HM α} {f : α → HM β} {s : St} (hm : Plain m s) (hf : ∀ a s', m s = (.ok a, s') → Plain (f a) s') :
    Plain (m >>= f) s := by
  rcases hm with ⟨a, s', h⟩ | h
  · rcases hf a s' h with ⟨b, s2, h2⟩ | ⟨e, h1, h2⟩
    · exact .inl ⟨b, s2, by rw [bind_run, h]; exact h2⟩
    · exact .inr ⟨e, by rw [bind_run, h]; exact h1, h2⟩
  · exact .inr h.left

theorem Plain.pure {α : Type} (a : α) (s : St) : Plain (HM.pure a) s := .inl ⟨a, s, rfl⟩
theorem Plain.recursion {α : Type} (s : St) : Plain (HM.throw (α := α) .recursion) s := .inr ⟨_, rfl, nofun⟩
theorem Plain.typeError {α : Type} (s : St) : Plain (HM.throw (α := α) (.py .typeError)) s := .inr ⟨_, rfl, nofun⟩
theorem Plain.alloc (o : HObj) (s : St) : Plain (HM.alloc o) s := .inl ⟨_, _, rfl⟩
theorem Plain.write (a : Nat) (o : HObj) (s : St) : Plain (HM.write a o) s := .inl ⟨_, _, rfl⟩
theorem Plain.read (a : Nat) (s : St) : Plain (HM.read a) s := by
  unfold Plain Stuck HM.read
  cases s.heap[a]? with
  | none => exact .inr ⟨_, rfl, nofun⟩
  | some o => exact .inl ⟨_, _, rfl⟩
theorem Plain.append (a : Nat) (e : String × HV) (s : St) : Plain (HM.append a e) s := .bind (.read _ _) fun _ _ _ => .write _ _ _
theorem Plain.setItem (a : Nat) (k : String) (v : HV) (s : St) : Plain (HM.setItem a k v) s := .bind (.read _ _) fun _ _ _ => .write _ _ _

mutual
theorem deepcopy_plain (fuel : Nat) (memo : Memo) (x : HV) (s : St) : Plain (deepcopy fuel memo x) s := by
  match fuel, x with
  | _, .imm i => rw [deepcopy]; exact .pure _ _
  | 0, .ref a => rw [deepcopy]; exact .recursion _
  | fuel + 1, .ref a =>
    rw [deepcopy]
    split
    · exact .pure _ _
    · exact .bind (.read _ _) fun o _ _ => .bind (.alloc _ _) fun b _ _ => .bind (copyItems_plain fuel b _ o.items _) fun _ _ _ => .pure _ _
termination_by (fuel, 0)

theorem copyItems_plain (fuel b : Nat) (memo : Memo) (items : List (String × HV)) (s : St) : Plain (copyItems fuel b memo items) s := by
  match items with
  | [] => rw [copyItems]; exact .pure _ _
  | (k, v) :: rest =>
    rw [copyItems]
    exact .bind (deepcopy_plain fuel memo v s) fun r _ _ => .bind (.append _ _ _) fun _ _ _ => copyItems_plain fuel b r.2 rest _
termination_by (fuel, items.length + 1)
end

theorem base_plain (t : Tag) (fs : List Field) (v : HV) (s : St) : Plain (baseFromDictH t fs v) s := by
  unfold baseFromDictH
  split
  · exact .typeError _
  · refine .bind (.read _ _) fun o s1 _ => ?_
    split
    · refine .bind ?_ fun _ _ _ => .bind (.alloc _ _) fun _ _ _ => .pure _ _
      unfold checkRequired
      split
      · exact .inr ⟨_, rfl, nofun⟩
      · split
        · exact .inr ⟨_, rfl, nofun⟩
        · exact .inl ⟨_, _, rfl⟩
    · exact .typeError _

theorem attrsStep_plain (afs : Option (List Field)) (b : Nat) (s : St) : Plain (attrsStepH afs b) s := by
  unfold attrsStepH
  refine .bind (.read _ _) fun o s1 _ => ?_
  split
  · exact .bind (base_plain _ _ _ _) fun _ _ _ => .setItem _ _ _ _
  · exact .pure _ _

theorem copyDict_plain (fuel : Nat) (v : HV) (s : St) : Plain (copyDictH fuel v) s := by
  unfold copyDictH
  refine .bind (deepcopy_plain _ _ _ _) fun r s1 _ => ?_
  obtain ⟨v', m⟩ := r
  match v' with
  | .imm _ => exact .typeError _
  | .ref b =>
    refine .bind (.read _ _) fun o s1 _ => ?_
    split
    · exact .pure _ _
    · exact .typeError _

theorem skip_plain (warn : Bool) (m : HM HV) (s : St) : Plain (skipH warn m) s := by
  unfold Plain Stuck skipH
  split
  · exact .inl ⟨_, _, rfl⟩
  · exact .inl ⟨_, _, rfl⟩
  · rename_i e _ hne _
    refine .inr ⟨_, rfl, fun t c h => ?_⟩
    exact hne t c h

theorem skip_stuck (warn : Bool) {m : HM HV} {s : St} (hm : Stuck m s) : Stuck (skipH warn m) s := by
  obtain ⟨e, h, he⟩ := hm
  unfold Stuck skipH
  cases hr : m s with
  | mk r s' =>
    rw [hr] at h
    cases h
    split
    · rename_i h; cases h
    · rename_i h; cases h; exact absurd rfl (he _ _)
    · rename_i h; cases h; exact ⟨_, rfl, he⟩

theorem has_trans {S : Heap} {s s' : St} (h : Has S s) (h' : Has s.heap s') : Has S s' := fun a o ho => h' a o (h a o ho)

/-- A safe program leaves the objects there are alone. -/
theorem safe_has {α : Type} {m : HM α} {Q : Nat → Nat → α → Prop} (hm : ∀ N, Safe N N m (Q N)) {s s' : St} {r : Except HErr α} (hr : m s = (r, s')) :
    Has s.heap s' := by
  obtain ⟨h1, _⟩ := hm s.heap.length s (fun a o ha ho => absurd (lt_of_get ho) (by omega)) (Nat.le_refl _) (Nat.le_refl _)
  rw [hr] at h1
  intro a o ho
  rw [h1 a (lt_of_get ho)]
  exact ho

theorem loop_stuck (warn : Bool) {f : HV → HM HV} {S : Heap} (hsafe : ∀ N L v, Safe N L (f v) (Fresh N))
    (hf : ∀ v s, Loop s.heap v → NoDangling s.heap v → Stuck (f v) s) :
    ∀ (items : List (String × HV)) (s : St), Has S s → (∀ e ∈ items, NoDangling S e.2) → (∃ e ∈ items, Loop S e.2) → Stuck (loopH warn f items) s := by
  intro items
  induction items with
  | nil => rintro s _ _ ⟨_, h, _⟩; cases h
  | cons e rest ih =>
    rintro s hs hx ⟨e', he', hl⟩
    rcases List.mem_cons.mp he' with rfl | he'
    · exact (skip_stuck warn (hf _ s (hl.mono hs) (exists_mono hs (hx _ List.mem_cons_self)))).left
    · refine .bind (skip_plain _ _ _) fun r s1 h1 => .left ?_
      exact ih s1 (has_trans hs (safe_has (fun N => safe_skip N N warn (hsafe N N _)) h1)) (fun e he => hx e (List.mem_cons_of_mem _ he)) ⟨e', he', hl⟩

theorem listStep_stuck (warn : Bool) {f : HV → HM HV} (hsafe : ∀ N L v, Safe N L (f v) (Fresh N))
    (hf : ∀ v s, Loop s.heap v → NoDangling s.heap v → Stuck (f v) s) {b : Nat} {s : St} (hl : Loop s.heap (.ref b)) (hx : NoDangling s.heap (.ref b)) :
    Stuck (listStepH warn "content" f b) s := by
  obtain ⟨P, ⟨_, hb, hPb⟩, hP⟩ := hl
  cases hb
  obtain ⟨c, hc, items, elems, name, cls, l, k, h1, h2, h3, h4, h5, h6⟩ := hP b hPb
  unfold listStepH
  refine .bind (.inl ⟨_, s, by unfold HM.read; rw [h1]⟩) fun o s1 hr => ?_
  unfold HM.read at hr
  rw [h1] at hr
  cases hr
  simp only
  rw [h4]
  simp only
  refine .bind (.inl ⟨_, s, by unfold HM.read; rw [h5]⟩) fun o s1 hr => ?_
  unfold HM.read at hr
  rw [h5] at hr
  cases hr
  simp only
  have hxl := exists_item hx h1 (itemGet_in h4)
  exact .left (loop_stuck warn hsafe hf elems s (fun _ _ h => h) (fun e he => exists_item hxl h5 he)
    ⟨_, h6, P, ⟨c, rfl, hc⟩, hP⟩)

theorem attrsStep_loop (afs : Option (List Field)) {b : Nat} {s s' : St} {x : HV} {u : Unit} {its : List (String × HV)}
    (hb : s.heap[b]? = some ⟨.dict, its⟩) (hl : Loop s.heap x)
    (hrun : attrsStepH afs b s = (.ok u, s')) : Loop s'.heap x := by
  unfold attrsStepH at hrun
  rw [read_bind hb] at hrun
  cases hv : itemGet its "attrs" with
  | none => simp only [hv] at hrun; cases hrun; exact hl
  | some v =>
  cases afs with
  | none => simp only [hv] at hrun; cases hrun; exact hl
  | some fs =>
    simp only [hv] at hrun
    rw [bind_run] at hrun
    cases hr : baseFromDictH .attrs fs v s with
    | mk r s1 =>
    rw [hr] at hrun
    cases r with
    | error e => cases hrun
    | ok inst =>
    have hh : Has s.heap s1 := by
      unfold baseFromDictH at hr
      split at hr
      · cases hr
      · rename_i a
        rw [bind_run] at hr
        unfold HM.read at hr
        cases hoa : s.heap[a]? with
        | none => rw [hoa] at hr; cases hr
        | some o =>
          rw [hoa] at hr
          simp only at hr
          obtain ⟨kd, oi⟩ := o
          cases kd with
          | list => cases hr
          | inst t => cases hr
          | dict =>
            simp only at hr
            rw [bind_run] at hr
            cases hck : checkRequired fs (fun k => (itemGet oi k).isSome) with
            | error e =>
              rw [show HM.ofExcept (checkRequired fs fun k => (itemGet oi k).isSome) s = (.error (.py e), s) by rw [hck]; rfl] at hr
              cases hr
            | ok u =>
              rw [show HM.ofExcept (checkRequired fs fun k => (itemGet oi k).isSome) s = (.ok u, s) by rw [hck]; rfl] at hr
              cases hr
              intro a o ho
              show (s.heap ++ [_])[a]? = _
              rw [List.getElem?_append_left (lt_of_get ho)]
              exact ho
    simp only at hrun
    unfold HM.setItem at hrun
    rw [read_bind (hh _ _ hb)] at hrun
    cases hrun
    refine loop_setAttrs (v := inst) (hh _ _ hb) ?_ ?_ (hl.mono hh)
    · show (s1.heap.set b _)[b]? = _
      rw [List.getElem?_set_self (lt_of_get (hh _ _ hb))]
    · intro a o hne ho
      show (s1.heap.set b _)[a]? = _
      rw [List.getElem?_set_ne (Ne.symm hne)]
      exact ho

theorem copyDict_loop {fuel : Nat} {v : HV} {s s' : St} {b : Nat} (hl : Loop s.heap v) (hx : NoDangling s.heap v)
    (hrun : copyDictH fuel v s = (.ok b, s')) : Loop s'.heap (.ref b) ∧ ∃ its, s'.heap[b]? = some ⟨.dict, its⟩ := by
  unfold copyDictH at hrun
  rw [bind_run] at hrun
  cases hr : deepcopy fuel [] v s with
  | mk r s1 =>
  rw [hr] at hrun
  cases r with
  | error e => cases hrun
  | ok r =>
  obtain ⟨v', m⟩ := r
  obtain ⟨new, hm, ck, rel⟩ := deepcopy_res s.heap fuel v hx [] s (fun _ _ h => h) _ _ hr
  rw [List.append_nil] at rel
  simp only at hrun rel
  match v' with
  | .imm i => cases hrun
  | .ref b' =>
    simp only at hrun
    rw [bind_run] at hrun
    unfold HM.read at hrun
    cases ho : s1.heap[b']? with
    | none => rw [ho] at hrun; cases hrun
    | some o =>
      rw [ho] at hrun
      obtain ⟨kd, its⟩ := o
      cases kd with
      | list => cases hrun
      | inst t => cases hrun
      | dict =>
        cases hrun
        refine ⟨loop_copy (m := new) (fun e he => ?_) hl rel, its, ho⟩
        have := (ck.done e he).2.2
        rw [List.append_nil] at this
        exact this

theorem nodeFromDict_stuck (fuel : Nat) (warn : Bool) {parse : HV → HM HV} (hsafe : ∀ N L v, Safe N L (parse v) (Fresh N))
    (hf : ∀ v s, Loop s.heap v → NoDangling s.heap v → Stuck (parse v) s) (c : NodeCls) {v : HV} {s : St} (hl : Loop s.heap v) (hx : NoDangling s.heap v) :
    Stuck (nodeFromDictH fuel warn parse c v) s := by
  unfold nodeFromDictH
  refine .bind (copyDict_plain _ _ _) fun b s1 h1 => .bind (attrsStep_plain _ _ _) fun _ s2 h2 => .left ?_
  obtain ⟨l1, its, hb⟩ := copyDict_loop hl hx h1
  have l2 := attrsStep_loop _ hb l1 h2
  have hsep : Sep s.heap.length s.heap := fun a o ha ho => absurd (lt_of_get ho) (by omega)
  have i0 : Intact s.heap s := ⟨fun _ _ h => h, hsep⟩
  have q1 : s.heap.length ≤ b := i0.res (safe_copyDict _ _ _ _) h1
  have i1 := i0.next' (safe_copyDict _ _ _ _) h1
  have i2 := i1.next' (safe_attrsStep _ _ _ _ q1) h2
  have len2 := (safe_attrsStep s.heap.length s1.heap.length c.attrsFields b q1 s1 i1.sep (has_lt i1.has) (Nat.le_refl _)).2.1
  rw [h2] at len2
  refine listStep_stuck warn hsafe hf l2 fun a ha => ?_
  exact (reach_fresh i2.sep (v := .ref b) ⟨q1, Nat.lt_of_lt_of_le (lt_of_get hb) len2⟩ ha).2

theorem registry_ok {name : String} {c : NodeCls} (hm : (name, c) ∈ nodeTypes) :
    ∃ c', registryLookup nodeRegistry (.str name.toList) = .ok (some c') := by
  obtain ⟨te, hv, hm⟩ := nodeTypes_enum hm
  cases hl : registryLookup nodeRegistry (.str name.toList) with
  | error e => exact absurd (registryLookup_error hl).2 (by simp [Val.hashable])
  | ok o =>
    cases o with
    | none => exact absurd (by rw [hv]) ((registryLookup_none.mp hl).2 te c hm)
    | some c' => exact ⟨c', rfl⟩

theorem parse_stuck (fuel : Nat) : ∀ (warn : Bool) (v : HV) (s : St), Loop s.heap v → NoDangling s.heap v → Stuck (parseNodeH fuel warn v) s := by
  induction fuel with
  | zero => intro warn v s _ _; exact ⟨_, rfl, nofun⟩
  | succ fuel ih =>
    intro warn v s hl hx
    obtain ⟨P, ⟨a, rfl, ha⟩, hP⟩ := id hl
    obtain ⟨c, hc, items, elems, name, cls, l, k, h1, h2, h3, h4, h5, h6⟩ := hP a ha
    obtain ⟨c', hreg⟩ := registry_ok h3
    have hrun : registryH nodeRegistry "node" (.ref a) s = (.ok c', s) := by
      unfold registryH
      simp only
      rw [read_bind h1]
      simp only
      rw [h2]
      simp only [Imm.toVal]
      rw [hreg]
      rfl
    unfold parseNodeH
    refine .bind (.inl ⟨_, _, hrun⟩) fun c2 s2 h => ?_
    rw [hrun] at h
    cases h
    exact nodeFromDict_stuck _ warn (fun N L v => safe_parseNode N L fuel warn v) (fun v s => ih warn v s) c' hl hx

end Verif
