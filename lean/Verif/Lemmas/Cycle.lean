import Mathlib.Data.Finset.Card
import Verif.Spec.Cycle
import Verif.Lemmas.HeapOutCost
/-!
# `to_dict` and objects that contain themselves
-/

namespace Verif
open Verif.Spec

theorem exists_item {h : Heap} {a : Nat} {o : HObj} (hx : NoDangling h (.ref a)) (ho : h[a]? = some o) {e : String × HV} (he : e ∈ o.items) :
    NoDangling h e.2 := fun b hb => hx b (.step ho he hb)

theorem exists_get {h : Heap} {a : Nat} (hx : NoDangling h (.ref a)) : ∃ o, h[a]? = some o :=
  ⟨h[a]'(hx a (.here a)), List.getElem?_eq_getElem _⟩

theorem inside_cases {h : Heap} {a b : Nat} (hi : Inside h b a) :
    ∃ o e, h[a]? = some o ∧ e ∈ o.items ∧ Reach h e.2 b := by
  induction hi with
  | item ho he => exact ⟨_, _, ho, he, .here _⟩
  | deeper ho he _ ih =>
    obtain ⟨o, e, ho', he', hr⟩ := ih
    exact ⟨_, _, ho, he, .step ho' he' hr⟩

theorem inside_of_reach {h : Heap} {x : HV} {b : Nat} (hr : Reach h x b) :
    ∀ {a : Nat} {o : HObj} {k : String}, h[a]? = some o → (k, x) ∈ o.items → Inside h b a := by
  induction hr with
  | here _ => intro _ _ _ ho he; exact .item ho he
  | step ho' he' _ ih => intro _ _ _ ho he; exact .deeper ho he (ih (k := _) ho' he')

theorem reach_inside {h : Heap} {a b : Nat} (hi : Inside h b a) : Reach h (.ref a) b := by
  obtain ⟨o, e, ho, he, hr⟩ := inside_cases hi
  exact .step ho he hr

theorem cycle_step {h : Heap} {a : Nat} {o : HObj} (ho : h[a]? = some o) (hc : HasCycle h (.ref a)) : ∃ e ∈ o.items, HasCycle h e.2 := by
  obtain ⟨c, hr, hi⟩ := hc
  cases hr with
  | here =>
    obtain ⟨o', e, ho', he, hr⟩ := inside_cases hi
    have : (some o : Option HObj) = some o' := ho.symm.trans ho'
    cases this
    exact ⟨e, he, a, hr, hi⟩
  | step ho' he hr =>
    have := ho.symm.trans ho'
    cases this
    exact ⟨_, he, c, hr, hi⟩

theorem cycle_up {h : Heap} {a : Nat} {o : HObj} (ho : h[a]? = some o) {e : String × HV} (he : e ∈ o.items) (hc : HasCycle h e.2) :
    HasCycle h (.ref a) := by
  obtain ⟨c, hr, hi⟩ := hc
  exact ⟨c, .step ho he hr, hi⟩

/-! ## With a cycle -/

def AsdictCyc (S : Heap) (fuel : Nat) : Prop :=
  ∀ (x : HV) (s : St), NoDangling S x → Intact S s →
    (∃ r s', asdictH fuel x s = (.ok r, s') ∧ Intact S s' ∧ ¬ HasCycle S x) ∨ ∃ s', asdictH fuel x s = (.error .recursion, s')

theorem asdictItems_cyc {S : Heap} {fuel : Nat} (ha : AsdictCyc S fuel) : ∀ (items : List (String × HV)) (s : St),
    (∀ e ∈ items, NoDangling S e.2) → Intact S s →
    (∃ r s', asdictItems fuel items s = (.ok r, s') ∧ ∀ e ∈ items, ¬ HasCycle S e.2) ∨
      ∃ s', asdictItems fuel items s = (.error .recursion, s') := by
  intro items
  induction items with
  | nil => intro s _ _; exact .inl ⟨[], s, by rw [asdictItems]; rfl, by simp⟩
  | cons e rest ih =>
    intro s hx hs
    obtain ⟨k, v⟩ := e
    rcases ha v s (hx _ List.mem_cons_self) hs with ⟨r, s1, h1, i1, c1⟩ | ⟨s1, h1⟩
    · rcases ih s1 (fun e he => hx e (List.mem_cons_of_mem _ he)) i1 with ⟨r', s2, h2, c2⟩ | ⟨s2, h2⟩
      · refine .inl ⟨(k, r) :: r', s2, ?_, ?_⟩
        · rw [asdictItems, bind_run, h1]
          simp only
          rw [bind_run, h2]
          rfl
        · intro e he
          rcases List.mem_cons.mp he with rfl | he
          · exact c1
          · exact c2 e he
      · refine .inr ⟨s2, ?_⟩
        rw [asdictItems, bind_run, h1]
        simp only
        rw [bind_run, h2]
    · exact .inr ⟨s1, by rw [asdictItems, bind_run, h1]⟩

theorem asdict_cyc (S : Heap) (fuel : Nat) : AsdictCyc S fuel := by
  induction fuel with
  | zero =>
    intro x s hx hs
    match x with
    | .imm i =>
      refine .inl ⟨.imm i, s, by rw [asdictH]; rfl, hs, ?_⟩
      rintro ⟨a, hr, _⟩
      cases hr
    | .ref a => exact .inr ⟨s, by rw [asdictH]; rfl⟩
  | succ fuel ih =>
    intro x s hx hs
    match x with
    | .imm i =>
      refine .inl ⟨.imm i, s, by rw [asdictH]; rfl, hs, ?_⟩
      rintro ⟨a, hr, _⟩
      cases hr
    | .ref a =>
      obtain ⟨o, ho⟩ := exists_get hx
      have hitems := asdictItems_cyc ih o.items s (fun e he => exists_item hx ho he) hs
      rcases hitems with ⟨r, s1, h1, c1⟩ | ⟨s1, h1⟩
      · have hrun : asdictH (fuel + 1) (.ref a) s = (.ok (.ref s1.heap.length), { s1 with heap := s1.heap ++ [⟨o.kind.asdict, r⟩] }) := by
          rw [asdictH, read_bind (hs.has a o ho), bind_run, h1]
          rfl
        refine .inl ⟨_, _, hrun, hs.next' (safe_asdict _ _ _ _) hrun, ?_⟩
        intro hc
        obtain ⟨e, he, hce⟩ := cycle_step ho hc
        exact c1 e he hce
      · refine .inr ⟨s1, ?_⟩
        rw [asdictH, read_bind (hs.has a o ho), bind_run, h1]

/-! ## Without a cycle -/

theorem fin_of_acyclic {h : Heap} : ∀ (n : Nat) (x : HV), NoDangling h x → ¬ HasCycle h x →
    (∃ T : Finset Nat, T.card ≤ n ∧ ∀ b, Reach h x b → b ∈ T) → Fin n h x := by
  classical
  intro n
  induction n with
  | zero =>
    intro x _ _ hT
    match x with
    | .imm _ => trivial
    | .ref a =>
      obtain ⟨T, hc, hT⟩ := hT
      have := Finset.card_eq_zero.mp (Nat.le_zero.mp hc)
      have ha := hT a (.here a)
      rw [this] at ha
      cases ha
  | succ n ih =>
    intro x hx hc hT
    match x with
    | .imm _ => trivial
    | .ref a =>
      obtain ⟨o, ho⟩ := exists_get hx
      obtain ⟨T, hcard, hT⟩ := hT
      refine ⟨o, ho, fun e he => ih e.2 (exists_item hx ho he) (fun h => hc (cycle_up ho he h)) ⟨T.erase a, ?_, ?_⟩⟩
      · rw [Finset.card_erase_of_mem (hT a (.here a))]
        omega
      · intro b hb
        refine Finset.mem_erase.mpr ⟨?_, hT b (.step ho he hb)⟩
        rintro rfl
        exact hc ⟨b, .here b, inside_of_reach hb ho (k := e.1) he⟩

theorem fin_length {h : Heap} {x : HV} (hx : NoDangling h x) (hc : ¬ HasCycle h x) : Fin h.length h x :=
  fin_of_acyclic _ x hx hc ⟨Finset.range h.length, by simp, fun b hb => Finset.mem_range.mpr (hx b hb)⟩

/-- The program does not hit the recursion limit. -/
def NoRec {α : Type} (m : HM α) (s : St) : Prop := (m s).1 ≠ .error .recursion

theorem NoRec.bind {α β : Type} {m : HM α} {f : α → HM β} {s : St} (hm : NoRec m s) (hf : ∀ a s', m s = (.ok a, s') → NoRec (f a) s') :
    NoRec (m >>= f) s := by
  unfold NoRec at *
  rw [bind_run]
  cases hr : m s with
  | mk r s' =>
    rw [hr] at hm
    cases r with
    | error e => intro h; exact hm (Except.error.inj h ▸ rfl)
    | ok a => exact hf a s' hr

theorem NoRec.pure {α : Type} (a : α) (s : St) : NoRec (HM.pure a) s := nofun
theorem NoRec.py {α : Type} (e : PyErr) (s : St) : NoRec (HM.throw (α := α) (.py e)) s := nofun
theorem NoRec.alloc (o : HObj) (s : St) : NoRec (HM.alloc o) s := nofun
theorem NoRec.write (a : Nat) (o : HObj) (s : St) : NoRec (HM.write a o) s := nofun
theorem NoRec.read (a : Nat) (s : St) : NoRec (HM.read a) s := by
  unfold NoRec HM.read
  cases s.heap[a]? <;> exact nofun

theorem NoRec.setItem (a : Nat) (k : String) (v : HV) (s : St) : NoRec (HM.setItem a k v) s :=
  .bind (.read a s) fun _ _ _ => .write _ _ _

theorem NoRec.readBind {β : Type} {a : Nat} {s : St} {f : HObj → HM β} (hf : ∀ o, s.heap[a]? = some o → NoRec (f o) s) :
    NoRec (HM.read a >>= f) s := by
  unfold NoRec
  rw [bind_run]
  unfold HM.read
  cases ho : s.heap[a]? with
  | none => exact nofun
  | some o => exact hf o ho

theorem asdict_norec {S : Heap} {fuel : Nat} {x : HV} {s : St} (hx : Fin fuel S x) (hs : Intact S s) : NoRec (asdictH fuel x) s := by
  obtain ⟨r, s', h, _⟩ := asdict_ok S fuel x 0 s hx hs.has (Nat.zero_le _)
  unfold NoRec
  rw [h]
  exact nofun

theorem addrOf_norec (v : HV) (s : St) : NoRec (addrOf v) s := by cases v <;> exact nofun

theorem removeOptional_norec (d : Nat) (s : St) : NoRec (removeOptionalH d) s :=
  .bind (.read d s) fun _ _ _ => .bind (.alloc _ _) fun _ _ _ => .pure _ _

theorem baseToDict_norec {S : Heap} {fuel : Nat} {x : HV} {s : St} (hx : Fin fuel S x) (hs : Intact S s) : NoRec (baseToDictH fuel x) s :=
  .bind (asdict_norec hx hs) fun _ _ _ => .bind (addrOf_norec _ _) fun _ _ _ => removeOptional_norec _ _

theorem map_norec {S : Heap} {f : HV → HM HV} (hsafe : ∀ v, Safe S.length S.length (f v) (Fresh S.length)) :
    ∀ (items : List (String × HV)) (s : St), (∀ e ∈ items, ∀ s, Intact S s → NoRec (f e.2) s) → Intact S s → NoRec (mapH f items) s := by
  intro items
  induction items with
  | nil => intro s _ _; exact .pure _ _
  | cons e rest ih =>
    intro s hf hs
    refine .bind (hf e List.mem_cons_self s hs) fun v s1 h1 => .bind ?_ fun _ _ _ => .pure _ _
    exact ih s1 (fun e he => hf e (List.mem_cons_of_mem _ he)) (hs.next' (hsafe _) h1)

theorem listToDict_norec {S : Heap} {f : HV → HM HV} (hsafe : ∀ v, Safe S.length S.length (f v) (Fresh S.length)) {v : HV} {s : St}
    (hf : ∀ a o, v = .ref a → S[a]? = some o → ∀ e ∈ o.items, ∀ s, Intact S s → NoRec (f e.2) s)
    (hv : ∀ a, v = .ref a → ∃ o, S[a]? = some o) (hs : Intact S s) : NoRec (listToDictH f v) s := by
  match v with
  | .imm i =>
    unfold listToDictH
    split
    · exact .bind (.alloc _ _) fun _ _ _ => .pure _ _
    · exact .py _ _
    · exact .py _ _
    · rename_i h; cases h
  | .ref a =>
    obtain ⟨o, ho⟩ := hv a rfl
    unfold listToDictH
    refine .readBind fun o' ho' => ?_
    have := (hs.has a o ho).symm.trans ho'
    cases this
    split
    · exact .bind (map_norec hsafe _ _ (hf a o rfl ho) hs) fun _ _ _ => .bind (.alloc _ _) fun _ _ _ => .pure _ _
    · split
      · exact .bind (.alloc _ _) fun _ _ _ => .pure _ _
      · exact .py _ _
    · exact .py _ _

theorem itemGet_in {items : List (String × HV)} {k : String} {v : HV} (h : itemGet items k = some v) : (k, v) ∈ items := by
  induction items with
  | nil => cases h
  | cons e rest ih =>
    obtain ⟨k', v'⟩ := e
    unfold itemGet at h
    by_cases hk : k' = k
    · rw [if_pos hk] at h
      cases h
      rw [hk]
      exact List.mem_cons_self
    · rw [if_neg hk] at h
      exact List.mem_cons_of_mem _ (ih h)

theorem listField_norec {S : Heap} (key : String) {f : HV → HM HV} (hsafe : ∀ v, Safe S.length S.length (f v) (Fresh S.length))
    {self : List (String × HV)} (d : Nat) {s : St}
    (hf : ∀ e ∈ self, ∀ a o, e.2 = .ref a → S[a]? = some o → ∀ e ∈ o.items, ∀ s, Intact S s → NoRec (f e.2) s)
    (hv : ∀ e ∈ self, ∀ a, e.2 = .ref a → ∃ o, S[a]? = some o) (hs : Intact S s) : NoRec (listFieldH key f self d) s := by
  unfold listFieldH
  refine .readBind fun o ho => ?_
  split
  · exact .pure _ _
  · exact .pure _ _
  · exact .py _ _
  · rename_i v hself
    have hm := itemGet_in hself
    exact .bind (listToDict_norec hsafe (fun a o h1 h2 => hf _ hm a o h1 h2) (fun a h1 => hv _ hm a h1) hs) fun _ _ _ => .setItem _ _ _ _

theorem attrsField_norec {S : Heap} (fuel : Nat) {self : List (String × HV)} (d : Nat) {s : St}
    (hv : ∀ e ∈ self, Fin fuel S e.2) (hs : Intact S s) : NoRec (attrsFieldH fuel self d) s := by
  unfold attrsFieldH
  refine .readBind fun o ho => ?_
  split
  · exact .pure _ _
  · exact .pure _ _
  · rename_i a hself
    refine .bind (.read _ _) fun ao s1 h1 => ?_
    have hs1 : Intact S s1 := hs.next' (Safe.read) h1
    split
    · exact .bind (baseToDict_norec (hv _ (itemGet_in hself)) hs1) fun _ _ _ => .setItem _ _ _ _
    · exact .pure _ _
  · exact .pure _ _

theorem toDict_norec {S : Heap} (fuel : Nat) : ∀ (x : HV) (s : St), Fin fuel S x → Intact S s → NoRec (toDictH fuel x) s := by
  induction fuel with
  | zero =>
    intro x s hx hs
    match x, hx with
    | .imm i, _ => rw [toDictH]; exact .py _ _
  | succ fuel ih =>
    intro x s hx hs
    match x, hx with
    | .imm i, _ => rw [toDictH]; exact .py _ _
    | .ref a, hx =>
      obtain ⟨o, ho, he⟩ := id hx
      rw [toDictH]
      refine .readBind fun o' ho' => ?_
      have := (hs.has a o ho).symm.trans ho'
      cases this
      have hget : ∀ e ∈ o.items, ∀ b, e.2 = .ref b → ∃ o, S[b]? = some o := by
        intro e hm b hb
        have := he e hm
        rw [hb] at this
        cases fuel with
        | zero => cases this
        | succ _ => obtain ⟨o, ho, _⟩ := this; exact ⟨o, ho⟩
      have hch : ∀ e ∈ o.items, ∀ a o', e.2 = .ref a → S[a]? = some o' → ∀ e' ∈ o'.items, ∀ s, Intact S s →
          NoRec (toDictH fuel e'.2) s := by
        intro e hm b o' hb ho' e' hm' s hs
        have := he e hm
        rw [hb] at this
        cases fuel with
        | zero => cases this
        | succ n =>
          obtain ⟨o2, ho2, h2⟩ := this
          have e2 := ho'.symm.trans ho2
          cases e2
          exact ih e'.2 s (fin_mono (Nat.le_succ _) (h2 e' hm')) hs
      split
      · refine .bind (asdict_norec hx hs) fun v s1 h1 => .bind (addrOf_norec _ _) fun d s2 h2 => ?_
        have i1 := hs.next' (safe_asdict _ _ _ _) h1
        have f1 := hs.res (safe_asdict _ _ _ _) h1
        have f1' : Fresh S.length s1.heap.length v := f1
        have hd : S.length ≤ d := by
          match v, f1', h2 with
          | .ref _, f1', h2 => cases h2; exact f1'.1
        have i2 : Intact S s2 := by
          match v, h2 with
          | .ref _, h2 => cases h2; exact i1
        refine .bind (attrsField_norec fuel d he i2) fun _ s3 h3 => ?_
        have i3 := i2.next' (safe_attrsField _ _ _ _ _ hd) h3
        refine .bind (listField_norec "content" (safe_toDict _ _ _) d hch hget i3) fun _ s4 h4 => ?_
        have i4 := i3.next' (safe_listField _ _ _ (fun L v => safe_toDict _ L _ v) _ _ hd) h4
        exact .bind (listField_norec "marks" (safe_toDict _ _ _) d hch hget i4) fun _ _ _ => removeOptional_norec _ _
      · exact baseToDict_norec hx hs
      · exact .py _ _

end Verif
