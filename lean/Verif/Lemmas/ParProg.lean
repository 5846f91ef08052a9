import Verif.Model.HeapProg
import Verif.Lemmas.Par
/-! # `parse_node` and `to_dict` do not depend on where their objects are -/

namespace Verif.HeapProg
open Verif Verif.Par

variable {α β : Type} {P : Nat → Prop} {R R' : Pairs}

abbrev V (P : Nat → Prop) : Pairs → HV → HV → Prop := fun R x y => VRel P R x y

/-- Nothing is returned. -/
abbrev U : Pairs → Unit → Unit → Prop := fun _ _ _ => True

theorem par_pure {Q : Pairs → α → β → Prop} {a : α} {b : β} (h : Q R a b) : Par P Q R (Prog.pure a) (Prog.pure b) := .ret h

theorem par_throw {Q : Pairs → α → β → Prop} (e : HErr) : Par P Q R (Prog.throw e) (Prog.throw e) := .fail e

theorem par_set {a b : Nat} (w : Wf P R) (h : (a, b) ∈ R) (k : String) {v v' : HV} (hv : VRel P R v v') :
    Par P U R (setItem a k v) (setItem b k v') :=
  par_bind w (par_read (.own h)) fun _ _ _ hs _ ho => .put (hs _ h) ⟨ho.kind, itemSet_rel ho.items k (hv.mono hs)⟩ (.ret trivial)

/-! ## `copy.deepcopy` -/

def MemoRel (P : Nat → Prop) (R : Pairs) (m m' : Memo) : Prop :=
  List.Forall₂ (fun p q => VRel P R (.ref p.1) (.ref q.1) ∧ (p.2, q.2) ∈ R) m m'

theorem MemoRel.mono {m m' : Memo} (h : MemoRel P R m m') (hs : Sub R R') : MemoRel P R' m m' :=
  List.Forall₂.imp (fun _ _ h => ⟨h.1.mono hs, hs _ h.2⟩) h

theorem memo_get (w : Wf P R) {m m' : Memo} (h : MemoRel P R m m') {a a' : Nat} (ha : VRel P R (.ref a) (.ref a')) :
    (Memo.get m a = none ∧ Memo.get m' a' = none) ∨ ∃ b b', Memo.get m a = some b ∧ Memo.get m' a' = some b' ∧ (b, b') ∈ R := by
  induction h with
  | nil => exact .inl ⟨rfl, rfl⟩
  | @cons p q m m' hp _ ih =>
    obtain ⟨x, y⟩ := p
    obtain ⟨x', y'⟩ := q
    have hsame := VRel.same w hp.1 ha
    unfold Memo.get
    by_cases e : x = a
    · rw [if_pos e, if_pos (hsame.1 e)]
      exact .inr ⟨y, y', rfl, rfl, hp.2⟩
    · rw [if_neg e, if_neg fun e' => e (hsame.2 e')]
      exact ih

abbrev CopyQ (P : Nat → Prop) : Pairs → HV × Memo → HV × Memo → Prop := fun R p q => Own R p.1 q.1 ∧ MemoRel P R p.2 q.2

mutual
theorem par_deepcopy : (fuel : Nat) → ∀ {R : Pairs} {m m' : Memo} {v v' : HV}, Wf P R → MemoRel P R m m' → VRel P R v v' →
    Par P (CopyQ P) R (deepcopy fuel m v) (deepcopy fuel m' v')
  | fuel, R, m, m', .imm i, v', w, hm, hv => by
    cases hv
    rw [deepcopy, deepcopy]
    exact par_pure ⟨.imm i, hm⟩
  | 0, R, m, m', .ref a, v', w, hm, hv => by
    obtain ⟨a', rfl⟩ : ∃ b, v' = .ref b := by cases hv <;> exact ⟨_, rfl⟩
    rw [deepcopy, deepcopy]
    exact par_throw _
  | fuel + 1, R, m, m', .ref a, v', w, hm, hv => by
    obtain ⟨a', rfl⟩ : ∃ b, v' = .ref b := by cases hv <;> exact ⟨_, rfl⟩
    rw [deepcopy, deepcopy]
    rcases memo_get w hm hv with ⟨h1, h2⟩ | ⟨b, b', h1, h2, hb⟩
    · rw [h1, h2]
      refine par_bind w (par_read hv) fun R1 o o' s1 w1 ho => ?_
      refine par_bind w1 (par_alloc ⟨ho.kind, .nil⟩) fun R2 b b' s2 w2 hb => ?_
      have hm2 : MemoRel P R2 ((a, b) :: m) ((a', b') :: m') := .cons ⟨(hv.mono s1).mono s2, hb⟩ ((hm.mono s1).mono s2)
      refine par_bind w2 (par_copy fuel o.items w2 hb hm2 (ho.items.mono s2)) fun R3 c c' s3 w3 hc => ?_
      exact par_pure ⟨.own (s3 _ hb), hc⟩
    · rw [h1, h2]
      exact par_pure ⟨.own hb, hm⟩
termination_by fuel => (fuel, 0)

theorem par_copy : (fuel : Nat) → (l : List (String × HV)) → ∀ {R : Pairs} {b b' : Nat} {m m' : Memo} {l' : List (String × HV)}, Wf P R →
    (b, b') ∈ R → MemoRel P R m m' → IRel P R l l' → Par P (MemoRel P) R (copyItems fuel b m l) (copyItems fuel b' m' l')
  | fuel, [], R, b, b', m, m', l', w, hb, hm, hl => by
    cases hl
    rw [copyItems, copyItems]
    exact par_pure hm
  | fuel, (k, v) :: rest, R, b, b', m, m', l', w, hb, hm, hl => by
    cases hl with
    | @cons _ e _ rest' he ht =>
      obtain ⟨k', v'⟩ := e
      cases (he.1 : k = k')
      rw [copyItems, copyItems]
      refine par_bind w (par_deepcopy fuel w hm he.2) fun R1 p q s1 w1 hp => ?_
      refine par_bind w1 (par_append (s1 _ hb) hp.1.rel) fun R2 _ _ s2 w2 _ => ?_
      exact par_copy fuel rest w2 (s2 _ (s1 _ hb)) (hp.2.mono s2) ((IRel.mono ht s1).mono s2)
termination_by fuel l => (fuel, l.length + 1)
end

/-! ## `from_dict` -/

theorem fieldValue_rel {l m : List (String × HV)} (h : IRel P R l m) (f : Field) : VRel P R (fieldValueH l f) (fieldValueH m f) := by
  unfold fieldValueH
  rcases itemGet_rel h f.name with ⟨h1, h2⟩ | ⟨v, w, h1, h2, hv⟩
  · rw [h1, h2]
    cases f.dflt <;> exact .imm _
  · rw [h1, h2]
    exact hv

theorem fields_rel {l m : List (String × HV)} (h : IRel P R l m) (fs : List Field) :
    IRel P R (fs.map fun f => (f.name, fieldValueH l f)) (fs.map fun f => (f.name, fieldValueH m f)) := by
  induction fs with
  | nil => exact .nil
  | cons f fs ih => exact .cons ⟨rfl, fieldValue_rel h f⟩ ih

theorem required_rel {l m : List (String × HV)} (h : IRel P R l m) : (fun k => (itemGet l k).isSome) = fun k => (itemGet m k).isSome := by
  funext k
  rcases itemGet_rel h k with ⟨h1, h2⟩ | ⟨v, w, h1, h2, _⟩ <;> rw [h1, h2] <;> rfl

theorem par_baseFromDict (w : Wf P R) (t : Tag) (fs : List Field) {v v' : HV} (hv : VRel P R v v') :
    Par P (V P) R (baseFromDict t fs v) (baseFromDict t fs v') := by
  cases v with
  | imm i => cases hv; exact par_throw _
  | ref a =>
    obtain ⟨a', rfl⟩ : ∃ b, v' = .ref b := by cases hv <;> exact ⟨_, rfl⟩
    refine par_bind w (par_read hv) fun R1 o o' s1 w1 ho => ?_
    rw [ho.kind]
    cases o'.kind with
    | dict =>
      show Par P (V P) R1 ((Prog.ofExcept (checkRequired fs fun k => (itemGet o.items k).isSome)).bind _) _
      rw [required_rel ho.items]
      refine par_bind w1 (par_of _) fun R2 _ _ s2 w2 _ => ?_
      exact par_mono (par_new w2 ⟨rfl, fields_rel (ho.items.mono s2) fs⟩) fun _ _ _ h => h.rel
    | list => exact par_throw _
    | inst _ => exact par_throw _

theorem par_attrsStep (w : Wf P R) (afs : Option (List Field)) {b b' : Nat} (hb : (b, b') ∈ R) :
    Par P U R (attrsStep afs b) (attrsStep afs b') := by
  refine par_bind w (par_read (.own hb)) fun R1 o o' s1 w1 ho => ?_
  rcases itemGet_rel ho.items "attrs" with ⟨h1, h2⟩ | ⟨v, v', h1, h2, hv⟩
  · rw [h1, h2]
    exact par_pure trivial
  · rw [h1, h2]
    cases afs with
    | none => exact par_pure trivial
    | some fs => exact par_bind w1 (par_baseFromDict w1 _ _ hv) fun R2 _ _ s2 w2 hx => par_set w2 (s2 _ (s1 _ hb)) _ hx

theorem par_copyDict (w : Wf P R) (fuel : Nat) {v v' : HV} (hv : VRel P R v v') :
    Par P (fun R b b' => (b, b') ∈ R) R (copyDict fuel v) (copyDict fuel v') := by
  refine par_bind w (par_deepcopy fuel w .nil hv) fun R1 p q s1 w1 hp => ?_
  obtain ⟨x, m⟩ := p
  obtain ⟨y, m'⟩ := q
  have hx : Own R1 x y := hp.1
  cases hx with
  | imm i => exact par_throw _
  | own hb =>
    refine par_bind w1 (par_read (.own hb)) fun R2 o o' s2 w2 ho => ?_
    rw [ho.kind]
    cases o'.kind with
    | dict => exact par_pure (s2 _ hb)
    | list => exact par_throw _
    | inst _ => exact par_throw _

theorem par_markFromDict (w : Wf P R) (fuel : Nat) (c : MarkCls) {v v' : HV} (hv : VRel P R v v') :
    Par P (V P) R (markFromDict fuel c v) (markFromDict fuel c v') :=
  par_bind w (par_copyDict w fuel hv) fun _ _ _ _ w1 hb =>
  par_bind w1 (par_attrsStep w1 _ hb) fun _ _ _ s2 w2 _ => par_baseFromDict w2 _ _ (.own (s2 _ hb))

theorem par_registry (w : Wf P R) {C : Type} (reg : List (TypeEnum × C)) (category : String) {v v' : HV} (hv : VRel P R v v') :
    Par P (fun _ a b => a = b) R (registry reg category v) (registry reg category v') := by
  cases v with
  | imm i => cases hv; exact par_throw _
  | ref a =>
    obtain ⟨a', rfl⟩ : ∃ b, v' = .ref b := by cases hv <;> exact ⟨_, rfl⟩
    refine par_bind w (par_read hv) fun R1 o o' s1 w1 ho => ?_
    rw [ho.kind]
    cases o'.kind with
    | dict =>
      rcases itemGet_rel ho.items "type" with ⟨h1, h2⟩ | ⟨x, y, h1, h2, hx⟩
      · simp only [h1, h2]
        exact par_throw _
      · simp only [h1, h2]
        cases hx with
        | own _ => exact par_throw _
        | doc _ => exact par_throw _
        | imm i =>
          simp only
          cases registryLookup reg i.toVal with
          | error e => exact par_throw _
          | ok c =>
            cases c with
            | none => exact par_throw _
            | some c => exact par_pure rfl
    | list => exact par_throw _
    | inst _ => exact par_throw _

theorem par_parseMark (w : Wf P R) (fuel : Nat) {v v' : HV} (hv : VRel P R v v') : Par P (V P) R (parseMark fuel v) (parseMark fuel v') :=
  par_bind w (par_registry w _ _ hv) fun _ c c' s1 w1 hc => by cases hc; exact par_markFromDict w1 fuel c (hv.mono s1)

/-- Related lists of values. -/
abbrev L (P : Nat → Prop) : Pairs → List HV → List HV → Prop := fun R xs ys => List.Forall₂ (VRel P R) xs ys

theorem L.mono {xs ys : List HV} (h : L P R xs ys) (hs : Sub R R') : L P R' xs ys := List.Forall₂.imp (fun _ _ h => h.mono hs) h

theorem par_skip (w : Wf P R) (warn : Bool) {m m' : Prog HV} (h : Par P (V P) R m m') : Par P (L P) R (skip warn m) (skip warn m') := by
  refine par_try w h (fun _ _ _ _ _ hx => par_pure (.cons hx .nil)) fun R1 e _ _ => ?_
  split
  · exact .warn _ (.ret .nil)
  · exact par_throw _

theorem par_loop (warn : Bool) {f f' : HV → Prog HV} (l : List (String × HV)) : ∀ {R : Pairs} {l' : List (String × HV)}, Wf P R →
    (∀ R', Sub R R' → Wf P R' → ∀ v v', VRel P R' v v' → Par P (V P) R' (f v) (f' v')) → IRel P R l l' →
    Par P (L P) R (loop warn f l) (loop warn f' l') := by
  induction l with
  | nil => intro R l' w _ hl; cases hl; exact par_pure .nil
  | cons e rest ih =>
    intro R l' w hf hl
    cases hl with
    | @cons _ e' _ rest' he ht =>
      refine par_bind w (par_skip w warn (hf R (fun _ h => h) w _ _ he.2)) fun R1 o o' s1 w1 ho => ?_
      refine par_bind w1 (ih w1 (fun R' s => hf R' fun p hp => s p (s1 p hp)) (IRel.mono ht s1)) fun R2 vs vs' s2 w2 hvs => ?_
      exact par_pure (List.rel_append (L.mono ho s2) hvs)

theorem values_rel {xs ys : List HV} (h : L P R xs ys) : IRel P R (xs.map fun v => ("", v)) (ys.map fun v => ("", v)) := by
  induction h with
  | nil => exact .nil
  | cons hx _ ih => exact .cons ⟨rfl, hx⟩ ih

theorem par_listStep (w : Wf P R) (warn : Bool) (key : String) {f f' : HV → Prog HV}
    (hf : ∀ R', Sub R R' → Wf P R' → ∀ v v', VRel P R' v v' → Par P (V P) R' (f v) (f' v')) {b b' : Nat} (hb : (b, b') ∈ R) :
    Par P U R (listStep warn key f b) (listStep warn key f' b') := by
  refine par_bind w (par_read (.own hb)) fun R1 o o' s1 w1 ho => ?_
  have lists : ∀ l l', VRel P R1 (.ref l) (.ref l') → Par P U R1
      ((Prog.read l).bind fun lo => match lo.kind with
        | .list => (loop warn f lo.items).bind fun vs => (Prog.alloc ⟨.list, vs.map fun v => ("", v)⟩).bind fun n => setItem b key (.ref n)
        | _ => Prog.pure ())
      ((Prog.read l').bind fun lo => match lo.kind with
        | .list => (loop warn f' lo.items).bind fun vs => (Prog.alloc ⟨.list, vs.map fun v => ("", v)⟩).bind fun n => setItem b' key (.ref n)
        | _ => Prog.pure ()) := fun l l' hl => by
    refine par_bind w1 (par_read hl) fun R2 lo lo' s2 w2 hlo => ?_
    rw [hlo.kind]
    cases lo'.kind with
    | list =>
      refine par_bind w2 (par_loop warn _ w2 (fun R' s => hf R' fun p hp => s p (s2 p (s1 p hp))) hlo.items) fun R3 vs vs' s3 w3 hvs => ?_
      refine par_bind w3 (par_alloc ⟨rfl, values_rel hvs⟩) fun R4 n n' s4 w4 hn => ?_
      exact par_set w4 (s4 _ (s3 _ (s2 _ (s1 _ hb)))) _ (.own hn)
    | dict => exact par_pure trivial
    | inst _ => exact par_pure trivial
  rcases itemGet_rel ho.items key with ⟨h1, h2⟩ | ⟨v, v', h1, h2, hv⟩
  · rw [h1, h2]
    exact par_pure trivial
  · rw [h1, h2]
    cases v with
    | imm i => cases hv; exact par_pure trivial
    | ref l =>
      obtain ⟨l', rfl⟩ : ∃ b, v' = .ref b := by cases hv <;> exact ⟨_, rfl⟩
      exact lists l l' hv

theorem par_nodeFromDict (w : Wf P R) (fuel : Nat) (warn : Bool) {parse : HV → Prog HV} (c : NodeCls)
    (hp : ∀ R', Sub R R' → Wf P R' → ∀ v v', VRel P R' v v' → Par P (V P) R' (parse v) (parse v')) {v v' : HV} (hv : VRel P R v v') :
    Par P (V P) R (nodeFromDict fuel warn parse c v) (nodeFromDict fuel warn parse c v') := by
  refine par_bind w (par_copyDict w fuel hv) fun R1 b b' s1 w1 hb => ?_
  refine par_bind w1 (par_attrsStep w1 _ hb) fun R2 _ _ s2 w2 _ => ?_
  refine par_bind w2 (par_listStep w2 warn _ (fun R' s => hp R' fun p h => s p (s2 p (s1 p h))) (s2 _ hb)) fun R3 _ _ s3 w3 _ => ?_
  refine par_bind w3 (par_listStep w3 warn _ (fun R' _ w' v v' h => par_parseMark w' fuel h) (s3 _ (s2 _ hb))) fun R4 _ _ s4 w4 _ => ?_
  exact par_baseFromDict w4 _ _ (.own (s4 _ (s3 _ (s2 _ hb))))

theorem par_parseNode (warn : Bool) (fuel : Nat) : ∀ {R : Pairs}, Wf P R → ∀ v v', VRel P R v v' →
    Par P (V P) R (parseNode fuel warn v) (parseNode fuel warn v') := by
  induction fuel with
  | zero => intro R w v v' hv; exact par_throw _
  | succ fuel ih =>
    intro R w v v' hv
    refine par_bind w (par_registry w _ _ hv) fun R1 c c' s1 w1 hc => ?_
    cases hc
    exact par_nodeFromDict w1 (fuel + 1) warn c (fun R' _ w' => ih w') (hv.mono s1)

/-! ## `to_dict` -/

mutual
theorem par_asdict : (fuel : Nat) → ∀ {R : Pairs} {v v' : HV}, Wf P R → VRel P R v v' → Par P (fun R x y => Own R x y) R (asdict fuel v) (asdict fuel v')
  | fuel, R, .imm i, v', w, hv => by
    cases hv
    rw [asdict]
    exact par_pure (.imm i)
  | 0, R, .ref a, v', w, hv => by
    obtain ⟨a', rfl⟩ : ∃ b, v' = .ref b := by cases hv <;> exact ⟨_, rfl⟩
    rw [asdict, asdict]
    exact par_throw _
  | fuel + 1, R, .ref a, v', w, hv => by
    obtain ⟨a', rfl⟩ : ∃ b, v' = .ref b := by cases hv <;> exact ⟨_, rfl⟩
    rw [asdict, asdict]
    refine par_bind w (par_read hv) fun R1 o o' s1 w1 ho => ?_
    refine par_bind w1 (par_asdictItems fuel o.items w1 ho.items) fun R2 l l' s2 w2 hl => ?_
    exact par_new w2 ⟨by rw [ho.kind], hl⟩
termination_by fuel => (fuel, 0)

theorem par_asdictItems : (fuel : Nat) → (l : List (String × HV)) → ∀ {R : Pairs} {l' : List (String × HV)}, Wf P R → IRel P R l l' →
    Par P (IRel P) R (asdictItems fuel l) (asdictItems fuel l')
  | fuel, [], R, l', w, hl => by
    cases hl
    rw [asdictItems]
    exact par_pure .nil
  | fuel, (k, v) :: rest, R, l', w, hl => by
    cases hl with
    | @cons _ e _ rest' he ht =>
      obtain ⟨k', v'⟩ := e
      cases (he.1 : k = k')
      rw [asdictItems, asdictItems]
      refine par_bind w (par_asdict fuel w he.2) fun R1 x y s1 w1 hx => ?_
      refine par_bind w1 (par_asdictItems fuel rest w1 (IRel.mono ht s1)) fun R2 m m' s2 w2 hm => ?_
      exact par_pure (.cons ⟨rfl, (hx.mono s2).rel⟩ hm)
termination_by fuel l => (fuel, l.length + 1)
end

theorem opt_rel {v v' : HV} (h : VRel P R v v') : v.isOpt = v'.isOpt := by cases h <;> rfl

theorem filter_rel {l m : List (String × HV)} (h : IRel P R l m) : IRel P R (l.filter fun e => !e.2.isOpt) (m.filter fun e => !e.2.isOpt) := by
  induction h with
  | nil => exact .nil
  | @cons e f l m he _ ih =>
    rw [List.filter_cons, List.filter_cons, opt_rel he.2]
    split
    · exact .cons he ih
    · exact ih

theorem par_removeOptional (w : Wf P R) {d d' : Nat} (hd : (d, d') ∈ R) : Par P (V P) R (removeOptional d) (removeOptional d') := by
  refine par_bind w (par_read (.own hd)) fun R1 o o' s1 w1 ho => ?_
  exact par_mono (par_new w1 ⟨rfl, filter_rel ho.items⟩) fun _ _ _ h => h.rel

theorem par_addrOf {v v' : HV} (h : Own R v v') : Par P (fun R a b => (a, b) ∈ R) R (addrOf v) (addrOf v') := by
  cases h with
  | imm i => exact par_throw _
  | own h => exact par_pure h

theorem par_baseToDict (w : Wf P R) (fuel : Nat) {x x' : HV} (hx : VRel P R x x') : Par P (V P) R (baseToDict fuel x) (baseToDict fuel x') :=
  par_bind w (par_asdict fuel w hx) fun _ _ _ _ w1 hv => par_bind w1 (par_addrOf hv) fun _ _ _ _ w2 hd => par_removeOptional w2 hd

theorem par_map {f f' : HV → Prog HV} (l : List (String × HV)) : ∀ {R : Pairs} {l' : List (String × HV)}, Wf P R →
    (∀ R', Sub R R' → Wf P R' → ∀ v v', VRel P R' v v' → Par P (V P) R' (f v) (f' v')) → IRel P R l l' →
    Par P (L P) R (map f l) (map f' l') := by
  induction l with
  | nil => intro R l' w _ hl; cases hl; exact par_pure .nil
  | cons e rest ih =>
    intro R l' w hf hl
    cases hl with
    | @cons _ e' _ rest' he ht =>
      refine par_bind w (hf R (fun _ h => h) w _ _ he.2) fun R1 o o' s1 w1 ho => ?_
      refine par_bind w1 (ih w1 (fun R' s => hf R' fun p hp => s p (s1 p hp)) (IRel.mono ht s1)) fun R2 vs vs' s2 w2 hvs => ?_
      exact par_pure (.cons (ho.mono s2) hvs)

theorem par_newList (w : Wf P R) : Par P (V P) R ((Prog.alloc ⟨.list, []⟩).bind fun r => Prog.pure (.ref r))
    ((Prog.alloc ⟨.list, []⟩).bind fun r => Prog.pure (.ref r)) := par_mono (par_new w ⟨rfl, .nil⟩) fun _ _ _ h => h.rel

theorem empty_rel {l m : List (String × HV)} (h : IRel P R l m) : l.isEmpty = m.isEmpty := by cases h <;> rfl

theorem par_listToDict (w : Wf P R) {call call' : HV → Prog HV}
    (hc : ∀ R', Sub R R' → Wf P R' → ∀ v v', VRel P R' v v' → Par P (V P) R' (call v) (call' v')) {v v' : HV} (hv : VRel P R v v') :
    Par P (V P) R (listToDict call v) (listToDict call' v') := by
  cases v with
  | imm i =>
    cases hv
    unfold listToDict
    split
    · exact par_newList w
    · exact par_throw _
    · exact par_throw _
    · rename_i h; cases h
  | ref a =>
    obtain ⟨a', rfl⟩ : ∃ b, v' = .ref b := by cases hv <;> exact ⟨_, rfl⟩
    refine par_bind w (par_read hv) fun R1 o o' s1 w1 ho => ?_
    rw [ho.kind]
    cases o'.kind with
    | list =>
      refine par_bind w1 (par_map _ w1 (fun R' s => hc R' fun p hp => s p (s1 p hp)) ho.items) fun R2 vs vs' s2 w2 hvs => ?_
      exact par_mono (par_new w2 ⟨rfl, values_rel hvs⟩) fun _ _ _ h => h.rel
    | dict =>
      have he : o.items.isEmpty = o'.items.isEmpty := empty_rel ho.items
      show Par P (V P) R1 (if o.items.isEmpty then _ else _) (if o'.items.isEmpty then _ else _)
      rw [he]
      split
      · exact par_newList w1
      · exact par_throw _
    | inst _ => exact par_throw _

theorem par_listField (w : Wf P R) (key : String) {call call' : HV → Prog HV}
    (hc : ∀ R', Sub R R' → Wf P R' → ∀ v v', VRel P R' v v' → Par P (V P) R' (call v) (call' v')) {self self' : List (String × HV)}
    (hs : IRel P R self self') {d d' : Nat} (hd : (d, d') ∈ R) : Par P U R (listField key call self d) (listField key call' self' d') := by
  refine par_bind w (par_read (.own hd)) fun R1 o o' s1 w1 ho => ?_
  have go : ∀ v v', VRel P R1 v v' → Par P U R1 ((listToDict call v).bind fun r => setItem d key r)
      ((listToDict call' v').bind fun r => setItem d' key r) := fun v v' hv =>
    par_bind w1 (par_listToDict w1 (fun R' s => hc R' fun p hp => s p (s1 p hp)) hv) fun R2 _ _ s2 w2 hr => par_set w2 (s2 _ (s1 _ hd)) _ hr
  rcases itemGet_rel ho.items key with ⟨h1, h2⟩ | ⟨v, v', h1, h2, hv⟩
  · rw [h1, h2]
    exact par_pure trivial
  · rw [h1, h2]
    rcases itemGet_rel (hs.mono s1) key with ⟨h3, h4⟩ | ⟨x, x', h3, h4, hx⟩
    · rw [h3, h4]
      cases hv with
      | own _ => exact par_throw _
      | doc _ => exact par_throw _
      | imm i => cases i <;> first | exact par_pure trivial | exact par_throw _
    · rw [h3, h4]
      cases hv with
      | own _ => exact go _ _ hx
      | doc _ => exact go _ _ hx
      | imm i => cases i <;> first | exact par_pure trivial | exact go _ _ hx

theorem par_attrsField (w : Wf P R) (fuel : Nat) {self self' : List (String × HV)} (hs : IRel P R self self') {d d' : Nat} (hd : (d, d') ∈ R) :
    Par P U R (attrsField fuel self d) (attrsField fuel self' d') := by
  refine par_bind w (par_read (.own hd)) fun R1 o o' s1 w1 ho => ?_
  have go : ∀ a a', VRel P R1 (.ref a) (.ref a') → Par P U R1
      ((Prog.read a).bind fun ao => match ao.kind with
        | .inst _ => (baseToDict fuel (.ref a)).bind fun r => setItem d "attrs" r
        | _ => Prog.pure ())
      ((Prog.read a').bind fun ao => match ao.kind with
        | .inst _ => (baseToDict fuel (.ref a')).bind fun r => setItem d' "attrs" r
        | _ => Prog.pure ()) := fun a a' ha => by
    refine par_bind w1 (par_read ha) fun R2 ao ao' s2 w2 hao => ?_
    rw [hao.kind]
    cases ao'.kind with
    | inst _ => exact par_bind w2 (par_baseToDict w2 fuel (ha.mono s2)) fun R3 _ _ s3 w3 hr => par_set w3 (s3 _ (s2 _ (s1 _ hd))) _ hr
    | list => exact par_pure trivial
    | dict => exact par_pure trivial
  rcases itemGet_rel ho.items "attrs" with ⟨h1, h2⟩ | ⟨v, v', h1, h2, hv⟩
  · rw [h1, h2]
    exact par_pure trivial
  · rw [h1, h2]
    rcases itemGet_rel (hs.mono s1) "attrs" with ⟨h3, h4⟩ | ⟨x, x', h3, h4, hx⟩
    · rw [h3, h4]
      cases hv with
      | own _ => exact par_pure trivial
      | doc _ => exact par_pure trivial
      | imm i => cases i <;> exact par_pure trivial
    · rw [h3, h4]
      cases x with
      | imm j =>
        cases hx
        cases hv with
        | own _ => exact par_pure trivial
        | doc _ => exact par_pure trivial
        | imm i => cases i <;> exact par_pure trivial
      | ref a =>
        obtain ⟨a', rfl⟩ : ∃ b, x' = .ref b := by cases hx <;> exact ⟨_, rfl⟩
        cases hv with
        | own _ => exact go _ _ hx
        | doc _ => exact go _ _ hx
        | imm i => cases i <;> first | exact par_pure trivial | exact go _ _ hx

theorem par_toDict (fuel : Nat) : ∀ {R : Pairs}, Wf P R → ∀ x x', VRel P R x x' → Par P (V P) R (toDict fuel x) (toDict fuel x') := by
  induction fuel with
  | zero =>
    intro R w x x' hx
    cases hx <;> unfold toDict <;> exact par_throw _
  | succ fuel ih =>
    intro R w x x' hx
    cases x with
    | imm i => cases hx; unfold toDict; exact par_throw _
    | ref a =>
      obtain ⟨a', rfl⟩ : ∃ b, x' = .ref b := by cases hx <;> exact ⟨_, rfl⟩
      unfold toDict
      refine par_bind w (par_read hx) fun R1 o o' s1 w1 ho => ?_
      have base := par_baseToDict w1 (fuel + 1) (hx.mono s1)
      have node : Par P (V P) R1 _ _ := par_bind w1 (par_asdict (fuel + 1) w1 (hx.mono s1)) fun R2 v v' s2 w2 hv =>
        par_bind w2 (par_addrOf hv) fun R3 d d' s3 w3 hd =>
        par_bind w3 (par_attrsField w3 fuel ((ho.items.mono s2).mono s3) hd) fun R4 _ _ s4 w4 _ =>
        par_bind w4 (par_listField w4 "content" (fun R' _ w' => ih w') (((ho.items.mono s2).mono s3).mono s4) (s4 _ hd)) fun R5 _ _ s5 w5 _ =>
        par_bind w5 (par_listField w5 "marks" (fun R' _ w' => ih w') ((((ho.items.mono s2).mono s3).mono s4).mono s5) (s5 _ (s4 _ hd)))
          fun R6 _ _ s6 w6 _ => par_removeOptional w6 (s6 _ (s5 _ (s4 _ hd)))
      rw [ho.kind]
      cases o'.kind with
      | list => exact par_throw _
      | dict => exact par_throw _
      | inst t =>
        cases t with
        | node c => exact node
        | mark c => exact base
        | attrs => exact base

end Verif.HeapProg
