import Verif.Model.HeapProg
import Verif.Lemmas.Prog
/-! # Uninterrupted, the step-by-step programs are those of `Model/Heap.lean` and `Model/HeapOut.lean` -/

namespace Verif.HeapProg
open Verif

variable {α β : Type}

theorem run_try (x : Prog α) (f : α → Prog β) (g : HErr → Prog β) (s : St) : (x.tryElse f g).run s =
    match x.run s with | (.ok a, s') => (f a).run s' | (.error e, s') => (g e).run s' := by
  induction x generalizing s with
  | ret a => rfl
  | fail e => rfl
  | look a k ih => exact ih _ s
  | make o k ih => exact ih _ _
  | add a e k ih =>
    simp only [Prog.tryElse, Prog.run]
    cases s.heap[a]? with
    | none => exact ih false s
    | some o => exact ih true _
  | put a o k ih => exact ih _
  | warn ws k ih => exact ih _

theorem run_bind (x : Prog α) (f : α → Prog β) : (x.bind f).run = HM.bind x.run fun a => (f a).run := by
  funext s
  rw [Prog.bind, run_try]
  unfold HM.bind
  cases x.run s with
  | mk o s' => cases o <;> rfl

theorem run_read (a : Nat) : (Prog.read a).run = HM.read a := by
  funext s
  show Prog.run (match s.heap[a]? with | some o => .ret o | none => .fail (.py .typeError)) s = _
  unfold HM.read
  cases s.heap[a]? <;> rfl

theorem run_append (a : Nat) (e : String × HV) : (Prog.append a e).run = HM.append a e := by
  funext s
  show (match s.heap[a]? with
    | some o => Prog.run (.ret ()) { s with heap := s.heap.set a { o with items := o.items ++ [e] } }
    | none => Prog.run (.fail (.py .typeError)) s) = _
  unfold HM.append
  simp only [Bind.bind, HM.bind, HM.read]
  cases s.heap[a]? <;> rfl

theorem run_ofExcept (x : Except PyErr α) : (Prog.ofExcept x).run = HM.ofExcept x := by
  funext s
  cases x <;> rfl

theorem run_setItem (a : Nat) (k : String) (v : HV) : (setItem a k v).run = HM.setItem a k v := by
  unfold setItem HM.setItem
  rw [run_bind, run_read]
  rfl

theorem run_alloc (o : HObj) : (Prog.alloc o).run = HM.alloc o := rfl

theorem bind_congr {m m' : HM α} {f f' : α → HM β} (h : m = m') (hf : ∀ a, f a = f' a) : HM.bind m f = HM.bind m' f' := by
  rw [h, funext hf]

mutual
theorem run_deepcopy : (fuel : Nat) → (memo : Memo) → (x : HV) → (deepcopy fuel memo x).run = Verif.deepcopy fuel memo x
  | _, memo, .imm i => by rw [deepcopy, Verif.deepcopy]; rfl
  | 0, memo, .ref _ => by rw [deepcopy, Verif.deepcopy]; rfl
  | fuel + 1, memo, .ref a => by
    rw [deepcopy, Verif.deepcopy]
    cases memo.get a with
    | some b => rfl
    | none =>
      simp only [run_bind, run_read, run_alloc]
      refine bind_congr rfl fun o => bind_congr rfl fun b => ?_
      rw [run_copyItems fuel]
      rfl
termination_by fuel _ _ => (fuel, 0)

theorem run_copyItems : (fuel b : Nat) → (memo : Memo) → (items : List (String × HV)) →
    (copyItems fuel b memo items).run = Verif.copyItems fuel b memo items
  | _, b, memo, [] => by rw [copyItems, Verif.copyItems]; rfl
  | fuel, b, memo, (k, v) :: rest => by
    rw [copyItems, Verif.copyItems]
    simp only [run_bind, run_append]
    refine bind_congr (run_deepcopy fuel memo v) fun p => ?_
    refine bind_congr rfl fun _ => run_copyItems fuel b p.2 rest
termination_by fuel _ _ items => (fuel, items.length + 1)
end

theorem run_baseFromDict (t : Tag) (fs : List Field) (v : HV) : (baseFromDict t fs v).run = baseFromDictH t fs v := by
  cases v with
  | imm i => rfl
  | ref a =>
    unfold baseFromDict baseFromDictH
    rw [run_bind, run_read]
    refine bind_congr rfl fun o => ?_
    cases o.kind with
    | dict => simp only [run_bind, run_ofExcept]; rfl
    | list => rfl
    | inst t => rfl

theorem run_attrsStep (afs : Option (List Field)) (b : Nat) : (attrsStep afs b).run = attrsStepH afs b := by
  unfold attrsStep attrsStepH
  rw [run_bind, run_read]
  refine bind_congr rfl fun o => ?_
  cases itemGet o.items "attrs" with
  | none => cases afs <;> rfl
  | some v =>
    cases afs with
    | none => rfl
    | some fs =>
      simp only [run_bind, run_baseFromDict, run_setItem]
      rfl

theorem run_copyDict (fuel : Nat) (v : HV) : (copyDict fuel v).run = copyDictH fuel v := by
  unfold copyDict copyDictH
  rw [run_bind, run_deepcopy]
  refine bind_congr rfl fun p => ?_
  obtain ⟨v', m⟩ := p
  cases v' with
  | imm i => rfl
  | ref b =>
    simp only [run_bind, run_read]
    refine bind_congr rfl fun o => ?_
    cases o.kind <;> rfl

theorem run_markFromDict (fuel : Nat) (c : MarkCls) (v : HV) : (markFromDict fuel c v).run = markFromDictH fuel c v := by
  unfold markFromDict markFromDictH
  simp only [run_bind, run_copyDict, run_attrsStep, run_baseFromDict]
  rfl

theorem run_registry {C : Type} (reg : List (TypeEnum × C)) (category : String) (v : HV) :
    (registry reg category v).run = registryH reg category v := by
  cases v with
  | imm i => rfl
  | ref a =>
    unfold registry registryH
    rw [run_bind, run_read]
    refine bind_congr rfl fun o => ?_
    cases o.kind with
    | list => rfl
    | inst t => rfl
    | dict =>
      simp only
      cases itemGet o.items "type" with
      | none => rfl
      | some x =>
        cases x with
        | ref _ => rfl
        | imm i =>
          simp only
          cases registryLookup reg i.toVal with
          | error e => rfl
          | ok c => cases c <;> rfl

theorem run_parseMark (fuel : Nat) (v : HV) : (parseMark fuel v).run = parseMarkH fuel v := by
  unfold parseMark parseMarkH
  rw [run_bind, run_registry]
  exact bind_congr rfl fun c => run_markFromDict fuel c v

theorem run_skip (warn : Bool) (m : Prog HV) : (skip warn m).run = skipH warn m.run := by
  funext s
  unfold skip skipH
  rw [run_try]
  cases m.run s with
  | mk o s' =>
    cases o with
    | ok v => rfl
    | error e =>
      cases e with
      | recursion => rfl
      | py e => cases e <;> rfl

theorem run_loop (warn : Bool) {f : HV → Prog HV} {g : HV → HM HV} (h : ∀ x, (f x).run = g x) (items : List (String × HV)) :
    (loop warn f items).run = loopH warn g items := by
  induction items with
  | nil => rfl
  | cons e rest ih =>
    unfold loop loopH
    simp only [run_bind, run_skip, h, ih]
    rfl

theorem run_listStep (warn : Bool) (key : String) {f : HV → Prog HV} {g : HV → HM HV} (h : ∀ x, (f x).run = g x) (b : Nat) :
    (listStep warn key f b).run = listStepH warn key g b := by
  unfold listStep listStepH
  rw [run_bind, run_read]
  refine bind_congr rfl fun o => ?_
  cases itemGet o.items key with
  | none => rfl
  | some x =>
    cases x with
    | imm i => rfl
    | ref l =>
      simp only [run_bind, run_read]
      refine bind_congr rfl fun lo => ?_
      cases lo.kind with
      | dict => rfl
      | inst t => rfl
      | list =>
        simp only [run_bind, run_loop warn h, run_setItem]
        rfl

theorem run_nodeFromDict (fuel : Nat) (warn : Bool) {f : HV → Prog HV} {g : HV → HM HV} (h : ∀ x, (f x).run = g x) (c : NodeCls) (v : HV) :
    (nodeFromDict fuel warn f c v).run = nodeFromDictH fuel warn g c v := by
  unfold nodeFromDict nodeFromDictH
  simp only [run_bind, run_copyDict, run_attrsStep, run_listStep warn _ h, run_listStep warn _ (run_parseMark fuel), run_baseFromDict]
  rfl

/-- `parse_node` is the same program. -/
theorem run_parseNode (fuel : Nat) (warn : Bool) (v : HV) : (parseNode fuel warn v).run = parseNodeH fuel warn v := by
  induction fuel generalizing v with
  | zero => rfl
  | succ fuel ih =>
    unfold parseNode parseNodeH
    rw [run_bind, run_registry]
    exact bind_congr rfl fun c => run_nodeFromDict (fuel + 1) warn ih c v

/-! ## `to_dict` -/

mutual
theorem run_asdict : (fuel : Nat) → (x : HV) → (asdict fuel x).run = asdictH fuel x
  | _, .imm i => by rw [asdict, asdictH]; rfl
  | 0, .ref _ => by rw [asdict, asdictH]; rfl
  | fuel + 1, .ref a => by
    rw [asdict, asdictH]
    simp only [run_bind, run_read]
    refine bind_congr rfl fun o => ?_
    rw [run_asdictItems fuel]
    rfl
termination_by fuel _ => (fuel, 0)

theorem run_asdictItems : (fuel : Nat) → (items : List (String × HV)) → (asdictItems fuel items).run = Verif.asdictItems fuel items
  | _, [] => by rw [asdictItems, Verif.asdictItems]; rfl
  | fuel, (k, v) :: rest => by
    rw [asdictItems, Verif.asdictItems]
    simp only [run_bind]
    refine bind_congr (run_asdict fuel v) fun v' => ?_
    exact bind_congr (run_asdictItems fuel rest) fun _ => rfl
termination_by fuel items => (fuel, items.length + 1)
end

theorem run_removeOptional (d : Nat) : (removeOptional d).run = removeOptionalH d := by
  unfold removeOptional removeOptionalH
  simp only [run_bind, run_read]
  rfl

theorem run_addrOf (x : HV) : (addrOf x).run = Verif.addrOf x := by cases x <;> rfl

theorem run_baseToDict (fuel : Nat) (x : HV) : (baseToDict fuel x).run = baseToDictH fuel x := by
  unfold baseToDict baseToDictH
  simp only [run_bind, run_asdict, run_addrOf, run_removeOptional]
  rfl

theorem run_map {f : HV → Prog HV} {g : HV → HM HV} (h : ∀ x, (f x).run = g x) (items : List (String × HV)) : (map f items).run = mapH g items := by
  induction items with
  | nil => rfl
  | cons e rest ih =>
    unfold map mapH
    simp only [run_bind, h, ih]
    rfl

theorem run_listToDict {f : HV → Prog HV} {g : HV → HM HV} (h : ∀ x, (f x).run = g x) (v : HV) : (listToDict f v).run = listToDictH g v := by
  cases v with
  | imm i =>
    cases i with
    | str s => cases s <;> rfl
    | _ => rfl
  | ref a =>
    unfold listToDict listToDictH
    rw [run_bind, run_read]
    refine bind_congr rfl fun o => ?_
    cases o.kind with
    | list => simp only [run_bind, run_map h]; rfl
    | dict => simp only; split <;> rfl
    | inst t => rfl

theorem run_listField (key : String) {f : HV → Prog HV} {g : HV → HM HV} (h : ∀ x, (f x).run = g x) (self : List (String × HV)) (d : Nat) :
    (listField key f self d).run = listFieldH key g self d := by
  unfold listField listFieldH
  rw [run_bind, run_read]
  refine bind_congr rfl fun o => ?_
  have hcall : ∀ v, ((listToDict f v).bind fun r => setItem d key r).run = (listToDictH g v >>= fun r => HM.setItem d key r) := fun v => by
    simp only [run_bind, run_listToDict h, run_setItem]
    rfl
  match itemGet o.items key, itemGet self key with
  | none, _ => rfl
  | some (.imm .opt), _ => rfl
  | some (.imm .none), none | some (.imm (.bool _)), none | some (.imm (.int _)), none | some (.imm (.float _)), none
  | some (.imm (.str _)), none | some (.ref _), none => rfl
  | some (.imm .none), some v | some (.imm (.bool _)), some v | some (.imm (.int _)), some v | some (.imm (.float _)), some v
  | some (.imm (.str _)), some v | some (.ref _), some v => exact hcall v

theorem run_attrsField (fuel : Nat) (self : List (String × HV)) (d : Nat) : (attrsField fuel self d).run = attrsFieldH fuel self d := by
  unfold attrsField attrsFieldH
  rw [run_bind, run_read]
  refine bind_congr rfl fun o => ?_
  have hcall : ∀ a, ((Prog.read a).bind fun ao => match ao.kind with
      | .inst _ => (baseToDict fuel (.ref a)).bind fun r => setItem d "attrs" r
      | _ => Prog.pure ()).run = (HM.read a >>= fun ao => match ao.kind with
      | .inst _ => (do
        let r ← baseToDictH fuel (.ref a)
        HM.setItem d "attrs" r)
      | _ => HM.pure ()) := fun a => by
    rw [run_bind, run_read]
    refine bind_congr rfl fun ao => ?_
    cases ao.kind with
    | inst t => simp only [run_bind, run_baseToDict, run_setItem]; rfl
    | list => rfl
    | dict => rfl
  match itemGet o.items "attrs", itemGet self "attrs" with
  | none, _ => rfl
  | some (.imm .opt), _ => rfl
  | some (.imm .none), none | some (.imm (.bool _)), none | some (.imm (.int _)), none | some (.imm (.float _)), none
  | some (.imm (.str _)), none | some (.ref _), none => rfl
  | some (.imm .none), some (.imm _) | some (.imm (.bool _)), some (.imm _) | some (.imm (.int _)), some (.imm _)
  | some (.imm (.float _)), some (.imm _) | some (.imm (.str _)), some (.imm _) | some (.ref _), some (.imm _) => rfl
  | some (.imm .none), some (.ref a) | some (.imm (.bool _)), some (.ref a) | some (.imm (.int _)), some (.ref a)
  | some (.imm (.float _)), some (.ref a) | some (.imm (.str _)), some (.ref a) | some (.ref _), some (.ref a) => exact hcall a

/-- `to_dict` is the same program. -/
theorem run_toDict (fuel : Nat) (x : HV) : (toDict fuel x).run = toDictH fuel x := by
  induction fuel generalizing x with
  | zero => cases x <;> rfl
  | succ fuel ih =>
    cases x with
    | imm i => rfl
    | ref a =>
      unfold toDict toDictH
      rw [run_bind, run_read]
      refine bind_congr rfl fun o => ?_
      cases o.kind with
      | list => rfl
      | dict => rfl
      | inst t =>
        cases t with
        | node c =>
          simp only [run_bind, run_asdict, run_addrOf, run_attrsField, run_listField _ ih, run_removeOptional]
          rfl
        | mark c => exact run_baseToDict _ _
        | attrs => exact run_baseToDict _ _

end Verif.HeapProg
