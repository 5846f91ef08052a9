import Verif.Model.HeapProg
import Verif.Lemmas.HeapMdSafe
/-! # `parse_node` and `to_dict` write only to objects they made themselves -/

namespace Verif.HeapProg
open Verif Verif.HeapMd

variable {α β : Type} {loud : Prop} {w : Nat → Prop}

theorem keep_alloc {o : HObj} {f : Nat → Prog α} (h : ∀ r, Keep loud (fun a => w a ∨ a = r) (f r)) : Keep loud w ((Prog.alloc o).bind f) :=
  fun own ho b => h b (fun a => own a ∨ a = b) fun a ha => ha.imp (ho a) id

theorem keep_new' (o : HObj) : Keep loud w ((Prog.alloc o).bind fun r => Prog.pure (HV.ref r)) := keep_alloc fun _ => keep_pure _

/-- The object may be written to. -/
theorem keep_set {a : Nat} (ha : w a) (k : String) (v : HV) : Keep loud w (setItem a k v) :=
  keep_bind (keep_read _) fun _ _ ho => ⟨ho a ha, trivial⟩

theorem keep_append {a : Nat} (ha : w a) (e : String × HV) : Keep loud w (Prog.append a e) :=
  fun _ ho => ⟨ho a ha, fun b => by cases b <;> trivial⟩

mutual
theorem keep_deepcopy : (fuel : Nat) → ∀ (w : Nat → Prop) memo v, Keep loud w (deepcopy fuel memo v)
  | fuel, w, memo, .imm i => by rw [deepcopy]; exact keep_pure _
  | 0, w, memo, .ref a => by rw [deepcopy]; exact keep_throw _
  | fuel + 1, w, memo, .ref a => by
    rw [deepcopy]
    split
    · exact keep_pure _
    · exact keep_bind (keep_read _) fun o => keep_alloc fun b => keep_bind (keep_copy fuel o.items _ b _ (.inr rfl)) fun _ => keep_pure _
termination_by fuel => (fuel, 0)

theorem keep_copy : (fuel : Nat) → (items : List (String × HV)) → ∀ (w : Nat → Prop) b memo, w b → Keep loud w (copyItems fuel b memo items)
  | fuel, [], w, b, memo, hb => by rw [copyItems]; exact keep_pure _
  | fuel, (k, v) :: rest, w, b, memo, hb => by
    rw [copyItems]
    exact keep_bind (keep_deepcopy fuel w memo v) fun _ => keep_bind (keep_append hb _) fun _ => keep_copy fuel rest w b _ hb
termination_by fuel items => (fuel, items.length + 1)
end

theorem keep_baseFromDict (t : Tag) (fs : List Field) (v : HV) : Keep loud w (baseFromDict t fs v) := by
  unfold baseFromDict
  split
  · exact keep_throw _
  · refine keep_bind (keep_read _) fun o => ?_
    split
    · exact keep_bind (keep_of _) fun _ => keep_new' _
    · exact keep_throw _

theorem keep_attrsStep (afs : Option (List Field)) {b : Nat} (hb : w b) : Keep loud w (attrsStep afs b) := by
  refine keep_bind (keep_read _) fun o => ?_
  split
  · exact keep_bind (keep_baseFromDict _ _ _) fun _ => keep_set hb _ _
  · exact keep_pure _

/-- The copy of the dict may be written to. -/
theorem keep_copyDict (fuel : Nat) (v : HV) {f : Nat → Prog α} (hf : ∀ b, Keep loud (fun a => w a ∨ a = b) (f b)) :
    Keep loud w ((copyDict fuel v).bind f) := by
  cases v with
  | imm i => unfold copyDict; rw [deepcopy]; exact keep_throw _
  | ref a =>
    cases fuel with
    | zero => unfold copyDict; rw [deepcopy]; exact keep_throw _
    | succ fuel =>
      unfold copyDict
      rw [deepcopy]
      show Keep loud w ((((Prog.read a).bind _).bind _).bind f)
      rw [Prog.bind_assoc, Prog.bind_assoc]
      refine keep_bind (keep_read _) fun o => ?_
      rw [Prog.bind_assoc]
      refine keep_alloc fun b => ?_
      rw [Prog.bind_assoc]
      refine keep_bind (keep_copy fuel o.items _ b _ (.inr rfl)) fun memo => ?_
      show Keep loud _ (((Prog.read b).bind _).bind f)
      rw [Prog.bind_assoc]
      refine keep_bind (keep_read _) fun o => ?_
      cases o.kind with
      | dict => exact hf b
      | list => exact keep_throw _
      | inst t => exact keep_throw _

theorem keep_markFromDict (fuel : Nat) (c : MarkCls) (v : HV) : Keep loud w (markFromDict fuel c v) :=
  keep_copyDict fuel v fun _ => keep_bind (keep_attrsStep _ (.inr rfl)) fun _ => keep_baseFromDict _ _ _

theorem keep_registry {C : Type} (reg : List (TypeEnum × C)) (category : String) (v : HV) : Keep loud w (registry reg category v) := by
  unfold registry
  split
  · exact keep_throw _
  · refine keep_bind (keep_read _) fun o => ?_
    split
    · split
      · exact keep_throw _
      · exact keep_throw _
      · split
        · exact keep_throw _
        · exact keep_throw _
        · exact keep_pure _
    · exact keep_throw _

theorem keep_parseMark (fuel : Nat) (v : HV) : Keep loud w (parseMark fuel v) :=
  keep_bind (keep_registry _ _ _) fun c => keep_markFromDict fuel c v

theorem keep_skip (hl : loud) (warn : Bool) {m : Prog HV} (hm : Keep loud w m) : Keep loud w (skip warn m) := by
  refine keep_try hm (fun _ => keep_pure _) fun e => ?_
  split
  · exact fun _ _ => ⟨hl, trivial⟩
  · exact keep_throw _

theorem keep_loop (hl : loud) (warn : Bool) {f : HV → Prog HV} (hf : ∀ v, Keep loud w (f v)) (l : List (String × HV)) :
    Keep loud w (loop warn f l) := by
  induction l with
  | nil => exact keep_pure _
  | cons e rest ih => exact keep_bind (keep_skip hl _ (hf _)) fun _ => keep_bind ih fun _ => keep_pure _

theorem keep_listStep (hl : loud) (warn : Bool) (key : String) {f : HV → Prog HV} (hf : ∀ v, Keep loud w (f v)) {b : Nat} (hb : w b) :
    Keep loud w (listStep warn key f b) := by
  refine keep_bind (keep_read _) fun o => ?_
  split
  · refine keep_bind (keep_read _) fun lo => ?_
    split
    · exact keep_bind (keep_loop hl _ hf _) fun _ => keep_alloc fun _ => keep_set (.inl hb) _ _
    · exact keep_pure _
  · exact keep_pure _

theorem keep_nodeFromDict (hl : loud) (fuel : Nat) (warn : Bool) {parse : HV → Prog HV} (hp : ∀ w v, Keep loud w (parse v)) (c : NodeCls) (v : HV) :
    Keep loud w (nodeFromDict fuel warn parse c v) :=
  keep_copyDict fuel v fun _ => keep_bind (keep_attrsStep _ (.inr rfl)) fun _ => keep_bind (keep_listStep hl _ _ (hp _) (.inr rfl)) fun _ =>
    keep_bind (keep_listStep hl _ _ (keep_parseMark _) (.inr rfl)) fun _ => keep_baseFromDict _ _ _

theorem keep_parseNode (hl : loud) (warn : Bool) : ∀ (fuel : Nat) (w : Nat → Prop) (v : HV), Keep loud w (parseNode fuel warn v)
  | 0, _, _ => keep_throw _
  | fuel + 1, _, v => keep_bind (keep_registry _ _ _) fun c =>
    keep_nodeFromDict hl (fuel + 1) warn (fun w v => keep_parseNode hl warn fuel w v) c v

/-! ## `to_dict` -/

mutual
theorem keep_asdict : (fuel : Nat) → (v : HV) → ∀ w : Nat → Prop, Keep loud w (asdict fuel v)
  | fuel, .imm i, w => by rw [asdict]; exact keep_pure _
  | 0, .ref a, w => by rw [asdict]; exact keep_throw _
  | fuel + 1, .ref a, w => by
    rw [asdict]
    exact keep_bind (keep_read _) fun o => keep_bind (keep_asdictItems fuel o.items w) fun _ => keep_new' _
termination_by fuel => (fuel, 0)

theorem keep_asdictItems : (fuel : Nat) → (items : List (String × HV)) → ∀ w : Nat → Prop, Keep loud w (asdictItems fuel items)
  | fuel, [], w => by rw [asdictItems]; exact keep_pure _
  | fuel, (k, v) :: rest, w => by
    rw [asdictItems]
    exact keep_bind (keep_asdict fuel v w) fun _ => keep_bind (keep_asdictItems fuel rest w) fun _ => keep_pure _
termination_by fuel items => (fuel, items.length + 1)
end

theorem keep_removeOptional (d : Nat) : Keep loud w (removeOptional d) := keep_bind (keep_read _) fun _ => keep_new' _

/-- The dict made by `asdict` may be written to. -/
theorem keep_asdictAddr (fuel : Nat) (x : HV) {f : Nat → Prog α} (hf : ∀ d, Keep loud (fun a => w a ∨ a = d) (f d)) :
    Keep loud w ((asdict fuel x).bind fun v => (addrOf v).bind f) := by
  cases x with
  | imm i => rw [asdict]; exact keep_throw _
  | ref a =>
    cases fuel with
    | zero => rw [asdict]; exact keep_throw _
    | succ fuel =>
      rw [asdict, Prog.bind_assoc]
      refine keep_bind (keep_read _) fun o => ?_
      rw [Prog.bind_assoc]
      refine keep_bind (keep_asdictItems fuel o.items _) fun items => ?_
      rw [Prog.bind_assoc]
      exact keep_alloc fun d => hf d

theorem keep_baseToDict (fuel : Nat) (x : HV) : Keep loud w (baseToDict fuel x) := keep_asdictAddr fuel x fun d => keep_removeOptional d

theorem keep_map {f : HV → Prog HV} (hf : ∀ v, Keep loud w (f v)) (l : List (String × HV)) : Keep loud w (map f l) := by
  induction l with
  | nil => exact keep_pure _
  | cons e rest ih => exact keep_bind (hf _) fun _ => keep_bind ih fun _ => keep_pure _

theorem keep_listToDict {call : HV → Prog HV} (hc : ∀ v, Keep loud w (call v)) (v : HV) : Keep loud w (listToDict call v) := by
  unfold listToDict
  split
  · exact keep_new' _
  · exact keep_throw _
  · exact keep_throw _
  · refine keep_bind (keep_read _) fun o => ?_
    split
    · exact keep_bind (keep_map hc _) fun _ => keep_new' _
    · exact keep_if (keep_new' _) (keep_throw _)
    · exact keep_throw _

theorem keep_listField (key : String) {call : HV → Prog HV} (hc : ∀ v, Keep loud w (call v)) (self : List (String × HV)) {d : Nat} (hd : w d) :
    Keep loud w (listField key call self d) := by
  refine keep_bind (keep_read _) fun o => ?_
  split
  · exact keep_pure _
  · exact keep_pure _
  · exact keep_throw _
  · exact keep_bind (keep_listToDict hc _) fun _ => keep_set hd _ _

theorem keep_attrsField (fuel : Nat) (self : List (String × HV)) {d : Nat} (hd : w d) : Keep loud w (attrsField fuel self d) := by
  refine keep_bind (keep_read _) fun o => ?_
  split
  · exact keep_pure _
  · exact keep_pure _
  · refine keep_bind (keep_read _) fun ao => ?_
    split
    · exact keep_bind (keep_baseToDict _ _) fun _ => keep_set hd _ _
    · exact keep_pure _
  · exact keep_pure _

theorem keep_toDict : ∀ (fuel : Nat) (x : HV) (w : Nat → Prop), Keep loud w (toDict fuel x)
  | _, .imm _, _ => by unfold toDict; exact keep_throw _
  | 0, .ref _, _ => by unfold toDict; exact keep_throw _
  | fuel + 1, .ref a, w => by
    unfold toDict
    refine keep_bind (keep_read _) fun o => ?_
    split
    · exact keep_asdictAddr (fuel + 1) (.ref a) fun d => keep_bind (keep_attrsField _ _ (.inr rfl)) fun _ =>
        keep_bind (keep_listField _ (fun v => keep_toDict fuel v _) _ (.inr rfl)) fun _ =>
        keep_bind (keep_listField _ (fun v => keep_toDict fuel v _) _ (.inr rfl)) fun _ => keep_removeOptional _
    · exact keep_baseToDict _ _
    · exact keep_throw _

end Verif.HeapProg
