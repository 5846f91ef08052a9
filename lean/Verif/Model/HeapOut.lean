import Verif.Model.Heap
/-!
# `to_dict` on a heap of mutable objects

The functions of `Model/ToDict.lean` as programs over the heap of `Model/Heap.lean`, so that it is
visible which objects the returned dict consists of.

Simplification: a list or dict under construction is allocated when it is complete (nothing else can
refer to it before).  Recursion is bounded by `fuel`, as in `Model/Heap.lean`.
-/

namespace Verif

/-- `dataclasses.asdict` turns an instance into a dict; lists and dicts are rebuilt. -/
def Kind.asdict : Kind → Kind
  | .inst _ => .dict
  | k => k

mutual
/-- `dataclasses.asdict(x)` (CPython Lib/dataclasses.py `_asdict_inner`): rebuilds instances, lists and
dicts recursively, without a memo; immutable values (and the sentinel) are passed on. -/
def asdictH : Nat → HV → HM HV
  | _, .imm i => HM.pure (.imm i)
  | 0, .ref _ => HM.throw .recursion
  | fuel + 1, .ref a => do
    let o ← HM.read a
    let items ← asdictItems fuel o.items
    let r ← HM.alloc ⟨o.kind.asdict, items⟩
    HM.pure (.ref r)
termination_by fuel _ => (fuel, 0)

/-- The entries, in order. -/
def asdictItems : Nat → List (String × HV) → HM (List (String × HV))
  | _, [] => HM.pure []
  | fuel, (k, v) :: rest => do
    let v' ← asdictH fuel v
    let rest' ← asdictItems fuel rest
    HM.pure ((k, v') :: rest')
termination_by fuel items => (fuel, items.length + 1)
end

/-- `v is OPT` -/
def HV.isOpt : HV → Bool
  | .imm .opt => true
  | _ => false

/-- `remove_optional(**data)`: a new dict without the `OPT` entries of the dict at `d`. -/
def removeOptionalH (d : Nat) : HM HV := do
  let o ← HM.read d
  let r ← HM.alloc ⟨.dict, o.items.filter fun e => !e.2.isOpt⟩
  HM.pure (.ref r)

/-- The address of an object (instances, lists and dicts are objects). -/
def addrOf : HV → HM Nat
  | .ref a => HM.pure a
  | .imm _ => HM.throw (.py .attributeError)

/-- `Base.to_dict` (mark_or_node.py:55-59); also `BaseMark.to_dict` (163-168), whose branch at line 166
is never taken because `asdict` leaves no instance inside. -/
def baseToDictH (fuel : Nat) (x : HV) : HM HV := do
  let v ← asdictH fuel x
  let d ← addrOf v
  removeOptionalH d

/-- One call after the other over the elements of a list. -/
def mapH (f : HV → HM HV) : List (String × HV) → HM (List HV)
  | [] => HM.pure []
  | e :: rest => do
    let v ← f e.2
    let vs ← mapH f rest
    HM.pure (v :: vs)

/-- `[c.to_dict() for c in v]` (mark_or_node.py:298, 302): TypeError if `v` is not iterable; the
characters of a string and the keys of a dict have no `to_dict`. -/
def listToDictH (call : HV → HM HV) (v : HV) : HM HV :=
  match v with
  | .imm (.str []) => do
    let r ← HM.alloc ⟨.list, []⟩
    HM.pure (.ref r)
  | .imm (.str (_ :: _)) => HM.throw (.py .attributeError)
  | .imm _ => HM.throw (.py .typeError)
  | .ref a => do
    let o ← HM.read a
    match o.kind with
    | .list => do
      let vs ← mapH call o.items
      let r ← HM.alloc ⟨.list, vs.map fun v => ("", v)⟩
      HM.pure (.ref r)
    | .dict =>
      if o.items.isEmpty then do
        let r ← HM.alloc ⟨.list, []⟩
        HM.pure (.ref r)
      else HM.throw (.py .attributeError)
    | .inst _ => HM.throw (.py .typeError)

/-- `if key in data and data[key] is not OPT: data[key] = [c.to_dict() for c in self.<key>]`
(mark_or_node.py:297-298, 301-302); `self` are the attributes of the instance, `d` is `data`. -/
def listFieldH (key : String) (call : HV → HM HV) (self : List (String × HV)) (d : Nat) : HM Unit := do
  let o ← HM.read d
  match itemGet o.items key, itemGet self key with
  | none, _ => HM.pure ()
  | some (.imm .opt), _ => HM.pure ()
  | some _, none => HM.throw (.py .attributeError)
  | some _, some v => do
    let r ← listToDictH call v
    HM.setItem d key r

/-- The attrs step (mark_or_node.py:292-294): only instances have `to_dict`. -/
def attrsFieldH (fuel : Nat) (self : List (String × HV)) (d : Nat) : HM Unit := do
  let o ← HM.read d
  match itemGet o.items "attrs", itemGet self "attrs" with
  | none, _ => HM.pure ()
  | some (.imm .opt), _ => HM.pure ()
  | some _, some (.ref a) => do
    let ao ← HM.read a
    match ao.kind with
    | .inst _ => do
      let r ← baseToDictH fuel (.ref a)
      HM.setItem d "attrs" r
    | _ => HM.pure ()
  | some _, _ => HM.pure ()

/-- `x.to_dict()` for any `x`: `BaseNode.to_dict` (mark_or_node.py:286-304) for node instances,
`Base.to_dict` / `BaseMark.to_dict` for other instances, AttributeError for anything else. -/
def toDictH : Nat → HV → HM HV
  | _, .imm _ => HM.throw (.py .attributeError)
  | 0, .ref _ => HM.throw .recursion
  | fuel + 1, .ref a => do
    let o ← HM.read a
    match o.kind with
    | .inst (.node _) => do
      let v ← asdictH (fuel + 1) (.ref a)
      let d ← addrOf v
      attrsFieldH fuel o.items d
      listFieldH "content" (toDictH fuel) o.items d
      listFieldH "marks" (toDictH fuel) o.items d
      removeOptionalH d
    | .inst _ => baseToDictH (fuel + 1) (.ref a)
    | _ => HM.throw (.py .attributeError)

end Verif
