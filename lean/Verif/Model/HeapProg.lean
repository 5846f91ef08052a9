import Verif.Model.Prog
import Verif.Model.HeapOut
/-!
# `from_dict` and `to_dict`, step by step

The programs of `Model/Heap.lean` and `Model/HeapOut.lean` as trees of single operations (`Model/Prog.lean`), so that threads can take turns
inside them; `Lemmas/HeapProg.lean` proves that they are the same programs when nothing interrupts them.  `setItem` and `append` are
a look at the object and one change of it.
-/

namespace Verif.HeapProg
open Verif

/-- `dct[k] = v` (mark_or_node.py:160,250,266,282) -/
def setItem (a : Nat) (k : String) (v : HV) : Prog Unit :=
  (Prog.read a).bind fun o => Prog.write a { o with items := itemSet o.items k v }

mutual
/-- `copy.deepcopy` (`Verif.deepcopy`) -/
def deepcopy : Nat → Memo → HV → Prog (HV × Memo)
  | _, memo, .imm i => Prog.pure (.imm i, memo)
  | 0, _, .ref _ => Prog.throw .recursion
  | fuel + 1, memo, .ref a =>
    match memo.get a with
    | some b => Prog.pure (.ref b, memo)
    | none =>
      (Prog.read a).bind fun o =>
      (Prog.alloc ⟨o.kind, []⟩).bind fun b =>
      (copyItems fuel b ((a, b) :: memo) o.items).bind fun memo' =>
      Prog.pure (.ref b, memo')
termination_by fuel _ _ => (fuel, 0)

/-- The loop filling the copy (`Verif.copyItems`) -/
def copyItems : Nat → Nat → Memo → List (String × HV) → Prog Memo
  | _, _, memo, [] => Prog.pure memo
  | fuel, b, memo, (k, v) :: rest =>
    (deepcopy fuel memo v).bind fun p =>
    (Prog.append b (k, p.1)).bind fun _ =>
    copyItems fuel b p.2 rest
termination_by fuel _ _ items => (fuel, items.length + 1)
end

/-- `Base.from_dict` (mark_or_node.py:67-88; `Verif.baseFromDictH`) -/
def baseFromDict (t : Tag) (fs : List Field) (v : HV) : Prog HV :=
  match v with
  | .imm _ => Prog.throw (.py .typeError)
  | .ref a =>
    (Prog.read a).bind fun o =>
    match o.kind with
    | .dict =>
      (Prog.ofExcept (checkRequired fs fun k => (itemGet o.items k).isSome)).bind fun _ =>
      (Prog.alloc ⟨.inst t, fs.map fun f => (f.name, fieldValueH o.items f)⟩).bind fun r =>
      Prog.pure (.ref r)
    | _ => Prog.throw (.py .typeError)

/-- The attrs step (mark_or_node.py:154-160, 245-250; `Verif.attrsStepH`) -/
def attrsStep (afs : Option (List Field)) (b : Nat) : Prog Unit :=
  (Prog.read b).bind fun o =>
  match itemGet o.items "attrs", afs with
  | some v, some fs => (baseFromDict .attrs fs v).bind fun inst => setItem b "attrs" inst
  | _, _ => Prog.pure ()

/-- `copy.deepcopy(dct)` and the test that it is a dict (`Verif.copyDictH`) -/
def copyDict (fuel : Nat) (v : HV) : Prog Nat :=
  (deepcopy fuel [] v).bind fun p =>
  match p.1 with
  | .imm _ => Prog.throw (.py .typeError)
  | .ref b =>
    (Prog.read b).bind fun o =>
    match o.kind with
    | .dict => Prog.pure b
    | _ => Prog.throw (.py .typeError)

/-- `BaseMark.from_dict` (mark_or_node.py:145-161; `Verif.markFromDictH`) -/
def markFromDict (fuel : Nat) (c : MarkCls) (v : HV) : Prog HV :=
  (copyDict fuel v).bind fun b =>
  (attrsStep c.attrsFields b).bind fun _ =>
  baseFromDict (.mark c) c.fields (.ref b)

/-- `d["type"]` and its lookup (marks/parse_mark.py:67-74, nodes/parse_node.py:105-112; `Verif.registryH`) -/
def registry {C : Type} (reg : List (TypeEnum × C)) (category : String) (v : HV) : Prog C :=
  match v with
  | .imm _ => Prog.throw (.py .typeError)
  | .ref a =>
    (Prog.read a).bind fun o =>
    match o.kind with
    | .dict =>
      match itemGet o.items "type" with
      | none => Prog.throw (.py .keyError)
      | some (.ref _) => Prog.throw (.py .typeError)
      | some (.imm i) =>
        match registryLookup reg i.toVal with
        | .error e => Prog.throw (.py e)
        | .ok none => Prog.throw (.py (.unimplementedType i.toVal category))
        | .ok (some c) => Prog.pure c
    | _ => Prog.throw (.py .typeError)

/-- `parse_mark` (marks/parse_mark.py:62-75; `Verif.parseMarkH`) -/
def parseMark (fuel : Nat) (v : HV) : Prog HV :=
  (registry markRegistry "mark" v).bind fun c => markFromDict fuel c v

/-- `try: .. except UnimplementedTypeError` (mark_or_node.py:257-265, 273-281; `Verif.skipH`) -/
def skip (warn : Bool) (m : Prog HV) : Prog (List HV) :=
  m.tryElse (fun v => Prog.pure [v]) fun e =>
    match e with
    | .py (.unimplementedType t c) => (Prog.log (if warn then [⟨t, c⟩] else [])).bind fun _ => Prog.pure []
    | e => Prog.throw e

/-- A conversion loop (mark_or_node.py:256-265, 272-281; `Verif.loopH`) -/
def loop (warn : Bool) (f : HV → Prog HV) : List (String × HV) → Prog (List HV)
  | [] => Prog.pure []
  | e :: rest =>
    (skip warn (f e.2)).bind fun o =>
    (loop warn f rest).bind fun vs => Prog.pure (o ++ vs)

/-- The content / marks step (mark_or_node.py:253-266, 269-282; `Verif.listStepH`) -/
def listStep (warn : Bool) (key : String) (f : HV → Prog HV) (b : Nat) : Prog Unit :=
  (Prog.read b).bind fun o =>
  match itemGet o.items key with
  | some (.ref l) =>
    (Prog.read l).bind fun lo =>
    match lo.kind with
    | .list =>
      (loop warn f lo.items).bind fun vs =>
      (Prog.alloc ⟨.list, vs.map fun v => ("", v)⟩).bind fun n =>
      setItem b key (.ref n)
    | _ => Prog.pure ()
  | _ => Prog.pure ()

/-- `BaseNode.from_dict` (mark_or_node.py:222-284; `Verif.nodeFromDictH`) -/
def nodeFromDict (fuel : Nat) (warn : Bool) (parse : HV → Prog HV) (c : NodeCls) (v : HV) : Prog HV :=
  (copyDict fuel v).bind fun b =>
  (attrsStep c.attrsFields b).bind fun _ =>
  (listStep warn "content" parse b).bind fun _ =>
  (listStep warn "marks" (parseMark fuel) b).bind fun _ =>
  baseFromDict (.node c) c.fields (.ref b)

/-- `parse_node` (nodes/parse_node.py:100-113; `Verif.parseNodeH`) -/
def parseNode : Nat → Bool → HV → Prog HV
  | 0, _, _ => Prog.throw .recursion
  | fuel + 1, warn, v =>
    (registry nodeRegistry "node" v).bind fun c => nodeFromDict (fuel + 1) warn (parseNode fuel warn) c v

/-! ## `to_dict` -/

mutual
/-- `dataclasses.asdict` (`Verif.asdictH`) -/
def asdict : Nat → HV → Prog HV
  | _, .imm i => Prog.pure (.imm i)
  | 0, .ref _ => Prog.throw .recursion
  | fuel + 1, .ref a =>
    (Prog.read a).bind fun o =>
    (asdictItems fuel o.items).bind fun items =>
    (Prog.alloc ⟨o.kind.asdict, items⟩).bind fun r => Prog.pure (.ref r)
termination_by fuel _ => (fuel, 0)

/-- The entries (`Verif.asdictItems`) -/
def asdictItems : Nat → List (String × HV) → Prog (List (String × HV))
  | _, [] => Prog.pure []
  | fuel, (k, v) :: rest =>
    (asdict fuel v).bind fun v' => (asdictItems fuel rest).bind fun rest' => Prog.pure ((k, v') :: rest')
termination_by fuel items => (fuel, items.length + 1)
end

/-- `remove_optional` (`Verif.removeOptionalH`) -/
def removeOptional (d : Nat) : Prog HV :=
  (Prog.read d).bind fun o =>
  (Prog.alloc ⟨.dict, o.items.filter fun e => !e.2.isOpt⟩).bind fun r => Prog.pure (.ref r)

/-- The address of an object (`Verif.addrOf`) -/
def addrOf : HV → Prog Nat
  | .ref a => Prog.pure a
  | .imm _ => Prog.throw (.py .attributeError)

/-- `Base.to_dict`, `BaseMark.to_dict` (mark_or_node.py:55-59, 163-168; `Verif.baseToDictH`) -/
def baseToDict (fuel : Nat) (x : HV) : Prog HV :=
  (asdict fuel x).bind fun v => (addrOf v).bind fun d => removeOptional d

/-- One call after the other (`Verif.mapH`) -/
def map (f : HV → Prog HV) : List (String × HV) → Prog (List HV)
  | [] => Prog.pure []
  | e :: rest => (f e.2).bind fun v => (map f rest).bind fun vs => Prog.pure (v :: vs)

/-- `[c.to_dict() for c in v]` (mark_or_node.py:298, 302; `Verif.listToDictH`) -/
def listToDict (call : HV → Prog HV) (v : HV) : Prog HV :=
  match v with
  | .imm (.str []) => (Prog.alloc ⟨.list, []⟩).bind fun r => Prog.pure (.ref r)
  | .imm (.str (_ :: _)) => Prog.throw (.py .attributeError)
  | .imm _ => Prog.throw (.py .typeError)
  | .ref a =>
    (Prog.read a).bind fun o =>
    match o.kind with
    | .list =>
      (map call o.items).bind fun vs =>
      (Prog.alloc ⟨.list, vs.map fun v => ("", v)⟩).bind fun r => Prog.pure (.ref r)
    | .dict =>
      if o.items.isEmpty then (Prog.alloc ⟨.list, []⟩).bind fun r => Prog.pure (.ref r)
      else Prog.throw (.py .attributeError)
    | .inst _ => Prog.throw (.py .typeError)

/-- The content / marks step (mark_or_node.py:297-298, 301-302; `Verif.listFieldH`) -/
def listField (key : String) (call : HV → Prog HV) (self : List (String × HV)) (d : Nat) : Prog Unit :=
  (Prog.read d).bind fun o =>
  match itemGet o.items key, itemGet self key with
  | none, _ => Prog.pure ()
  | some (.imm .opt), _ => Prog.pure ()
  | some _, none => Prog.throw (.py .attributeError)
  | some _, some v => (listToDict call v).bind fun r => setItem d key r

/-- The attrs step (mark_or_node.py:292-294; `Verif.attrsFieldH`) -/
def attrsField (fuel : Nat) (self : List (String × HV)) (d : Nat) : Prog Unit :=
  (Prog.read d).bind fun o =>
  match itemGet o.items "attrs", itemGet self "attrs" with
  | none, _ => Prog.pure ()
  | some (.imm .opt), _ => Prog.pure ()
  | some _, some (.ref a) =>
    (Prog.read a).bind fun ao =>
    match ao.kind with
    | .inst _ => (baseToDict fuel (.ref a)).bind fun r => setItem d "attrs" r
    | _ => Prog.pure ()
  | some _, _ => Prog.pure ()

/-- `x.to_dict()` (mark_or_node.py:286-304; `Verif.toDictH`) -/
def toDict : Nat → HV → Prog HV
  | _, .imm _ => Prog.throw (.py .attributeError)
  | 0, .ref _ => Prog.throw .recursion
  | fuel + 1, .ref a =>
    (Prog.read a).bind fun o =>
    match o.kind with
    | .inst (.node _) =>
      (asdict (fuel + 1) (.ref a)).bind fun v =>
      (addrOf v).bind fun d =>
      (attrsField fuel o.items d).bind fun _ =>
      (listField "content" (toDict fuel) o.items d).bind fun _ =>
      (listField "marks" (toDict fuel) o.items d).bind fun _ =>
      removeOptional d
    | .inst _ => baseToDict (fuel + 1) (.ref a)
    | _ => Prog.throw (.py .attributeError)

end Verif.HeapProg
