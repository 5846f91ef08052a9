import Verif.Model.FromDict
/-!
# `from_dict` on a heap of mutable objects

`Model/FromDict.lean` treats documents as immutable values.  Here the same functions are modelled as
programs that read, allocate and update objects with identity, so that aliasing is visible: the
caller's dict, its deep copy, the in-place updates `dct["attrs"] = ..` / `dct["content"] = ..` /
`dct["marks"] = ..` of the copy, and the instances built from it.

Simplifications: instances of attrs classes carry no class name; `new_content` / `new_marks` are
allocated when they are complete (nothing else can refer to them before); a dataclass instance used
as a `type` value is not hashable (JSON input never has one).  Recursion is bounded by `fuel`, which
plays the part of Python's recursion limit; theorems hold for every `fuel`.
-/

namespace Verif

/-- Immutable values: they have no identity that matters. -/
inductive Imm where
  | none
  | bool (b : Bool)
  | int (n : Int)
  | float (repr : Str)
  | str (s : Str)
  | opt

def Imm.toVal : Imm → Val
  | .none => .none
  | .bool b => .bool b
  | .int n => .int n
  | .float r => .float r
  | .str s => .str s
  | .opt => .opt

/-- The immutable value equal to a scalar (used for field defaults, which are all scalars). -/
def Imm.ofVal : Val → Imm
  | .none => .none
  | .bool b => .bool b
  | .int n => .int n
  | .float r => .float r
  | .str s => .str s
  | _ => .opt

/-- What a variable, list element, dict value or attribute holds. -/
inductive HV where
  | imm (i : Imm)
  | ref (addr : Nat)

/-- Classes of instances. -/
inductive Tag where
  | node (c : NodeCls)
  | mark (c : MarkCls)
  | attrs

inductive Kind where
  | list
  | dict
  | inst (t : Tag)

/-- An object: the elements of a list (with empty keys), the entries of a dict, the attributes of an
instance. -/
structure HObj where
  kind : Kind
  items : List (String × HV)

/-- Objects by address; addresses are never reused. -/
abbrev Heap := List HObj

inductive HErr where
  | py (e : PyErr)
  /-- the recursion limit -/
  | recursion

structure St where
  heap : Heap
  log : List Warn

/-- A program: reads and updates the state, returns a value or raises.  Updates made before an
exception stay. -/
def HM (α : Type) : Type := St → Except HErr α × St

namespace HM

def pure {α : Type} (a : α) : HM α := fun s => (.ok a, s)

def throw {α : Type} (e : HErr) : HM α := fun s => (.error e, s)

def bind {α β : Type} (m : HM α) (f : α → HM β) : HM β := fun s =>
  match m s with
  | (.error e, s') => (.error e, s')
  | (.ok a, s') => f a s'

instance : Monad HM where
  pure := pure
  bind := bind

/-- The object a value refers to.  (A dangling reference cannot occur; the model raises TypeError.) -/
def read (a : Nat) : HM HObj := fun s =>
  match s.heap[a]? with
  | some o => (.ok o, s)
  | none => (.error (.py .typeError), s)

/-- Create an object. -/
def alloc (o : HObj) : HM Nat := fun s => (.ok s.heap.length, { s with heap := s.heap ++ [o] })

/-- Replace the object at `a`. -/
def write (a : Nat) (o : HObj) : HM Unit := fun s => (.ok (), { s with heap := s.heap.set a o })

/-- `logger.warning(..)`. -/
def warn (ws : List Warn) : HM Unit := fun s => (.ok (), { s with log := s.log ++ ws })

def ofExcept {α : Type} (x : Except PyErr α) : HM α := fun s =>
  match x with
  | .ok a => (.ok a, s)
  | .error e => (.error (.py e), s)

/-- `y.append(v)` / `y[k] = v` for a new key. -/
def append (a : Nat) (e : String × HV) : HM Unit := do
  let o ← read a
  write a { o with items := o.items ++ [e] }

end HM

/-- `dct[k]` (first match, as in the value model). -/
def itemGet : List (String × HV) → String → Option HV
  | [], _ => none
  | (k', v) :: rest, k => if k' = k then some v else itemGet rest k

/-- `dct[k] = v` for a key that exists. -/
def itemSet : List (String × HV) → String → HV → List (String × HV)
  | [], _, _ => []
  | (k', v') :: rest, k, v => if k' = k then (k', v) :: rest else (k', v') :: itemSet rest k v

namespace HM
/-- `dct[k] = v` in place (mark_or_node.py:160,250,266,282). -/
def setItem (a : Nat) (k : String) (v : HV) : HM Unit := do
  let o ← read a
  write a { o with items := itemSet o.items k v }
end HM

/-- `copy.deepcopy`'s memo: original address, copy's address. -/
abbrev Memo := List (Nat × Nat)

def Memo.get (m : Memo) (a : Nat) : Option Nat :=
  match m with
  | [] => none
  | (x, y) :: rest => if x = a then some y else Memo.get rest a

mutual
/-- `copy.deepcopy(x, memo)` (CPython Lib/copy.py:118-161, `_deepcopy_list`, `_deepcopy_dict`,
`_reconstruct`): immutable values are shared; an object already copied is looked up in the memo;
otherwise an empty object of the same kind is created, entered into the memo and filled. -/
def deepcopy : Nat → Memo → HV → HM (HV × Memo)
  | _, memo, .imm i => HM.pure (.imm i, memo)
  | 0, _, .ref _ => HM.throw .recursion
  | fuel + 1, memo, .ref a =>
    match memo.get a with
    | some b => HM.pure (.ref b, memo)
    | none => do
      let o ← HM.read a
      let b ← HM.alloc ⟨o.kind, []⟩
      let memo' ← copyItems fuel b ((a, b) :: memo) o.items
      HM.pure (.ref b, memo')
termination_by fuel _ _ => (fuel, 0)

/-- The loop filling the copy at `b`. -/
def copyItems : Nat → Nat → Memo → List (String × HV) → HM Memo
  | _, _, memo, [] => HM.pure memo
  | fuel, b, memo, (k, v) :: rest => do
    let (v', memo') ← deepcopy fuel memo v
    HM.append b (k, v')
    copyItems fuel b memo' rest
termination_by fuel _ _ items => (fuel, items.length + 1)
end

/-- `fieldValue` of the value model. -/
def fieldValueH (items : List (String × HV)) (f : Field) : HV :=
  match itemGet items f.name with
  | some v => v
  | none =>
    match f.dflt with
    | .lit v => .imm (Imm.ofVal v)
    | _ => .imm .opt

/-- `Base.from_dict` (mark_or_node.py:67-88): reads the known fields of the dict `v`, then
`cls(**kwargs)`.  No copy is made here. -/
def baseFromDictH (t : Tag) (fs : List Field) (v : HV) : HM HV :=
  match v with
  | .imm _ => HM.throw (.py .typeError)
  | .ref a => do
    let o ← HM.read a
    match o.kind with
    | .dict => do
      HM.ofExcept (checkRequired fs fun k => (itemGet o.items k).isSome)
      let r ← HM.alloc ⟨.inst t, fs.map fun f => (f.name, fieldValueH o.items f)⟩
      HM.pure (.ref r)
    | _ => HM.throw (.py .typeError)

/-- The attrs step on the copy at `b` (mark_or_node.py:154-160, 245-250). -/
def attrsStepH (afs : Option (List Field)) (b : Nat) : HM Unit := do
  let o ← HM.read b
  match itemGet o.items "attrs", afs with
  | some v, some fs => do
    let inst ← baseFromDictH .attrs fs v
    HM.setItem b "attrs" inst
  | _, _ => HM.pure ()

/-- `copy.deepcopy(dct)` followed by the test that the copy is a dict (`"attrs" in dct` and
`dct[field_name]` are TypeErrors otherwise); the copy's address. -/
def copyDictH (fuel : Nat) (v : HV) : HM Nat := do
  let (v', _) ← deepcopy fuel [] v
  match v' with
  | .imm _ => HM.throw (.py .typeError)
  | .ref b => do
    let o ← HM.read b
    match o.kind with
    | .dict => HM.pure b
    | _ => HM.throw (.py .typeError)

/-- `BaseMark.from_dict` (mark_or_node.py:145-161). -/
def markFromDictH (fuel : Nat) (c : MarkCls) (v : HV) : HM HV := do
  let b ← copyDictH fuel v
  attrsStepH c.attrsFields b
  baseFromDictH (.mark c) c.fields (.ref b)

/-- `d["type"]` and its lookup in a registry (marks/parse_mark.py:67-74, nodes/parse_node.py:105-112). -/
def registryH {C : Type} (reg : List (TypeEnum × C)) (category : String) (v : HV) : HM C :=
  match v with
  | .imm _ => HM.throw (.py .typeError)
  | .ref a => do
    let o ← HM.read a
    match o.kind with
    | .dict =>
      match itemGet o.items "type" with
      | none => HM.throw (.py .keyError)
      | some (.ref _) => HM.throw (.py .typeError)
      | some (.imm i) =>
        match registryLookup reg i.toVal with
        | .error e => HM.throw (.py e)
        | .ok none => HM.throw (.py (.unimplementedType i.toVal category))
        | .ok (some c) => HM.pure c
    | _ => HM.throw (.py .typeError)

/-- `parse_mark` (marks/parse_mark.py:62-75). -/
def parseMarkH (fuel : Nat) (v : HV) : HM HV := do
  let c ← registryH markRegistry "mark" v
  markFromDictH fuel c v

/-- `try: .. except UnimplementedTypeError` (mark_or_node.py:257-265, 273-281). -/
def skipH (warn : Bool) (m : HM HV) : HM (List HV) := fun s =>
  match m s with
  | (.ok v, s') => (.ok [v], s')
  | (.error (.py (.unimplementedType t c)), s') =>
    HM.bind (HM.warn (if warn then [⟨t, c⟩] else [])) (fun _ => HM.pure []) s'
  | (.error e, s') => (.error e, s')

/-- A conversion loop (mark_or_node.py:256-265, 272-281). -/
def loopH (warn : Bool) (f : HV → HM HV) : List (String × HV) → HM (List HV)
  | [] => HM.pure []
  | e :: rest => do
    let o ← skipH warn (f e.2)
    let vs ← loopH warn f rest
    HM.pure (o ++ vs)

/-- The content / marks step on the copy at `b`: if `dct[key]` is a list, convert its elements and
store the new list (mark_or_node.py:253-266, 269-282). -/
def listStepH (warn : Bool) (key : String) (f : HV → HM HV) (b : Nat) : HM Unit := do
  let o ← HM.read b
  match itemGet o.items key with
  | some (.ref l) => do
    let lo ← HM.read l
    match lo.kind with
    | .list => do
      let vs ← loopH warn f lo.items
      let n ← HM.alloc ⟨.list, vs.map fun v => ("", v)⟩
      HM.setItem b key (.ref n)
    | _ => HM.pure ()
  | _ => HM.pure ()

/-- `BaseNode.from_dict` (mark_or_node.py:222-284), given `parse_node` for its children. -/
def nodeFromDictH (fuel : Nat) (warn : Bool) (parse : HV → HM HV) (c : NodeCls) (v : HV) : HM HV := do
  let b ← copyDictH fuel v
  attrsStepH c.attrsFields b
  listStepH warn "content" parse b
  listStepH warn "marks" (parseMarkH fuel) b
  baseFromDictH (.node c) c.fields (.ref b)

/-- `parse_node` (nodes/parse_node.py:100-113). -/
def parseNodeH : Nat → Bool → HV → HM HV
  | 0, _, _ => HM.throw .recursion
  | fuel + 1, warn, v => do
    let c ← registryH nodeRegistry "node" v
    nodeFromDictH (fuel + 1) warn (parseNodeH fuel warn) c v

/-- `NodeXxx.from_dict(v)`. -/
def NodeCls.fromDictH (fuel : Nat) (warn : Bool) (c : NodeCls) (v : HV) : HM HV :=
  nodeFromDictH fuel warn (parseNodeH fuel warn) c v

/-- `MarkXxx.from_dict(v)`. -/
def MarkCls.fromDictH (fuel : Nat) (c : MarkCls) (v : HV) : HM HV := markFromDictH fuel c v

end Verif
