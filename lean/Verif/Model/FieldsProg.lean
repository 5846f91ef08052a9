import Verif.Model.Threads
import Verif.Model.Cache
/-!
# Parsing with the module-level state, step by step

`from_dict` asks `cls.get_fields()` (mark_or_node.py:81, 154, 245) which reads and fills the module-level dict `_CLASS_FIELD` (28-29, 49-53) in up
to three steps; and when it skips a child it reads `settings.WARN_UNIMPLEMENTED_TYPE` (262, 278), which anybody may change at any time, and logs if
it is on.  `FProg` adds these to the programs of `Model/Prog.lean`.
-/

namespace Verif.FieldsProg
open Verif

/-- The classes that have a field dict.  (Every class has an attrs class of its own.) -/
inductive Cls where
  | node (c : NodeCls)
  /-- the type of the field `attrs` of the class -/
  | nodeAttrs (c : NodeCls)
  | mark (c : MarkCls)
  | markAttrs (c : MarkCls)
  /-- a class derived from `Base` by other code -/
  | user (i : Nat)
  deriving DecidableEq

/-- `dataclasses.fields(cls)`; `user` are those of other code's classes -/
def Cls.fields (user : Nat → List Field) : Cls → List Field
  | .node c => c.fields
  | .nodeAttrs c => c.attrsFields.getD []
  | .mark c => c.fields
  | .markAttrs c => c.attrsFields.getD []
  | .user i => user i

/-- `Prog` (`Model/Prog.lean`) with one operation more. -/
inductive FProg (α : Type) : Type where
  | ret (a : α)
  | fail (e : HErr)
  | look (a : Nat) (k : Option HObj → FProg α)
  | make (o : HObj) (k : Nat → FProg α)
  | add (a : Nat) (e : String × HV) (k : Bool → FProg α)
  | put (a : Nat) (o : HObj) (k : FProg α)
  | warn (ws : List Warn) (k : FProg α)
  /-- `cls.get_fields()`; a KeyError raised there is caught nowhere in `from_dict` -/
  | fields (c : Cls) (k : List Field → FProg α)
  /-- `if settings.WARN_UNIMPLEMENTED_TYPE: logger.warning(..)` -/
  | skipped (w : Warn) (k : FProg α)

/-- How far the next operation is, if it takes more than one step. -/
inductive At where
  /-- not begun -/
  | start
  /-- where the call of `get_fields` stands -/
  | fields (pc : Cache.Pc Cls)
  /-- the setting has been read, and is on -/
  | on

/-- `_CLASS_FIELD` -/
abbrev Mem := Cache.Mem Cls (List Field)

/-- What there is after a step. -/
structure Now (α : Type) where
  heap : Heap
  mem : Mem
  prog : FProg α
  pos : At
  /-- the objects created -/
  new : List Nat
  log : List Warn
  /-- the children skipped, each with the value the setting had -/
  skips : List (Warn × Bool)

namespace FProg
variable {α β : Type}

/-- A program that does not ask for fields. -/
def lift : Prog α → FProg α
  | .ret a => ret a
  | .fail e => fail e
  | .look a k => look a fun o => lift (k o)
  | .make o k => make o fun a => lift (k a)
  | .add a e k => add a e fun b => lift (k b)
  | .put a o k => put a o (lift k)
  | .warn ws k => warn ws (lift k)

/-- `Prog.tryElse` -/
def tryElse (x : FProg α) (ok : α → FProg β) (failed : HErr → FProg β) : FProg β :=
  match x with
  | ret a => ok a
  | fail e => failed e
  | look a k => look a fun o => (k o).tryElse ok failed
  | make o k => make o fun a => (k a).tryElse ok failed
  | add a e k => add a e fun b => (k b).tryElse ok failed
  | put a o k => put a o (k.tryElse ok failed)
  | warn ws k => warn ws (k.tryElse ok failed)
  | fields c k => fields c fun fs => (k fs).tryElse ok failed
  | skipped w k => skipped w (k.tryElse ok failed)

def bind (x : FProg α) (f : α → FProg β) : FProg β := x.tryElse f fail

/-- The call of `get_fields` on class `c`. -/
def pcOf (c : Cls) : At → Cache.Pc Cls
  | .fields pc => pc
  | _ => .start c

/-- The next step in heap `h` with cache `m`, where the setting is `warn` and the next operation has got to `pos`: one operation on an object, or on
`_CLASS_FIELD` (`Model/Cache.lean`), or one look at the setting. -/
def next (fieldsOf : Cls → List Field) (h : Heap) (m : Mem) (warn : Bool) (pos : At) : FProg α → Option (Now α)
  | ret _ => none
  | fail _ => none
  | look a k => some ⟨h, m, k h[a]?, .start, [], [], []⟩
  | make o k => some ⟨h ++ [o], m, k h.length, .start, [h.length], [], []⟩
  | add a e k =>
    match h[a]? with
    | some o => some ⟨h.set a { o with items := o.items ++ [e] }, m, k true, .start, [], [], []⟩
    | none => some ⟨h, m, k false, .start, [], [], []⟩
  | put a o k => some ⟨h.set a o, m, k, .start, [], [], []⟩
  | .warn ws k => some ⟨h, m, k, .start, [], ws, []⟩
  | fields c k =>
    match Cache.step fieldsOf m (pcOf c pos) with
    | (m', .done _ o) =>
      match m'.objs[o]? with
      | some fs => some ⟨h, m', k fs, .start, [], [], []⟩
      | none => some ⟨h, m', fail (.py .keyError), .start, [], [], []⟩
    | (m', .raised _) => some ⟨h, m', fail (.py .keyError), .start, [], [], []⟩
    | (m', pc') => some ⟨h, m', fields c k, .fields pc', [], [], []⟩
  | skipped w k =>
    match pos with
    | .on => some ⟨h, m, k, .start, [], [w], [(w, true)]⟩
    | _ => if warn then some ⟨h, m, skipped w k, .on, [], [], []⟩ else some ⟨h, m, k, .start, [], [], [(w, false)]⟩

end FProg

open FProg (lift)

/-- `Base.from_dict` (mark_or_node.py:67-88) -/
def baseFromDict (c : Cls) (t : Tag) (v : HV) : FProg HV := .fields c fun fs => lift (HeapProg.baseFromDict t fs v)

/-- The attrs step (mark_or_node.py:152-160, 243-250); `attrs` is the type of the field `attrs` if it has `from_dict` -/
def attrsStep (c : Cls) (attrs : Option Cls) (b : Nat) : FProg Unit :=
  (lift (Prog.read b)).bind fun o =>
  match itemGet o.items "attrs" with
  | none => .ret ()
  | some v =>
    .fields c fun fs =>
    if fs.any fun f => f.name == "attrs" then
      match attrs with
      | none => .ret ()
      | some a => (baseFromDict a .attrs v).bind fun inst => lift (HeapProg.setItem b "attrs" inst)
    else .ret ()

/-- `BaseMark.from_dict` (mark_or_node.py:145-161) -/
def markFromDict (fuel : Nat) (c : MarkCls) (v : HV) : FProg HV :=
  (lift (HeapProg.copyDict fuel v)).bind fun b =>
  (attrsStep (.mark c) (c.attrsFields.map fun _ => .markAttrs c) b).bind fun _ =>
  baseFromDict (.mark c) (.mark c) (.ref b)

/-- `parse_mark` (marks/parse_mark.py:62-75) -/
def parseMark (fuel : Nat) (v : HV) : FProg HV :=
  (lift (HeapProg.registry markRegistry "mark" v)).bind fun c => markFromDict fuel c v

/-- `try: .. except UnimplementedTypeError` (mark_or_node.py:257-265, 273-281) -/
def skip (m : FProg HV) : FProg (List HV) :=
  m.tryElse (fun v => .ret [v]) fun e =>
    match e with
    | .py (.unimplementedType t c) => .skipped ⟨t, c⟩ (.ret [])
    | e => .fail e

/-- A conversion loop (mark_or_node.py:256-265, 272-281) -/
def loop (f : HV → FProg HV) : List (String × HV) → FProg (List HV)
  | [] => .ret []
  | e :: rest =>
    (skip (f e.2)).bind fun o =>
    (loop f rest).bind fun vs => .ret (o ++ vs)

/-- The content / marks step (mark_or_node.py:253-266, 269-282) -/
def listStep (key : String) (f : HV → FProg HV) (b : Nat) : FProg Unit :=
  (lift (Prog.read b)).bind fun o =>
  match itemGet o.items key with
  | some (.ref l) =>
    (lift (Prog.read l)).bind fun lo =>
    match lo.kind with
    | .list =>
      (loop f lo.items).bind fun vs =>
      (lift (Prog.alloc ⟨.list, vs.map fun v => ("", v)⟩)).bind fun n =>
      lift (HeapProg.setItem b key (.ref n))
    | _ => .ret ()
  | _ => .ret ()

/-- `BaseNode.from_dict` (mark_or_node.py:222-284).  Simplified, as in the model without the cache: for an argument that is no dict TypeError is
raised at once, although the code may ask for the fields before it does. -/
def nodeFromDict (fuel : Nat) (parse : HV → FProg HV) (c : NodeCls) (v : HV) : FProg HV :=
  (lift (HeapProg.copyDict fuel v)).bind fun b =>
  (attrsStep (.node c) (c.attrsFields.map fun _ => .nodeAttrs c) b).bind fun _ =>
  (listStep "content" parse b).bind fun _ =>
  (listStep "marks" (parseMark fuel) b).bind fun _ =>
  baseFromDict (.node c) (.node c) (.ref b)

/-- `parse_node` (nodes/parse_node.py:100-113) -/
def parseNode : Nat → HV → FProg HV
  | 0, _ => .fail .recursion
  | fuel + 1, v =>
    (lift (HeapProg.registry nodeRegistry "node" v)).bind fun c => nodeFromDict (fuel + 1) (parseNode fuel) c v

/-- A call of the library (`Threads.Call`). -/
inductive Call where
  | markdown (x : HV) (level : Option Int) (ig : Bool)
  | parse (v : HV)
  | parseMark (v : HV)
  | node (c : NodeCls) (v : HV)
  | mark (c : MarkCls) (v : HV)
  | toDict (x : HV)

/-- The same call where the setting is always `warn`. -/
def Call.const (warn : Bool) : Call → Threads.Call
  | .markdown x level ig => .markdown x level ig
  | .parse v => .parse warn v
  | .parseMark v => .parseMark v
  | .node c v => .node c warn v
  | .mark c v => .mark c v
  | .toDict x => .toDict x

/-- The document the call is given. -/
def Call.arg : Call → HV
  | .markdown x _ _ => x
  | .parse v => v
  | .parseMark v => v
  | .node _ v => v
  | .mark _ v => v
  | .toDict x => x

/-- What is done for a call (`Threads.Call.prog`).  `to_dict` and `to_markdown` use no module-level state. -/
def Call.prog (env : Env) (fuel : Nat) : Call → FProg HV
  | .markdown x level ig => lift (HeapMd.markdownH env fuel x level ig)
  | .parse v => FieldsProg.parseNode fuel v
  | .parseMark v => FieldsProg.parseMark fuel v
  | .node c v => nodeFromDict fuel (FieldsProg.parseNode fuel) c v
  | .mark c v => markFromDict fuel c v
  | .toDict x => lift (HeapProg.toDict fuel x)

/-! ## Threads -/

/-- `Threads.Thread`; the next operation has got to `pos`, and `skips` are the children skipped so far, each with what the setting was when it was
read for this child (no step looks at them). -/
structure Thread where
  fuel : Nat
  call : Call
  prog : FProg HV
  pos : At
  own : List Nat
  log : List Warn
  skips : List (Warn × Bool)
  seen : Heap
  doc : Nat → Prop

/-- The call has returned or raised. -/
def Thread.Over (t : Thread) : Prop := (∃ r, t.prog = .ret r) ∨ ∃ e, t.prog = .fail e

/-- `_CLASS_FIELD` is `mem`, `settings.WARN_UNIMPLEMENTED_TYPE` is `warn`; `asks` are calls of `get_fields` by other code. -/
structure Config where
  heap : Heap
  mem : Mem
  warn : Bool
  threads : List Thread
  asks : List (Cache.Pc Cls)

/-- What can happen, as in `Model/Threads.lean` (a call may also be broken off within `get_fields`, or between reading the setting and logging); and other code sets the setting and calls `get_fields` of any class.  (Not modelled: other code that
changes `_CLASS_FIELD`, or a dict that `get_fields` has returned.) -/
inductive Step (env : Env) (user : Nat → List Field) (c : Config) : Config → Prop
  | call (fuel : Nat) (call : Call) (doc : Nat → Prop) (hdoc : ∀ t ∈ c.threads, ¬ t.Over → ∀ a ∈ t.own, ¬ doc a) :
    Step env user c { c with threads := c.threads ++ [⟨fuel, call, call.prog env fuel, .start, [], [], [], c.heap, doc⟩] }
  | step (i : Nat) (t : Thread) (n : Now HV) (ht : c.threads[i]? = some t)
      (hn : t.prog.next (Cls.fields user) c.heap c.mem c.warn t.pos = some n) :
    Step env user c { c with
      heap := n.heap
      mem := n.mem
      threads := c.threads.set i { t with
        prog := n.prog, pos := n.pos, own := t.own ++ n.new, log := t.log ++ n.log, skips := t.skips ++ n.skips } }
  | other (h' : Heap) (hl : c.heap.length ≤ h'.length)
      (hk : ∀ t ∈ c.threads, ∀ a, a < c.heap.length → t.doc a ∨ a ∈ t.own → h'[a]? = c.heap[a]?) :
    Step env user c { c with heap := h' }
  | left (i : Nat) (t : Thread) (ht : c.threads[i]? = some t) : Step env user c { c with threads := c.threads.eraseIdx i }
  | set (b : Bool) : Step env user c { c with warn := b }
  | ask (k : Cls) : Step env user c { c with asks := c.asks ++ [.start k] }
  | answer (i : Nat) (p : Cache.Pc Cls) (hp : c.asks[i]? = some p) :
    Step env user c { c with
      mem := (Cache.step (Cls.fields user) c.mem p).1
      asks := c.asks.set i (Cache.step (Cls.fields user) c.mem p).2 }

/-- At import `_CLASS_FIELD` is empty (mark_or_node.py:29) and the setting is on (settings.py:24). -/
inductive Reach (env : Env) (user : Nat → List Field) : Config → Prop
  | start (h : Heap) : Reach env user ⟨h, ⟨[], []⟩, true, [], []⟩
  | step {c c' : Config} : Reach env user c → Step env user c c' → Reach env user c'

end Verif.FieldsProg
