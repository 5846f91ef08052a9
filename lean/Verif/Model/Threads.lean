import Verif.Model.HeapMd
import Verif.Model.HeapProg
/-!
# Threads that parse and convert documents at the same time

The library has no locks, and no module-level state that `parse_node`, `to_dict` or `to_markdown` write (mark_or_node.py:55-168, 222-321,
markdown_helpers.py:40-163, nodes/*.py; `logger` is written to, settings are only read).  Threads take turns after any single operation on an object
(`Prog.next`).  Not modelled: threads without a GIL on objects that are being changed.
-/

namespace Verif.Threads
open Verif

/-- A call of the library. -/
inductive Call where
  /-- `x.to_markdown(level=level, ignore_error=ig)` -/
  | markdown (x : HV) (level : Option Int) (ig : Bool)
  /-- `parse_node(v)`, where `settings.WARN_UNIMPLEMENTED_TYPE` is `warn` -/
  | parse (warn : Bool) (v : HV)
  /-- `parse_mark(v)` -/
  | parseMark (v : HV)
  /-- `NodeXxx.from_dict(v)` -/
  | node (c : NodeCls) (warn : Bool) (v : HV)
  /-- `MarkXxx.from_dict(v)` -/
  | mark (c : MarkCls) (v : HV)
  /-- `x.to_dict()` -/
  | toDict (x : HV)

/-- What is done in a thread whose recursion limit is `fuel`. -/
def Call.prog (env : Env) (fuel : Nat) : Call → Prog HV
  | .markdown x level ig => HeapMd.markdownH env fuel x level ig
  | .parse warn v => HeapProg.parseNode fuel warn v
  | .parseMark v => HeapProg.parseMark fuel v
  | .node c warn v => HeapProg.nodeFromDict fuel warn (HeapProg.parseNode fuel warn) c v
  | .mark c v => HeapProg.markFromDict fuel c v
  | .toDict x => HeapProg.toDict fuel x

/-- The document the call is given. -/
def Call.arg : Call → HV
  | .markdown x _ _ => x
  | .parse _ v => v
  | .parseMark v => v
  | .node _ _ v => v
  | .mark _ v => v
  | .toDict x => x

/-- A call that was made in a thread whose recursion limit is `fuel`.  `seen` is the heap at the moment of the call and `doc` the objects the
caller lets nobody change meanwhile; no step looks at these two. -/
structure Thread where
  fuel : Nat
  call : Call
  /-- what is left to be done -/
  prog : Prog HV
  /-- the objects it has created -/
  own : List Nat
  /-- the warnings it has logged -/
  log : List Warn
  seen : Heap
  doc : Nat → Prop

/-- The call has returned or raised. -/
def Thread.Over (t : Thread) : Prop := (∃ r, t.prog = .ret r) ∨ ∃ e, t.prog = .fail e

structure Config where
  heap : Heap
  threads : List Thread

/-- A thread makes a call.  The lists and dicts which running calls fill are their local variables, so they are part of no document. -/
inductive Called (env : Env) (c : Config) : Config → Prop
  | mk (fuel : Nat) (call : Call) (doc : Nat → Prop) (hdoc : ∀ t ∈ c.threads, ¬ t.Over → ∀ a ∈ t.own, ¬ doc a) :
    Called env c ⟨c.heap, c.threads ++ [⟨fuel, call, call.prog env fuel, [], [], c.heap, doc⟩]⟩

/-- A thread makes its next step. -/
inductive Ran (c : Config) : Config → Prop
  | mk (i : Nat) (t : Thread) (h' : Heap) (p : Prog HV) (new : List Nat) (ws : List Warn) (ht : c.threads[i]? = some t)
      (hn : t.prog.next c.heap = some (h', p, new, ws)) :
    Ran c ⟨h', c.threads.set i { t with prog := p, own := t.own ++ new, log := t.log ++ ws }⟩

/-- Other code runs: it may create objects and change any object, but none of a document that is being worked on and none a call in progress has
created. -/
inductive Other (c : Config) : Config → Prop
  | mk (h' : Heap) (hl : c.heap.length ≤ h'.length)
      (hk : ∀ t ∈ c.threads, ∀ a, a < c.heap.length → t.doc a ∨ a ∈ t.own → h'[a]? = c.heap[a]?) : Other c ⟨h', c.threads⟩

/-- The caller of a call that is over goes on with the result: from now on the document and the result may change.  Or the call is broken off before
its next operation, by an exception from outside that nothing in the library catches (KeyboardInterrupt, the end of a thread), and leaves behind what
it has created so far. -/
inductive Left (c : Config) : Config → Prop
  | mk (i : Nat) (t : Thread) (ht : c.threads[i]? = some t) : Left c ⟨c.heap, c.threads.eraseIdx i⟩

/-- Any number of calls, steps of the threads in any order, and other code. -/
inductive Reach (env : Env) : Config → Prop
  | start (h : Heap) : Reach env ⟨h, []⟩
  | call {c c' : Config} : Reach env c → Called env c c' → Reach env c'
  | step {c c' : Config} : Reach env c → Ran c c' → Reach env c'
  | other {c c' : Config} : Reach env c → Other c c' → Reach env c'
  | left {c c' : Config} : Reach env c → Left c c' → Reach env c'

/-- The same without other code, from heap `h`. -/
inductive Alone (env : Env) (h : Heap) : Config → Prop
  | start : Alone env h ⟨h, []⟩
  | call {c c' : Config} : Alone env h c → Called env c c' → Alone env h c'
  | step {c c' : Config} : Alone env h c → Ran c c' → Alone env h c'
  | left {c c' : Config} : Alone env h c → Left c c' → Alone env h c'

end Verif.Threads
