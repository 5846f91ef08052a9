import Verif.Model.Heap
/-!
# Programs that take one step at a time

What a function does to the objects in memory, as a tree of single operations: so that several threads can take turns.  Under the GIL an
attribute lookup, the creation of a list and `list.append` are atomic.
-/

namespace Verif

/-- What is left to be done. -/
inductive Prog (α : Type) : Type where
  /-- return -/
  | ret (a : α)
  /-- raise -/
  | fail (e : HErr)
  /-- look at the object at an address -/
  | look (a : Nat) (k : Option HObj → Prog α)
  /-- create an object -/
  | make (o : HObj) (k : Nat → Prog α)
  /-- `x.append(..)`; was there an object? -/
  | add (a : Nat) (e : String × HV) (k : Bool → Prog α)
  /-- replace an object -/
  | put (a : Nat) (o : HObj) (k : Prog α)
  /-- `logger.warning(..)` -/
  | warn (ws : List Warn) (k : Prog α)

namespace Prog
variable {α β : Type}

/-- `try: x except Exception: failed(..) else: ok(..)`; what was done before the exception stays done. -/
def tryElse (x : Prog α) (ok : α → Prog β) (failed : HErr → Prog β) : Prog β :=
  match x with
  | ret a => ok a
  | fail e => failed e
  | look a k => look a fun o => (k o).tryElse ok failed
  | make o k => make o fun a => (k a).tryElse ok failed
  | add a e k => add a e fun b => (k b).tryElse ok failed
  | put a o k => put a o (k.tryElse ok failed)
  | warn ws k => warn ws (k.tryElse ok failed)

def pure (a : α) : Prog α := ret a

def throw (e : HErr) : Prog α := fail e

/-- One after the other. -/
def bind (x : Prog α) (f : α → Prog β) : Prog β := x.tryElse f fail

/-- The object a value refers to.  (A dangling reference cannot occur; the model raises TypeError, as in `Model/Heap.lean`.) -/
def read (a : Nat) : Prog HObj := look a fun o =>
  match o with
  | some o => ret o
  | none => fail (.py .typeError)

def alloc (o : HObj) : Prog Nat := make o ret

def append (a : Nat) (e : String × HV) : Prog Unit := add a e fun b => if b then ret () else fail (.py .typeError)

def write (a : Nat) (o : HObj) : Prog Unit := put a o (ret ())

def log (ws : List Warn) : Prog Unit := warn ws (ret ())

def ofExcept (x : Except PyErr α) : Prog α :=
  match x with
  | .ok a => ret a
  | .error e => fail (.py e)

/-- The next operation in heap `h`: the heap after it, what is left, the objects it created, and the warnings it logged. -/
def next (h : Heap) : Prog α → Option (Heap × Prog α × List Nat × List Warn)
  | ret _ => none
  | fail _ => none
  | look a k => some (h, k h[a]?, [], [])
  | make o k => some (h ++ [o], k h.length, [h.length], [])
  | add a e k =>
    match h[a]? with
    | some o => some (h.set a { o with items := o.items ++ [e] }, k true, [], [])
    | none => some (h, k false, [], [])
  | put a o k => some (h.set a o, k, [], [])
  | warn ws k => some (h, k, [], ws)

/-- All of it without interruption. -/
def run : Prog α → HM α
  | ret a, s => (.ok a, s)
  | fail e, s => (.error e, s)
  | look a k, s => (k s.heap[a]?).run s
  | make o k, s => (k s.heap.length).run { s with heap := s.heap ++ [o] }
  | add a e k, s =>
    match s.heap[a]? with
    | some o => (k true).run { s with heap := s.heap.set a { o with items := o.items ++ [e] } }
    | none => (k false).run s
  | put a o k, s => k.run { s with heap := s.heap.set a o }
  | warn ws k, s => k.run { s with log := s.log ++ ws }

end Prog
end Verif
