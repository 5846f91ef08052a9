import Mathlib.Data.List.Basic
/-!
# The class-field cache: `Base.get_fields`

mark_or_node.py:28-29 (`_CLASS_FIELD`), 42-53.  `C` stands for classes (hashed by identity), `F` for a
class's field dict `{field.name: field for field in dataclasses.fields(cls)}`; `fieldsOf` is that dict
for a class, fixed when the class is created.  The dict objects have identity (`Nat`), because
`get_fields` hands out the cached object itself.

Any number of threads call `get_fields`; one step of the model is one dict operation on `_CLASS_FIELD`
(atomic under the GIL).
-/

namespace Verif.Cache

/-- Where a call `cls.get_fields()` stands. -/
inductive Pc (C : Type) where
  /-- about to evaluate `_CLASS_FIELD[cls]` (line 50) -/
  | start (c : C)
  /-- caught the KeyError; about to run line 52 -/
  | missed (c : C)
  /-- about to evaluate `_CLASS_FIELD[cls]` (line 53) -/
  | filled (c : C)
  /-- returned the dict object -/
  | done (c : C) (obj : Nat)
  /-- raised KeyError -/
  | raised (c : C)

/-- Shared state: the field dicts created so far, and `_CLASS_FIELD`. -/
structure Mem (C F : Type) where
  objs : List F
  cache : List (C × Nat)

variable {C F : Type} [DecidableEq C]

/-- `_CLASS_FIELD[cls]` -/
def Mem.get (m : Mem C F) (c : C) : Option Nat := (m.cache.find? fun e => e.1 = c).map (·.2)

/-- Line 52: build the dict and store it (an existing entry is overwritten). -/
def Mem.store (fieldsOf : C → F) (m : Mem C F) (c : C) : Mem C F :=
  { objs := m.objs ++ [fieldsOf c], cache := (c, m.objs.length) :: m.cache.filter fun e => e.1 ≠ c }

/-- One step of one call (mark_or_node.py:49-53). -/
def step (fieldsOf : C → F) (m : Mem C F) : Pc C → Mem C F × Pc C
  | .start c =>
    match m.get c with
    | some o => (m, .done c o)
    | none => (m, .missed c)
  | .missed c => (m.store fieldsOf c, .filled c)
  | .filled c =>
    match m.get c with
    | some o => (m, .done c o)
    | none => (m, .raised c)
  | .done c o => (m, .done c o)
  | .raised c => (m, .raised c)

/-- A schedule: which thread moves next, or a new call is made. -/
inductive Event (C : Type) where
  /-- some thread calls `c.get_fields()` -/
  | call (c : C)
  /-- the `i`-th call makes a step -/
  | move (i : Nat)

structure Sys (C F : Type) where
  mem : Mem C F
  calls : List (Pc C)

def run (fieldsOf : C → F) (s : Sys C F) : List (Event C) → Sys C F
  | [] => s
  | .call c :: es => run fieldsOf { s with calls := s.calls ++ [.start c] } es
  | .move i :: es =>
    match s.calls[i]? with
    | none => run fieldsOf s es
    | some p => run fieldsOf ⟨(step fieldsOf s.mem p).1, s.calls.set i (step fieldsOf s.mem p).2⟩ es

/-- At import time the cache is empty (line 29). -/
def init : Sys C F := ⟨⟨[], []⟩, []⟩

/-- One uninterrupted call. -/
def getFields (fieldsOf : C → F) (m : Mem C F) (c : C) : Mem C F × Option Nat :=
  match m.get c with
  | some o => (m, some o)
  | none => (m.store fieldsOf c, (m.store fieldsOf c).get c)

/-- The caller changes a field dict it was given (`d["x"] = ..`). -/
def Mem.mutate (m : Mem C F) (o : Nat) (f : F) : Mem C F := { m with objs := m.objs.set o f }

end Verif.Cache
