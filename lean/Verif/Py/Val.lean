import Verif.Py.Str
/-!
# Python values, exceptions and runtime environment

`Val` covers what can be stored in a document's dict form or in a field of an attrs instance:
the JSON values and the `OPT` sentinel of `func_args` (its identity survives `copy.deepcopy` /
`dataclasses.asdict`; the library's own `to_dict` relies on that, mark_or_node.py:292,297,301).
The `REQ` sentinel is never stored in an instance: construction raises first.
-/

namespace Verif

/-- Python values occurring in serialised documents. -/
inductive Val where
  | none
  | bool (b : Bool)
  | int (n : Int)
  /-- a float, represented by its Python `repr` -/
  | float (repr : Str)
  | str (s : Str)
  | list (l : List Val)
  /-- a dict with string keys; lookup takes the first match -/
  | dict (d : List (String × Val))
  /-- the `OPT` sentinel -/
  | opt
deriving Inhabited

/-- The exceptions the modelled code can raise (all are subclasses of `Exception`, so
`except Exception` catches every one). -/
inductive PyErr where
  | keyError
  | typeError
  | attributeError
  | valueError
  | indexError
  | overflowError
  | notImplementedError
  /-- `func_args` ParamError: a field left at `REQ` -/
  | paramError
  /-- `atlas_doc_parser.exc.UnimplementedTypeError(type_value, category)`, exc.py:14-40 -/
  | unimplementedType (typeValue : Val) (category : String)

/-- Runtime functions that the model does not define; every theorem holds for all of them.
* `strOther v`: `str(v)` for floats, lists, dicts and the sentinel;
* `upperOther c`: `c.upper()` for a non-ASCII character;
* `digitOther c`: decimal value of a non-ASCII digit accepted by `int()`;
* `floatToInt r`: `int(x)` for the float with repr `r`. -/
structure Env where
  strOther : Val → Str
  upperOther : Char → Str
  digitOther : Char → Option Nat
  floatToInt : Str → Except PyErr Int

namespace Val

/-- `str(v)` / f-string interpolation of `v`. -/
def pyStr (env : Env) : Val → Str
  | .str s => s
  | .int n => Str.ofInt n
  | .bool true => "True".toList
  | .bool false => "False".toList
  | .none => "None".toList
  | v => env.strOther v

/-- `isinstance(v, str)` together with the string. -/
def asStr? : Val → Option Str
  | .str s => some s
  | _ => Option.none

/-- `isinstance(v, int)` together with its integer value (`bool` is a subclass of `int`). -/
def asInt? : Val → Option Int
  | .int n => some n
  | .bool b => some (if b then 1 else 0)
  | _ => Option.none

/-- `v is OPT`. -/
def isOpt : Val → Bool
  | .opt => true
  | _ => false

/-- Number of elements a `for` loop over `v` visits; TypeError if `v` is not iterable. -/
def iterLen : Val → Except PyErr Nat
  | .str s => .ok s.length
  | .list l => .ok l.length
  | .dict d => .ok d.length
  | _ => .error .typeError

/-- Hashable, i.e. usable as a dict key in a registry lookup. -/
def hashable : Val → Bool
  | .list _ => false
  | .dict _ => false
  | _ => true

end Val

/-- `sep.join(l)` over arbitrary values: TypeError unless all are strings. -/
def strJoin (sep : Str) (l : List Val) : Except PyErr Str :=
  if l.all (fun v => v.asStr?.isSome) then .ok (Str.join sep (l.filterMap Val.asStr?))
  else .error .typeError

end Verif
