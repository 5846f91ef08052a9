import Mathlib.Data.List.Forall2
import Verif.Model.Equality
import Verif.Spec.Relevant
/-!
# Specification: equal outcomes
-/

namespace Verif.Spec
open Verif

mutual
/-- No dict in the value has the same key twice (true of every Python dict). -/
def UniqueKeys : Val → Prop
  | .list l => UniqueKeysList l
  | .dict d => (d.map Prod.fst).Nodup ∧ UniqueKeysDict d
  | _ => True

def UniqueKeysList : List Val → Prop
  | [] => True
  | v :: l => UniqueKeys v ∧ UniqueKeysList l

def UniqueKeysDict : List (String × Val) → Prop
  | [] => True
  | (_, v) :: d => UniqueKeys v ∧ UniqueKeysDict d
end

/-- The same exception: same class; for UnimplementedTypeError, equal attributes. -/
def SameErr (iv : Str → Option Int) (e e' : PyErr) : Prop :=
  (e = e' ∧ ∀ t c, e ≠ .unimplementedType t c) ∨
  ∃ t t' c, e = .unimplementedType t c ∧ e' = .unimplementedType t' c ∧ t.eq iv t' = true

/-- Related results or the same exception. -/
inductive SameOut {α : Type} (iv : Str → Option Int) (R : α → α → Prop) :
    Except PyErr α → Except PyErr α → Prop where
  | ok {a b : α} (h : R a b) : SameOut iv R (.ok a) (.ok b)
  | error {e e' : PyErr} (h : SameErr iv e e') : SameOut iv R (.error e) (.error e')

/-- The same warnings. -/
def SameLog (iv : Str → Option Int) (l l' : List Warn) : Prop :=
  List.Forall₂ (fun a b => a.category = b.category ∧ a.typeValue.eq iv b.typeValue = true) l l'

/-- A value that is equal to no value of another type with another `str`: not a bool, a float, a list or a
dict. -/
def Simple : Val → Prop
  | .none | .opt | .str _ | .int _ => True
  | _ => False

/-- The values under these names are simple. -/
def SimpleAttrs (names : List String) : Slot AttrsObj → Prop
  | .raw v => Simple v
  | .val a => ∀ k ∈ names, ∀ v, lookupKey a.fields k = some v → Simple v
  | _ => True

/-- The text, the attributes and the mark attributes that may influence the Markdown are simple, and
`content` and `marks` were lists if given. -/
structure SimpleHere (n : Node) : Prop where
  text : ∀ v, n.hd.text = some v → Simple v
  attrs : SimpleAttrs (readAttrs n.cls) n.hd.attrs
  marks : ∀ ms, n.hd.marks = .val ms → ∀ m ∈ ms, ∀ names, readMarkAttrs m.cls = some names →
    SimpleAttrs names m.attrs
  content : ∀ v, n.content ≠ .raw v

/-- ... in the whole tree. -/
def SimpleTree (n : Node) : Prop := ∀ m, Below m n → SimpleHere m

/-- Not a list or a dict. -/
def HashableVal : Val → Prop
  | .list _ | .dict _ => False
  | _ => True

end Verif.Spec
