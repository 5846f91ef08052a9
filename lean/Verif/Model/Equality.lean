import Verif.Model.ToDict
/-!
# `==`

Every mark, node and attrs class is declared with `@dataclasses.dataclass(frozen=True)`
(mark_or_node.py:32,96,132,206 and each class in marks/ and nodes/), which generates `__eq__`: two
instances are equal if they have the same class and their tuples of fields are equal.  Below the
instances, `==` of the built-in types: `True == 1 == 1.0`, dicts are equal whatever the order of their
entries.

Simplifications: NaN is equal to itself (JSON has no NaN); an unconverted field value (`Slot.raw`) is
never equal to converted objects (`from_dict` leaves only non-lists unconverted).
-/

namespace Verif

/-- What a number is compared by: `True` is 1, `False` is 0; a float that is an integer is that integer,
any other float is given by its `repr`.  `iv` says which integer, if any, a float is equal to. -/
def Val.num? (iv : Str → Option Int) : Val → Option (Int ⊕ Str)
  | .bool b => some (.inl (if b then 1 else 0))
  | .int n => some (.inl n)
  | .float r =>
    match iv r with
    | some n => some (.inl n)
    | .none => some (.inr r)
  | _ => .none

/-- `==` between a number and anything. -/
def numEq (iv : Str → Option Int) (v w : Val) : Bool :=
  match v.num? iv, w.num? iv with
  | some a, some b => decide (a = b)
  | _, _ => false

mutual
/-- `v == w` on built-in values. -/
def Val.eq (iv : Str → Option Int) : Val → Val → Bool
  | .none, w => match w with | .none => true | _ => false
  | .opt, w => match w with | .opt => true | _ => false
  | .str s, w => match w with | .str t => s == t | _ => false
  | .list l, w => match w with | .list m => listEq iv l m | _ => false
  | .dict d, w => match w with | .dict e => d.length == e.length && dictSub iv d e | _ => false
  | .bool b, w => numEq iv (.bool b) w
  | .int n, w => numEq iv (.int n) w
  | .float r, w => numEq iv (.float r) w

/-- Elementwise. -/
def listEq (iv : Str → Option Int) : List Val → List Val → Bool
  | [], m => m.isEmpty
  | v :: l, m => match m with | w :: m => v.eq iv w && listEq iv l m | [] => false

/-- Every entry of the first dict is in the second. -/
def dictSub (iv : Str → Option Int) : List (String × Val) → List (String × Val) → Bool
  | [], _ => true
  | (k, v) :: d, e =>
    (match lookupKey e k with
      | some w => v.eq iv w
      | .none => false) && dictSub iv d e
end

/-- Tuples of fields of the same class. -/
def fieldsEq (iv : Str → Option Int) : List (String × Val) → List (String × Val) → Bool
  | [], [] => true
  | (k, v) :: a, (k', v') :: b => k == k' && v.eq iv v' && fieldsEq iv a b
  | _, _ => false

/-- Instances of attrs classes (mark_or_node.py:32). -/
def AttrsObj.eq (iv : Str → Option Int) (a b : AttrsObj) : Bool := fieldsEq iv a.fields b.fields

/-- A field that the class may lack, left out, not converted, or converted. -/
def slotEq {α : Type} (iv : Str → Option Int) (f : α → α → Bool) : Slot α → Slot α → Bool
  | .absent, .absent => true
  | .opt, .opt => true
  | .raw v, .raw w => v.eq iv w
  | .val a, .val b => f a b
  | _, _ => false

/-- A field that the class may lack. -/
def optEq (iv : Str → Option Int) : Option Val → Option Val → Bool
  | none, none => true
  | some v, some w => v.eq iv w
  | _, _ => false

/-- Marks (mark_or_node.py:132). -/
def Mark.eq (iv : Str → Option Int) (m m' : Mark) : Bool :=
  decide (m.cls = m'.cls) && m.type.eq iv m'.type && slotEq iv (AttrsObj.eq iv) m.attrs m'.attrs

/-- Lists of marks. -/
def marksEq (iv : Str → Option Int) : List Mark → List Mark → Bool
  | [], [] => true
  | m :: ms, m' :: ms' => m.eq iv m' && marksEq iv ms ms'
  | _, _ => false

/-- All fields but `content`. -/
def Hd.eq (iv : Str → Option Int) (a b : Hd) : Bool :=
  decide (a.cls = b.cls) && a.type.eq iv b.type && optEq iv a.version b.version && optEq iv a.text b.text &&
    slotEq iv (AttrsObj.eq iv) a.attrs b.attrs && slotEq iv (marksEq iv) a.marks b.marks

mutual
/-- Nodes (mark_or_node.py:206). -/
def Node.eq (iv : Str → Option Int) : Node → Node → Bool
  | .mk hd c, n => hd.eq iv n.hd && contentEq iv c n.content

/-- The `content` field. -/
def contentEq (iv : Str → Option Int) : Slot (List Node) → Slot (List Node) → Bool
  | .absent, s => match s with | .absent => true | _ => false
  | .opt, s => match s with | .opt => true | _ => false
  | .raw v, s => match s with | .raw w => v.eq iv w | _ => false
  | .val l, s => match s with | .val m => nodesEq iv l m | _ => false

/-- Lists of nodes. -/
def nodesEq (iv : Str → Option Int) : List Node → List Node → Bool
  | [], m => m.isEmpty
  | n :: l, m => match m with | n' :: m => n.eq iv n' && nodesEq iv l m | [] => false
end

end Verif
