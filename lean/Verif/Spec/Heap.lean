import Mathlib.Data.List.Forall2
import Verif.Model.Heap
/-!
# Specification: aliasing and what a heap value stands for
-/

namespace Verif.Spec
open Verif

/-- The object at address `a` can be reached from `v`. -/
inductive Reach (h : Heap) : HV → Nat → Prop where
  | here (a : Nat) : Reach h (.ref a) a
  | step {a b : Nat} {o : HObj} {e : String × HV} (ho : h[a]? = some o) (he : e ∈ o.items)
      (hr : Reach h e.2 b) : Reach h (.ref a) b

/-- What can be seen of a value by following references `n` times. -/
inductive Obs where
  | cut
  | imm (i : Imm)
  | dangling
  | obj (kind : Kind) (items : List (String × Obs))

def observe : Nat → Heap → HV → Obs
  | 0, _, _ => .cut
  | _ + 1, _, .imm i => .imm i
  | n + 1, h, .ref a =>
    match h[a]? with
    | none => .dangling
    | some o => .obj o.kind (o.items.map fun e => (e.1, observe n h e.2))

/-! In the following, `P` restricts the addresses of the objects involved. -/

mutual
/-- `x` is the JSON value `v` in heap `h`: possibly with shared sub-objects, but without cycles (a
value is a finite tree). -/
def Json (P : Nat → Prop) (h : Heap) : Val → HV → Prop
  | .list vs, x => ∃ a items, x = .ref a ∧ P a ∧ h[a]? = some ⟨.list, items⟩ ∧ JsonList P h vs items
  | .dict d, x => ∃ a items, x = .ref a ∧ P a ∧ h[a]? = some ⟨.dict, items⟩ ∧ JsonDict P h d items
  | v, x => ∃ i, x = .imm i ∧ i.toVal = v

/-- The elements of a list. -/
def JsonList (P : Nat → Prop) (h : Heap) : List Val → List (String × HV) → Prop
  | [], items => items = []
  | v :: vs, items => ∃ e rest, items = e :: rest ∧ Json P h v e.2 ∧ JsonList P h vs rest

/-- The entries of a dict. -/
def JsonDict (P : Nat → Prop) (h : Heap) : List (String × Val) → List (String × HV) → Prop
  | [], items => items = []
  | (k, v) :: d, items => ∃ x rest, items = (k, x) :: rest ∧ Json P h v x ∧ JsonDict P h d rest
end

/-- `x` is an attrs instance equal to `a`. -/
def IsAttrs (P : Nat → Prop) (h : Heap) (a : AttrsObj) (x : HV) : Prop :=
  ∃ p items, x = .ref p ∧ P p ∧ h[p]? = some ⟨.inst .attrs, items⟩ ∧ JsonDict P h a.fields items

/-- A plain attribute (or its absence). -/
def IsPlain (P : Nat → Prop) (h : Heap) (x : Option HV) : Option Val → Prop
  | none => x = none
  | some v => ∃ y, x = some y ∧ Json P h v y

/-- An attribute (or its absence) holds what the slot says. -/
def IsSlot {α : Type} (P : Nat → Prop) (h : Heap) (is : α → HV → Prop) (x : Option HV) : Slot α → Prop
  | .absent => x = none
  | .opt => x = some (.imm .opt)
  | .raw v => v ≠ .opt ∧ ∃ y, x = some y ∧ Json P h v y
  | .val a => ∃ y, x = some y ∧ is a y

/-- `x` is a mark instance equal to `m`. -/
def IsMark (P : Nat → Prop) (h : Heap) (m : Mark) (x : HV) : Prop :=
  ∃ p items, x = .ref p ∧ P p ∧ h[p]? = some ⟨.inst (.mark m.cls), items⟩ ∧
    items.map Prod.fst = m.cls.fields.map Field.name ∧
    IsPlain P h (itemGet items "type") (some m.type) ∧
    IsSlot P h (IsAttrs P h) (itemGet items "attrs") m.attrs

/-- `x` is a list object whose elements are the `as`, in order. -/
def IsList {α : Type} (P : Nat → Prop) (h : Heap) (is : α → HV → Prop) (as : List α) (x : HV) : Prop :=
  ∃ p items, x = .ref p ∧ P p ∧ h[p]? = some ⟨.list, items⟩ ∧
    List.Forall₂ (fun a (e : String × HV) => is a e.2) as items

/-- The attributes of a node instance other than `content`. -/
def IsHd (P : Nat → Prop) (h : Heap) (items : List (String × HV)) (hd : Hd) : Prop :=
  items.map Prod.fst = hd.cls.fields.map Field.name ∧
  IsPlain P h (itemGet items "type") (some hd.type) ∧
  IsPlain P h (itemGet items "version") hd.version ∧
  IsPlain P h (itemGet items "text") hd.text ∧
  IsSlot P h (IsAttrs P h) (itemGet items "attrs") hd.attrs ∧
  IsSlot P h (IsList P h (IsMark P h)) (itemGet items "marks") hd.marks

mutual
/-- `x` is a node instance equal to `n`. -/
def IsNode (P : Nat → Prop) (h : Heap) : Node → HV → Prop
  | .mk hd c, x => ∃ p items, x = .ref p ∧ P p ∧ h[p]? = some ⟨.inst (.node hd.cls), items⟩ ∧
      IsHd P h items hd ∧ IsContent P h c (itemGet items "content")

/-- The `content` attribute: `IsSlot` with `IsNode` for the elements. -/
def IsContent (P : Nat → Prop) (h : Heap) : Slot (List Node) → Option HV → Prop
  | .absent, x => x = none
  | .opt, x => x = some (.imm .opt)
  | .raw v, x => v ≠ .opt ∧ ∃ y, x = some y ∧ Json P h v y
  | .val ns, x => ∃ p items, x = some (.ref p) ∧ P p ∧ h[p]? = some ⟨.list, items⟩ ∧ AreNodes P h ns items

/-- The elements of a content list. -/
def AreNodes (P : Nat → Prop) (h : Heap) : List Node → List (String × HV) → Prop
  | [], items => items = []
  | n :: ns, items => ∃ e rest, items = e :: rest ∧ IsNode P h n e.2 ∧ AreNodes P h ns rest
end

mutual
/-- How deeply a value is nested. -/
def depth : Val → Nat
  | .list vs => depthList vs + 1
  | .dict d => depthDict d + 1
  | _ => 1

def depthList : List Val → Nat
  | [] => 0
  | v :: vs => max (depth v) (depthList vs)

def depthDict : List (String × Val) → Nat
  | [] => 0
  | (_, v) :: d => max (depth v) (depthDict d)
end

/-- How deeply what an `attrs` attribute holds is nested. -/
def depthAttrs : Slot AttrsObj → Nat
  | .raw v => depth v
  | .val a => depthDict a.fields + 1
  | _ => 0

/-- How deeply the objects a mark consists of are nested (the instance itself counts). -/
def depthMark (m : Mark) : Nat := max (depth m.type) (depthAttrs m.attrs) + 1

/-- The same for what a `marks` attribute holds. -/
def depthMarks : Slot (List Mark) → Nat
  | .raw v => depth v
  | .val ms => (ms.map depthMark).foldr max 0 + 1
  | _ => 0

/-- The same for the attributes of a node other than `content`. -/
def depthHd (hd : Hd) : Nat :=
  max (max (depth hd.type) (max ((hd.version.map depth).getD 0) ((hd.text.map depth).getD 0)))
    (max (depthAttrs hd.attrs) (depthMarks hd.marks))

mutual
/-- The same for a node. -/
def depthNode : Node → Nat
  | .mk hd c => max (depthHd hd) (depthContent c) + 1

def depthContent : Slot (List Node) → Nat
  | .raw v => depth v
  | .val ns => depthNodes ns + 1
  | _ => 0

def depthNodes : List Node → Nat
  | [] => 0
  | n :: ns => max (depthNode n) (depthNodes ns)
end

/-- No restriction. -/
def anywhere : Nat → Prop := fun _ => True

end Verif.Spec
