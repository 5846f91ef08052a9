import Verif.Model.Markdown
/-!
# Specification: the size of a document
-/

namespace Verif.Spec.Size
open Verif

/-- The characters `str` shows of a value; nothing for an unset one. -/
def valSize (env : Env) (v : Val) : Nat := if v.isOpt then 0 else (v.pyStr env).length

def attrsSize (env : Env) : Slot AttrsObj → Nat
  | .val o => (o.fields.map fun f => valSize env f.2).sum
  | _ => 0

def marksSize (env : Env) : Slot (List Mark) → Nat
  | .val ms => (ms.map fun m => 1 + attrsSize env m.attrs).sum
  | _ => 0

/-- A node without its content: one, and the characters of its text, its attributes and its marks. -/
def headSize (env : Env) (hd : Hd) : Nat :=
  1 + (match hd.text with | some v => valSize env v | none => 0) + attrsSize env hd.attrs + marksSize env hd.marks

mutual
/-- The number of nodes, marks and characters in a document. -/
def nodeSize (env : Env) : Node → Nat
  | .mk hd content => headSize env hd + slotSize env content

def slotSize (env : Env) : Slot (List Node) → Nat
  | .val l => listSize env l
  | _ => 0

def listSize (env : Env) : List Node → Nat
  | [] => 0
  | n :: ns => nodeSize env n + listSize env ns
end

/-- `attrs.level`, if it is a number, is at most `L`. -/
def LevelAtMost (L : Nat) (a : Slot AttrsObj) : Prop :=
  ∀ o v n, a = .val o → lookupKey o.fields "level" = some v → v.asInt? = some n → n ≤ L

/-- The levels of a heading and of the indentations of a node. -/
def HeadLevels (L : Nat) (hd : Hd) : Prop :=
  (hd.cls = .heading → LevelAtMost L hd.attrs) ∧
  ∀ ms, hd.marks = .val ms → ∀ m ∈ ms, m.cls = .indentation → LevelAtMost L m.attrs

mutual
/-- No heading and no indentation in the document is deeper than `L`. -/
def Levels (L : Nat) : Node → Prop
  | .mk hd content => HeadLevels L hd ∧ SlotLevels L content

def SlotLevels (L : Nat) : Slot (List Node) → Prop
  | .val l => ListLevels L l
  | _ => True

def ListLevels (L : Nat) : List Node → Prop
  | [] => True
  | n :: ns => Levels L n ∧ ListLevels L ns
end

end Verif.Spec.Size
