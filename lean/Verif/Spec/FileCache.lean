import Verif.Model.FileCache
/-!
# Vocabulary for histories of the file cache
-/

namespace Verif.Spec
open Verif Verif.FileCache

/-- What the server answers is a JSON object, sent as JSON text. -/
def ServesObjects (readFloat : Str → Str) (served : Val → Prop) : Prop :=
  ∀ v, served v → (∃ d, v = .dict d) ∧ ∃ text, Json.loads readFloat text = some v

/-- The process an event belongs to. -/
def eventProc : Event → Option Nat
  | .silent p => some p
  | .fetch p _ => some p
  | .ret p _ => some p
  | .raise p _ => some p
  | .crash p => some p
  | .delete => Option.none

/-- A history in which processes do not overlap: whenever a process does something, no other is in the middle of the
property (others may have been killed in the middle of it). -/
inductive OneAtATime (cfg : Cfg) (served : Val → Prop) (s₀ : Sys) : List Event → Sys → Prop
  | nil : OneAtATime cfg served s₀ [] s₀
  | snoc {tr : List Event} {s s' : Sys} {e : Event} : OneAtATime cfg served s₀ tr s → Step cfg served s e s' →
      (∀ p, eventProc e = some p → ∀ q, q ≠ p → (s.procs q).stage = .idle) → OneAtATime cfg served s₀ (tr ++ [e]) s'

/-- Nobody is in the middle of the property and nobody has its value yet. -/
def Quiet (s : Sys) : Prop := ∀ p, (s.procs p).stage = .idle ∧ (s.procs p).value = Option.none

/-- Nobody is in the middle of the property; processes may have its value already. -/
def Idle (s : Sys) : Prop := ∀ p, (s.procs p).stage = .idle

/-- How often process `p` has asked the server since it was started. -/
def asked (p : Nat) (tr : List Event) : Nat :=
  tr.foldl (fun n e => match e with
    | .fetch q _ => if q = p then n + 1 else n
    | .crash q => if q = p then 0 else n
    | _ => n) 0

end Verif.Spec
