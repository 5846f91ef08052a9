import Verif.Model.Settings
import Verif.Lemmas.Samples
/-!
# C89: the setting changes during a parse
-/

namespace Verif.Props
open Verif

/-- The warnings that are logged if the setting is `s t` for the first of them, `s (t + 1)` for the second, .. -/
def loggedFrom (s : Nat → Bool) : Nat → List Warn → List Warn
  | _, [] => []
  | t, w :: ws => if s t then w :: loggedFrom s (t + 1) ws else loggedFrom s (t + 1) ws

theorem loggedFrom_append (s : Nat → Bool) (a b : List Warn) : ∀ t,
    loggedFrom s t (a ++ b) = loggedFrom s t a ++ loggedFrom s (t + a.length) b := by
  induction a with
  | nil => exact fun _ => rfl
  | cons w a ih =>
    intro t
    rw [List.cons_append, loggedFrom, loggedFrom, ih (t + 1), List.length_cons,
      show t + 1 + a.length = t + (a.length + 1) by omega]
    split <;> rfl

/-- `x` is the parse `y` under the schedule `s`: the same result, and the warnings that the schedule lets through. -/
def Follows {α : Type} (s : Nat → Bool) (x : Timed α) (y : Res α) : Prop :=
  ∀ t, x t = (⟨loggedFrom s t y.log, y.out⟩, t + y.log.length)

theorem follows_pure {α : Type} (s : Nat → Bool) (x : Except PyErr α) : Follows s (.pure (.ofExcept x)) (.ofExcept x) := fun _ => rfl

theorem follows_bind {α β : Type} {s : Nat → Bool} {x : Timed α} {y : Res α} {f : α → Timed β} {g : α → Res β} (h : Follows s x y)
    (hf : ∀ a, Follows s (f a) (g a)) : Follows s (x.bind f) (y.bind g) := by
  intro t
  unfold Timed.bind Res.bind
  rw [h t]
  dsimp only
  cases y.out with
  | error e => rfl
  | ok a =>
    dsimp only
    rw [hf a, loggedFrom_append, List.length_append]
    simp only [Prod.mk.injEq, true_and]
    omega

theorem follows_map {α β : Type} {s : Nat → Bool} {x : Timed α} {y : Res α} (g : α → β) (h : Follows s x y) : Follows s (x.map g) (y.map g) :=
  follows_bind h fun _ _ => rfl

theorem follows_skip {α : Type} {s : Nat → Bool} {x : Timed α} {y : Res α} (h : Follows s x y) :
    Follows s (x.skip s) (y.skipUnimplemented true) := by
  intro t
  unfold Timed.skip Res.skipUnimplemented
  rw [h t]
  dsimp only
  cases y.out with
  | ok a => rfl
  | error e =>
    cases e with
    | unimplementedType ty c =>
      dsimp only
      rw [if_pos rfl, loggedFrom_append, List.length_append]
      rfl
    | _ => rfl

theorem follows_marks (s : Nat → Bool) (l : List Val) : Follows s (timedMarks s l) (parseMarks true l) := by
  induction l with
  | nil => exact fun _ => rfl
  | cons v l ih =>
    rw [timedMarks, parseMarks]
    exact follows_bind (follows_skip (follows_pure _ _)) fun _ => follows_map _ ih

theorem follows_marksStep (s : Nat → Bool) (d : List (String × Val)) : Follows s (timedMarksStep s d) (marksStep true d) := by
  unfold timedMarksStep marksStep
  cases lookupKey d "marks" with
  | none => exact fun _ => rfl
  | some v =>
    cases v with
    | list l => exact follows_map _ (follows_marks s l)
    | _ => exact fun _ => rfl

theorem follows_fromDict (s : Nat → Bool) (c : NodeCls) (d : List (String × Val)) {x : Timed (Option (Slot (List Node)))}
    {y : Res (Option (Slot (List Node)))} (h : Follows s x y) : Follows s (timedNodeFromDict s c d x) (nodeFromDict true c d y) := by
  unfold timedNodeFromDict nodeFromDict
  exact follows_bind (follows_pure _ _) fun _ => follows_bind h fun _ => follows_bind (follows_marksStep s d) fun _ =>
    follows_bind (follows_pure _ _) fun _ _ => rfl

mutual
theorem follows_node (s : Nat → Bool) : ∀ v : Val, Follows s (timedNode s v) (parseNode true v)
  | .dict d => by
    rw [timedNode, parseNode]
    cases lookupKey d "type" with
    | none => exact fun _ => rfl
    | some t =>
      dsimp only
      cases registryLookup nodeRegistry t with
      | error x => exact fun _ => rfl
      | ok o =>
        cases o with
        | none => exact fun _ => rfl
        | some c => exact follows_fromDict s c d (follows_content s d)
  | .none | .bool _ | .int _ | .float _ | .str _ | .list _ | .opt => by
    all_goals
      rw [timedNode, parseNode]
      · exact fun _ => rfl
      all_goals nofun

theorem follows_content (s : Nat → Bool) : ∀ d : List (String × Val), Follows s (timedContent s d) (contentStep true d)
  | [] => by rw [timedContent, contentStep]; exact fun _ => rfl
  | (k, v) :: rest => by
    cases v with
    | list l =>
      rw [timedContent, contentStep]
      split
      · exact follows_map _ (follows_nodes s l)
      · exact follows_content s rest
    | _ =>
      rw [timedContent, contentStep]
      split
      · exact fun _ => rfl
      · exact follows_content s rest
      all_goals nofun

theorem follows_nodes (s : Nat → Bool) : ∀ l : List Val, Follows s (timedNodes s l) (parseNodes true l)
  | [] => by rw [timedNodes, parseNodes]; exact fun _ => rfl
  | v :: vs => by
    rw [timedNodes, parseNodes]
    exact follows_bind (follows_skip (follows_node s v)) fun _ => follows_map _ (follows_nodes s vs)
end

theorem loggedFrom_eq (s : Nat → Bool) (l : List Warn) : ∀ t,
    loggedFrom s t l = ((l.zipIdx t).filter fun p => s p.2).map (·.1) := by
  induction l with
  | nil => exact fun _ => rfl
  | cons w l ih =>
    intro t
    rw [loggedFrom, List.zipIdx_cons, List.filter_cons, ih]
    split <;> rfl

/-- C89: the setting may change at any moment of a parse: the result is the same, and exactly those of the warnings are logged during whose
skipping it was `True`: the `i`-th iff `s i`. -/
theorem C89_parse_node (s : Nat → Bool) (v : Val) :
    (timedNode s v 0).1.out = (parseNode true v).out ∧
      (timedNode s v 0).1.log = ((parseNode true v).log.zipIdx.filter fun p => s p.2).map (·.1) := by
  rw [follows_node s v 0]
  exact ⟨rfl, loggedFrom_eq s _ 0⟩

/-- C89: the same for `NodeDoc.from_dict` and every other class. -/
theorem C89_from_dict (s : Nat → Bool) (c : NodeCls) (v : Val) :
    (c.timedFromDict s v 0).1.out = (c.fromDict true v).out ∧
      (c.timedFromDict s v 0).1.log = ((c.fromDict true v).log.zipIdx.filter fun p => s p.2).map (·.1) := by
  have h : Follows s (c.timedFromDict s v) (c.fromDict true v) := by
    unfold NodeCls.timedFromDict NodeCls.fromDict
    cases v with
    | dict d => exact follows_fromDict s c d (follows_content s d)
    | _ => exact fun _ => rfl
  rw [h 0]
  exact ⟨rfl, loggedFrom_eq s _ 0⟩

/-- Three unknown parts: a node, a mark, a node. -/
def settingsJson : Val :=
  Samples.j "doc" [("version", .int 1), ("content", .list [Samples.j "unknown" [],
    Samples.j "paragraph" [("content", .list [Samples.j "text" [("text", Samples.str "a"), ("marks", .list [Samples.j "blink" []])]])],
    Samples.j "other" []])]

/-- Switched off after the first warning and on again before the third. -/
example : (timedNode (fun t => t != 1) settingsJson 0).1.log.map (·.category) = ["node", "node"] := rfl
example : (parseNode true settingsJson).log.map (·.category) = ["node", "mark", "node"] := rfl
example := C89_parse_node (fun t => t != 1) settingsJson
example := C89_from_dict (fun t => t != 1) .doc settingsJson

end Verif.Props
