import Verif.Model.Interrupt
import Verif.Lemmas.Samples
/-!
# C88: parsing interrupted by an exception
-/

namespace Verif.Props
open Verif
set_option linter.unusedSectionVars false

/-- The undisturbed outcome with all its warnings; or the exception, after some of the warnings of the undisturbed run. -/
def AllOrNothing {α : Type} (e : PyErr) (x y : Res α) : Prop := y = x ∨ (y.out = .error e ∧ y.log <+: x.log)

theorem allOrNothing_refl {α : Type} (e : PyErr) (x : Res α) : AllOrNothing e x x := .inl rfl

theorem allOrNothing_err {α : Type} (e : PyErr) (x : Res α) : AllOrNothing e x (.err e) := .inr ⟨rfl, List.nil_prefix⟩

theorem allOrNothing_bind {α β : Type} {e : PyErr} {x y : Res α} {f g : α → Res β} (h : AllOrNothing e x y)
    (hf : ∀ a, AllOrNothing e (f a) (g a)) : AllOrNothing e (x.bind f) (y.bind g) := by
  rcases h with rfl | ⟨h1, h2⟩
  · unfold Res.bind
    cases h : y.out with
    | error z => exact .inl rfl
    | ok a =>
      dsimp only
      rcases hf a with h' | ⟨h1, h2⟩
      · rw [h']; exact .inl rfl
      · exact .inr ⟨h1, (List.prefix_append_right_inj _).mpr h2⟩
  · unfold Res.bind
    rw [h1]
    refine .inr ⟨rfl, ?_⟩
    cases x.out with
    | error z => exact h2
    | ok a => exact h2.trans (List.prefix_append _ _)

theorem allOrNothing_map {α β : Type} {e : PyErr} {x y : Res α} (g : α → β) (h : AllOrNothing e x y) :
    AllOrNothing e (x.map g) (y.map g) := allOrNothing_bind h fun _ => .inl rfl

theorem allOrNothing_skip {α : Type} {e : PyErr} (he : ∀ t c, e ≠ .unimplementedType t c) {x y : Res α} (w : Bool)
    (h : AllOrNothing e x y) : AllOrNothing e (x.skipUnimplemented w) (y.skipUnimplemented w) := by
  rcases h with rfl | ⟨h1, h2⟩
  · exact .inl rfl
  · have hy : y.skipUnimplemented w = ⟨y.log, .error e⟩ := by
      unfold Res.skipUnimplemented
      rw [h1]
      cases e with
      | unimplementedType t c => exact absurd rfl (he t c)
      | _ => rfl
    rw [hy]
    refine .inr ⟨rfl, ?_⟩
    unfold Res.skipUnimplemented
    split
    · exact h2
    · exact h2.trans (List.prefix_append _ _)
    · exact h2

theorem marks_allOrNothing {e : PyErr} (he : ∀ t c, e ≠ .unimplementedType t c) (w : Bool) (cutM : Nat → Bool) (l : List Val) :
    ∀ i, AllOrNothing e (parseMarks w l) (cutParseMarks w e cutM i l) := by
  induction l with
  | nil => exact fun _ => .inl rfl
  | cons v l ih =>
    intro i
    rw [parseMarks, cutParseMarks]
    refine allOrNothing_bind (allOrNothing_skip he w ?_) fun o => allOrNothing_map _ (ih (i + 1))
    split
    · exact allOrNothing_err _ _
    · exact .inl rfl

theorem marksStep_allOrNothing {e : PyErr} (he : ∀ t c, e ≠ .unimplementedType t c) (w : Bool) (cutM : Nat → Bool) (d : List (String × Val)) :
    AllOrNothing e (marksStep w d) (cutMarksStep w e cutM d) := by
  unfold marksStep cutMarksStep
  cases h : lookupKey d "marks" with
  | none => exact .inl rfl
  | some v =>
    cases v with
    | list l => exact allOrNothing_map _ (marks_allOrNothing he w cutM l 0)
    | _ => exact .inl rfl

section
variable {e : PyErr} (he : ∀ t c, e ≠ .unimplementedType t c) (w : Bool) (cut : List Nat → Bool) (cutM : List Nat → Nat → Bool)
include he

mutual
theorem node_allOrNothing (place : List Nat) : ∀ v : Val, AllOrNothing e (parseNode w v) (cutParseNode w e cut cutM place v)
  | .dict d => by
    rw [parseNode, cutParseNode]
    by_cases hc : cut place = true
    · rw [if_pos hc]; exact allOrNothing_err _ _
    · rw [if_neg hc]
      cases lookupKey d "type" with
      | none => exact .inl rfl
      | some t =>
        dsimp only
        cases registryLookup nodeRegistry t with
        | error x => exact .inl rfl
        | ok o =>
          cases o with
          | none => exact .inl rfl
          | some c =>
            dsimp only
            unfold nodeFromDict cutNodeFromDict
            exact allOrNothing_bind (.inl rfl) fun _ => allOrNothing_bind (content_allOrNothing place d) fun _ =>
              allOrNothing_bind (marksStep_allOrNothing he w _ d) fun _ => .inl rfl
  | .none | .bool _ | .int _ | .float _ | .str _ | .list _ | .opt => by
    all_goals
      rw [parseNode, cutParseNode]
      split
      · exact allOrNothing_err _ _
      · exact .inl rfl
      all_goals nofun

theorem content_allOrNothing (place : List Nat) : ∀ d : List (String × Val),
    AllOrNothing e (contentStep w d) (cutContentStep w e cut cutM place d)
  | [] => by rw [contentStep, cutContentStep]; exact .inl rfl
  | (k, v) :: rest => by
    cases v with
    | list l =>
      rw [contentStep, cutContentStep]
      split
      · exact allOrNothing_map _ (nodes_allOrNothing place 0 l)
      · exact content_allOrNothing place rest
    | _ =>
      rw [contentStep, cutContentStep]
      split
      · exact .inl rfl
      · exact content_allOrNothing place rest
      all_goals nofun

theorem nodes_allOrNothing (place : List Nat) (i : Nat) : ∀ l : List Val,
    AllOrNothing e (parseNodes w l) (cutParseNodes w e cut cutM place i l)
  | [] => by rw [parseNodes, cutParseNodes]; exact .inl rfl
  | v :: vs => by
    rw [parseNodes, cutParseNodes]
    exact allOrNothing_bind (allOrNothing_skip he w (node_allOrNothing (place ++ [i]) v)) fun _ =>
      allOrNothing_map _ (nodes_allOrNothing place (i + 1) vs)
end
end

/-- C88: parsing is all or nothing. Whatever interrupts it and wherever: either the exception comes out, after some of the warnings that are
logged otherwise, or the outcome is the undisturbed one with all its warnings. No tree with missing parts is returned. -/
theorem C88_all_or_nothing (w : Bool) (e : PyErr) (he : ∀ t c, e ≠ .unimplementedType t c) (cut : List Nat → Bool)
    (cutM : List Nat → Nat → Bool) (v : Val) :
    cutParseNode w e cut cutM [] v = parseNode w v ∨
      ((cutParseNode w e cut cutM [] v).out = .error e ∧ (cutParseNode w e cut cutM [] v).log <+: (parseNode w v).log) :=
  node_allOrNothing he w cut cutM [] v

/-- C88: the same for `NodeDoc.from_dict` and every other class. -/
theorem C88_from_dict (w : Bool) (e : PyErr) (he : ∀ t c, e ≠ .unimplementedType t c) (cut : List Nat → Bool)
    (cutM : List Nat → Nat → Bool) (c : NodeCls) (v : Val) :
    c.cutFromDict w e cut cutM v = c.fromDict w v ∨
      ((c.cutFromDict w e cut cutM v).out = .error e ∧ (c.cutFromDict w e cut cutM v).log <+: (c.fromDict w v).log) := by
  have key : ∀ x : PyErr, (if cut [] = true then Res.err e else .err x : Res Node) = .err x ∨
      ((if cut [] = true then Res.err e else .err x : Res Node).out = .error e ∧
        (if cut [] = true then Res.err e else .err x : Res Node).log <+: (Res.err x : Res Node).log) := by
    intro x
    split
    · exact .inr ⟨rfl, List.nil_prefix⟩
    · exact .inl rfl
  unfold NodeCls.cutFromDict NodeCls.fromDict
  cases v with
  | dict d =>
    dsimp only
    by_cases hc : cut [] = true
    · rw [if_pos hc]; exact allOrNothing_err _ _
    · rw [if_neg hc]
      unfold nodeFromDict cutNodeFromDict
      exact allOrNothing_bind (.inl rfl) fun _ => allOrNothing_bind (content_allOrNothing he w cut cutM [] d) fun _ =>
        allOrNothing_bind (marksStep_allOrNothing he w _ d) fun _ => .inl rfl
  | _ => exact key .typeError

theorem marks_undisturbed (w : Bool) (e : PyErr) (l : List Val) : ∀ i, cutParseMarks w e (fun _ => false) i l = parseMarks w l := by
  induction l with
  | nil => exact fun _ => rfl
  | cons v l ih => intro i; rw [parseMarks, cutParseMarks, ih]; rfl

theorem marksStep_undisturbed (w : Bool) (e : PyErr) (d : List (String × Val)) : cutMarksStep w e (fun _ => false) d = marksStep w d := by
  unfold marksStep cutMarksStep
  simp only [marks_undisturbed]
  rfl

mutual
/-- C88: a parse in which nothing is interrupted is `parse_node`. -/
theorem C88_undisturbed (w : Bool) (e : PyErr) (place : List Nat) : ∀ v : Val,
    cutParseNode w e (fun _ => false) (fun _ _ => false) place v = parseNode w v
  | .dict d => by
    rw [parseNode, cutParseNode, content_undisturbed w e place d, marksStep_undisturbed]
    rfl
  | .none | .bool _ | .int _ | .float _ | .str _ | .list _ | .opt => by
    all_goals
      rw [parseNode, cutParseNode]
      · rfl
      all_goals nofun

theorem content_undisturbed (w : Bool) (e : PyErr) (place : List Nat) : ∀ d : List (String × Val),
    cutContentStep w e (fun _ => false) (fun _ _ => false) place d = contentStep w d
  | [] => by rw [contentStep, cutContentStep]
  | (k, v) :: rest => by
    cases v with
    | list l => rw [contentStep, cutContentStep, nodes_undisturbed w e place 0 l, content_undisturbed w e place rest]
    | _ =>
      rw [contentStep, cutContentStep, content_undisturbed w e place rest]
      all_goals nofun

theorem nodes_undisturbed (w : Bool) (e : PyErr) (place : List Nat) (i : Nat) : ∀ l : List Val,
    cutParseNodes w e (fun _ => false) (fun _ _ => false) place i l = parseNodes w l
  | [] => by rw [parseNodes, cutParseNodes]
  | v :: vs => by
    rw [parseNodes, cutParseNodes, C88_undisturbed w e (place ++ [i]) v, nodes_undisturbed w e place (i + 1) vs]
end

/-- An unknown child, then a paragraph with an unknown mark. -/
def cutJson : Val :=
  Samples.j "doc" [("version", .int 1), ("content", .list [Samples.j "unknown" [],
    Samples.j "paragraph" [("content", .list [Samples.j "text" [("text", Samples.str "a"), ("marks", .list [Samples.j "blink" []])]])]])]

example : (parseNode true cutJson).log.length = 2 := rfl
/-- Interrupted at the text: the exception, after the first warning only. -/
example : (cutParseNode true .typeError (fun p => decide (p = [1, 0])) (fun _ _ => false) [] cutJson).log.length = 1 ∧
    (cutParseNode true .typeError (fun p => decide (p = [1, 0])) (fun _ _ => false) [] cutJson).out = .error .typeError := ⟨rfl, rfl⟩
example := C88_all_or_nothing true .typeError nofun (fun p => decide (p = [1, 0])) (fun _ _ => false) cutJson
example := C88_from_dict true .typeError nofun (fun p => decide (p = [1, 0])) (fun _ _ => false) .doc cutJson

end Verif.Props
