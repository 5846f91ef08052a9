import Verif.Lemmas.NodeGenSchema
/-!
# Lemmas about the node generator: what `main` writes
-/

namespace Verif.NodeGen
open Verif

/-- The names of a definition, whatever happens to the schema. -/
def namesFor (defs : Defs) (name : Str) : Except PyErr Names := (namesOf defs name).map (·.1)

theorem namesOf_eqv {defs defs' : Defs} {name : Str} {n : Names} (h : namesOf defs name = .ok (n, defs')) : Eqv defs defs' := by
  rw [namesOf] at h
  simp only [bind, Except.bind, pure, Except.pure] at h
  split at h
  · cases ht : typeEnum defs name with
    | error e => rw [ht] at h; simp at h
    | ok x => rw [ht] at h; simp at h; rw [← h.2]; exact typeEnum_eqv (e := x.1) (by rw [ht])
  · split at h
    · cases ht : typeEnum defs name with
      | error e => rw [ht] at h; simp at h
      | ok x => rw [ht] at h; simp at h; rw [← h.2]; exact typeEnum_eqv (e := x.1) (by rw [ht])
    · simp at h

theorem namesFor_eq (defs : Defs) (name : Str) : namesFor defs name =
    if Analyze.endsWith name "_mark".toList then (enumFor defs name).map (mkNames "mark".toList "Mark".toList name (chop name))
    else if Analyze.endsWith name "_node".toList then (enumFor defs name).map (mkNames "node".toList "Node".toList name (chop name))
    else .error .valueError := by
  rw [namesFor, namesOf]
  simp only [bind, Except.bind, pure, Except.pure, enumFor]
  split
  · cases typeEnum defs name <;> rfl
  · split
    · cases typeEnum defs name <;> rfl
    · rfl

theorem Eqv.names {defs defs' : Defs} (h : Eqv defs defs') (name : Str) : namesFor defs' name = namesFor defs name := by
  rw [namesFor_eq, namesFor_eq, h.enum]

/-- The text of a module. -/
def textOf (env : Env) : Kind → Names → Info → Str
  | .mark, n, i => markText env n i
  | .node, n, i => nodeText env n i

/-- What is generated for one definition: names and text. -/
def alone (env : Env) (k : Kind) (defs : Defs) (name : Str) : Except PyErr (Names × Str) :=
  match namesFor defs name with
  | .error e => .error e
  | .ok n => match infoFor defs name with
    | .error e => .error e
    | .ok i => .ok (n, textOf env k n i)

theorem Eqv.alone {env : Env} {k : Kind} {defs defs' : Defs} (h : Eqv defs defs') (name : Str) :
    alone env k defs' name = NodeGen.alone env k defs name := by
  rw [NodeGen.alone, NodeGen.alone, h.names, h.info]

theorem genFile_eq (env : Env) (k : Kind) (defs : Defs) (name : Str) :
    (genFile env k defs name).map (fun r => (r.1, r.2.1)) = alone env k defs name ∧
      ∀ r, genFile env k defs name = .ok r → Eqv defs r.2.2 := by
  rw [genFile, alone, namesFor]
  simp only [bind, Except.bind, pure, Except.pure]
  cases hn : namesOf defs name with
  | error e => exact ⟨rfl, by simp⟩
  | ok x =>
    obtain ⟨n, defs1⟩ := x
    have e1 := namesOf_eqv hn
    simp only [Except.map]
    rw [← e1.info name, infoFor]
    cases hi : extract defs1 name with
    | error e => exact ⟨rfl, by simp⟩
    | ok y =>
      obtain ⟨i, defs2⟩ := y
      have e2 := extract_eqv hi
      cases k <;> exact ⟨rfl, by rintro _ ⟨⟩; exact e1.trans e2⟩

/-- The files written for a list of definitions, up to the first that cannot be generated. -/
def written (env : Env) (k : Kind) (defs : Defs) : List Str → List Act × Except PyErr (List Names)
  | [] => ([], .ok [])
  | name :: l =>
    match alone env k defs name with
    | .error e => ([], .error e)
    | .ok (n, content) =>
      (.write (fileName n) content :: (written env k defs l).1, (written env k defs l).2.map (n :: ·))

theorem genFiles_eq (env : Env) (k : Kind) {defs defs' : Defs} (h : Eqv defs defs') (l : List Str) :
    (genFiles env k defs' l).1 = (written env k defs l).1 ∧
    (genFiles env k defs' l).2.map (·.1) = (written env k defs l).2 ∧
    ∀ r, (genFiles env k defs' l).2 = .ok r → Eqv defs r.2 := by
  induction l generalizing defs' with
  | nil => exact ⟨rfl, rfl, by rintro _ ⟨⟩; exact h⟩
  | cons name l ih =>
    rw [genFiles, written]
    obtain ⟨h1, h2⟩ := genFile_eq env k defs' name
    rw [h.alone] at h1
    rw [← h1]
    cases hg : genFile env k defs' name with
    | error e => exact ⟨rfl, rfl, by simp⟩
    | ok r =>
      obtain ⟨n, content, defs1⟩ := r
      obtain ⟨i1, i2, i3⟩ := ih (h.trans (h2 _ hg))
      simp only [Except.map]
      refine ⟨by rw [i1], ?_, ?_⟩
      · rw [← i2]
        cases (genFiles env k defs1 l).2 <;> rfl
      · intro r hr
        cases hx : (genFiles env k defs1 l).2 with
        | error e => rw [hx] at hr; simp at hr
        | ok y => rw [hx] at hr; simp at hr; subst hr; exact i3 y hx

theorem Eqv.stub {defs defs' : Defs} (h : Eqv defs defs') (k : Kind) (n : Names) : stubAct k defs' n = stubAct k defs n := by
  have : ∀ s, (namesOf defs' s).map (fun r => stubText k r.1) = (namesOf defs s).map (fun r => stubText k r.1) := by
    intro s
    have := h.names s
    rw [namesFor, namesFor] at this
    have e : ∀ d, (namesOf d s).map (fun r => stubText k r.1) = ((namesOf d s).map (·.1)).map (stubText k) := by
      intro d; cases namesOf d s <;> rfl
    rw [e, e, this]
  cases k <;> simp only [stubAct, this]

theorem Eqv.markDefs {defs defs' : Defs} (h : Eqv defs defs') : markDefs defs' = NodeGen.markDefs defs := by
  have : defs'.map (fun p => p.1.toList) = defs.map fun p => p.1.toList := by
    simpa [List.map_map, Function.comp_def] using congrArg (List.map String.toList) h.keys
  rw [NodeGen.markDefs, NodeGen.markDefs, this]

theorem Eqv.nodeDefs {defs defs' : Defs} (h : Eqv defs defs') : nodeDefs defs' = NodeGen.nodeDefs defs := by
  have : defs'.map (fun p => p.1.toList) = defs.map fun p => p.1.toList := by
    simpa [List.map_map, Function.comp_def] using congrArg (List.map String.toList) h.keys
  rw [NodeGen.nodeDefs, NodeGen.nodeDefs, this]

theorem Eqv.written {env : Env} {k : Kind} {defs defs' : Defs} (h : Eqv defs defs') (l : List Str) :
    written env k defs' l = NodeGen.written env k defs l := by
  induction l with
  | nil => rfl
  | cons n l ih => rw [NodeGen.written, NodeGen.written, h.alone, ih]

/-- `plan` without the changes of the schema. -/
def purePlan (env : Env) (defs : Defs) : List Act × Option PyErr :=
  match (written env .mark defs (markDefs defs)).2 with
  | .error e => ((written env .mark defs (markDefs defs)).1, some e)
  | .ok ms =>
    match (written env .node defs (nodeDefs defs)).2 with
    | .error e => ((written env .mark defs (markDefs defs)).1 ++ (written env .node defs (nodeDefs defs)).1, some e)
    | .ok ns =>
      ((written env .mark defs (markDefs defs)).1 ++ (written env .node defs (nodeDefs defs)).1 ++
        [.write "parse.py".toList (parseText env ms ns)] ++ ms.map (stubAct .mark defs) ++ ns.map (stubAct .node defs), none)

theorem plan_eq (env : Env) (defs : Defs) : plan env defs = purePlan env defs := by
  obtain ⟨m1, m2, m3⟩ := genFiles_eq env .mark (Eqv.refl defs) (markDefs defs)
  rw [plan, purePlan, ← m2, ← m1]
  cases hm : (genFiles env .mark defs (markDefs defs)).2 with
  | error e => rfl
  | ok x =>
    obtain ⟨ms, defs1⟩ := x
    obtain ⟨n1, n2, n3⟩ := genFiles_eq env .node (m3 _ hm) (nodeDefs defs)
    simp only [Except.map]
    rw [← n2, ← n1]
    cases hn : (genFiles env .node defs1 (nodeDefs defs)).2 with
    | error e => rfl
    | ok y =>
      obtain ⟨ns, defs2⟩ := y
      have e := n3 _ hn
      simp only [Except.map]
      rw [List.map_congr_left (fun n _ => e.stub .mark n), List.map_congr_left (fun n _ => e.stub .node n)]

theorem schemaAfter_eqv {env : Env} {defs defs' : Defs} (h : schemaAfter env defs = some defs') : Eqv defs defs' := by
  obtain ⟨-, -, m3⟩ := genFiles_eq env .mark (Eqv.refl defs) (markDefs defs)
  rw [schemaAfter] at h
  cases hm : (genFiles env .mark defs (markDefs defs)).2 with
  | error e => rw [hm] at h; simp at h
  | ok x =>
    obtain ⟨ms, defs1⟩ := x
    obtain ⟨-, -, n3⟩ := genFiles_eq env .node (m3 _ hm) (nodeDefs defs)
    rw [hm] at h
    simp only at h
    cases hn : (genFiles env .node defs1 (nodeDefs defs)).2 with
    | error e => rw [hn] at h; simp at h
    | ok y => rw [hn] at h; simp at h; subst h; exact n3 _ hn

theorem Eqv.plan {env : Env} {defs defs' : Defs} (h : Eqv defs defs') : plan env defs' = NodeGen.plan env defs := by
  rw [plan_eq, plan_eq, purePlan, purePlan, h.markDefs, h.nodeDefs, h.written, h.written]
  have e : ∀ k, stubAct k defs' = stubAct k defs := fun k => funext fun n => h.stub k n
  rw [e, e]

end Verif.NodeGen
