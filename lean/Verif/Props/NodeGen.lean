import Verif.Lemmas.NodeGenPlan
import Verif.Lemmas.Analyze
import Verif.Lemmas.AnalyzeRefs
/-!
# C75, C76, C77: generating modules from the JSON schema

The script scripts/s02-nodes-code-gen/s1_gen_code.py, for every schema (any JSON value).
-/

namespace Verif.Props
open Verif Verif.NodeGen Verif.Spec.NodeGen

/-! ## C75: names -/

theorem endsWith_suffix (t : Str) (k : Kind) : Analyze.endsWith (t ++ suffix k) (suffix k) = true :=
  Analyze.endsWith_iff.2 ⟨t, rfl⟩

theorem node_not_mark (t : Str) : Analyze.endsWith (t ++ suffix .node) "_mark".toList = false := by
  rw [Bool.eq_false_iff]
  intro h
  obtain ⟨a, ha⟩ := Analyze.endsWith_iff.1 h
  have := congrArg (fun l => l.getLast?) ha
  simp [suffix] at this

theorem chop_suffix (t : Str) (k : Kind) : chop (t ++ suffix k) = t := by
  cases k <;> simp [chop, suffix]

theorem names_shape {defs defs' : Defs} {k : Kind} {t : Str} {n : Names} (h : namesOf defs (t ++ suffix k) = .ok (n, defs')) :
    n.defName = t ++ suffix k ∧ n.typeName = t ∧ n.moduleName = modulePrefix k ++ camelToSnake t ∧
      n.className = classPrefix k ++ snakeToPascal (camelToSnake t) ∧ typeEnum defs (t ++ suffix k) = .ok (n.typeEnum, defs') := by
  rw [namesOf] at h
  simp only [bind, Except.bind, pure, Except.pure] at h
  cases k with
  | mark =>
    rw [if_pos (show Analyze.endsWith (t ++ suffix .mark) "_mark".toList = true from endsWith_suffix t .mark)] at h
    cases he : typeEnum defs (t ++ suffix .mark) with
    | error e => rw [he] at h; cases h
    | ok x =>
      rw [he] at h
      obtain ⟨e, d⟩ := x
      simp only [Except.ok.injEq, Prod.mk.injEq] at h
      obtain ⟨rfl, rfl⟩ := h
      simp only [mkNames, chop_suffix]
      exact ⟨trivial, trivial, rfl, rfl, trivial⟩
  | node =>
    rw [if_neg (by rw [node_not_mark]; simp), if_pos (show Analyze.endsWith (t ++ suffix .node) "_node".toList = true from endsWith_suffix t .node)] at h
    cases he : typeEnum defs (t ++ suffix .node) with
    | error e => rw [he] at h; cases h
    | ok x =>
      rw [he] at h
      obtain ⟨e, d⟩ := x
      simp only [Except.ok.injEq, Prod.mk.injEq] at h
      obtain ⟨rfl, rfl⟩ := h
      simp only [mkNames, chop_suffix]
      exact ⟨trivial, trivial, rfl, rfl, trivial⟩

/-- The names of a definition: the type name in snake case and in Pascal case, by the local rule of `Spec.NodeGen` (the code uses
two regular expressions one after the other). -/
theorem C75_names {defs defs' : Defs} {k : Kind} {t : Str} {n : Names} (h : namesOf defs (t ++ suffix k) = .ok (n, defs')) :
    n.moduleName = modulePrefix k ++ snake t ∧ n.className = classPrefix k ++ pascal true (snake t) ∧ n.typeName = t := by
  obtain ⟨-, h1, h2, h3, -⟩ := names_shape h
  rw [h2, h3, camelToSnake_eq, snakeToPascal_eq]
  exact ⟨rfl, rfl, h1⟩

/-- `bulletList_node` of an empty schema. -/
example : ∃ n d, namesOf [] ("bulletList".toList ++ suffix .node) = .ok (n, d) ∧ n.moduleName = "node_bullet_list".toList ∧
    n.className = "NodeBulletList".toList := ⟨_, _, rfl, by decide, by decide⟩

/-- C75 as stated is false: two definitions of one schema with the same module and the same class. -/
theorem C75_false : ¬ ∀ (defs : Defs) (a b : Str), a ∈ nodeDefs defs → b ∈ nodeDefs defs → a ≠ b →
    ∀ n m d e, namesOf defs a = .ok (n, d) → namesOf defs b = .ok (m, e) → n.moduleName ≠ m.moduleName := by
  intro h
  refine h [("bulletList_node", .dict []), ("bullet_list_node", .dict [])] "bulletList_node".toList "bullet_list_node".toList
    (by decide +kernel) (by decide +kernel) (by decide) _ _ _ _ rfl rfl (by decide +kernel)

/-- What holds: two definitions share a module iff their type names are the same in snake case (and both are marks or both
nodes); and for type names in camelCase the module and the class are as the docstring says, and distinct. -/
theorem C75_partial {defs d e : Defs} {k l : Kind} {a b : Str} {n m : Names} (hn : namesOf defs (a ++ suffix k) = .ok (n, d))
    (hm : namesOf defs (b ++ suffix l) = .ok (m, e)) :
    (n.moduleName = m.moduleName ↔ k = l ∧ snake a = snake b) ∧
    (n.className = m.className ↔ k = l ∧ pascal true (snake a) = pascal true (snake b)) ∧
    (Camel a → n.className = classPrefix k ++ capFirst a) ∧
    (Camel a → Camel b → (n.moduleName = m.moduleName ↔ k = l ∧ a = b) ∧ (n.className = m.className ↔ k = l ∧ a = b)) := by
  obtain ⟨n1, n2, -⟩ := C75_names hn
  obtain ⟨m1, m2, -⟩ := C75_names hm
  have hp : ∀ (x y : Str) (k l : Kind), modulePrefix k ++ x = modulePrefix l ++ y ↔ k = l ∧ x = y := by
    intro x y k l
    cases k <;> cases l <;> simp [modulePrefix]
  have hc : ∀ (x y : Str) (k l : Kind), classPrefix k ++ x = classPrefix l ++ y ↔ k = l ∧ x = y := by
    intro x y k l
    cases k <;> cases l <;> simp [classPrefix]
  have camel : ∀ {a : Str}, Camel a → pascal true (snake a) = capFirst a := by
    intro a ha
    rw [← camelToSnake_eq, ← snakeToPascal_eq, camel_pascal ha]
  refine ⟨by rw [n1, m1, hp], by rw [n2, m2, hc], fun ha => by rw [n2, camel ha], fun ha hb => ⟨?_, ?_⟩⟩
  · rw [n1, m1, hp]
    refine and_congr_right fun _ => ⟨fun h => capFirst_inj ha hb ?_, fun h => by rw [h]⟩
    rw [← camel ha, ← camel hb, h]
  · rw [n2, m2, hc, camel ha, camel hb]
    exact and_congr_right fun _ => ⟨fun h => capFirst_inj ha hb h, fun h => by rw [h]⟩

/-- Two camelCase type names. -/
example : Camel "bulletList".toList ∧ Camel "inlineCard".toList ∧
    (∃ n d, namesOf [] ("bulletList".toList ++ suffix .node) = .ok (n, d)) ∧
    ∃ n d, namesOf [] ("inlineCard".toList ++ suffix .node) = .ok (n, d) := by
  have camel : ∀ s : Str, (∃ c t, s = c :: t ∧ c.isLower = true) →
      (s.all fun c => c.isLower || c.isUpper || c.isDigit) = true →
      ((s.zip s.tail).all fun p => !(p.1.isUpper && p.2.isUpper)) = true → Camel s := by
    intro s h1 h2 h3
    refine ⟨h1, fun c hc => ?_, ?_⟩
    · have := List.all_eq_true.1 h2 c hc
      simpa [or_assoc] using this
    · rintro a b l r rfl ⟨ha, hb⟩
      have : (a, b) ∈ (l ++ a :: b :: r).zip (l ++ a :: b :: r).tail := by
        clear h1 h2 h3
        induction l with
        | nil => simp
        | cons x l ih =>
          cases l with
          | nil => simp
          | cons y l => simp only [List.cons_append, List.tail_cons, List.zip_cons_cons, List.mem_cons]; exact .inr ih
      have := List.all_eq_true.1 h3 _ this
      simp [ha, hb] at this
  exact ⟨camel _ ⟨_, _, rfl, by decide⟩ (by decide) (by decide), camel _ ⟨_, _, rfl, by decide⟩ (by decide) (by decide), ⟨_, _, rfl⟩,
    ⟨_, _, rfl⟩⟩

/-! ## C77: repeatable -/

theorem generates_iff {env : Env} {k : Kind} {defs : Defs} {name : Str} {n : Names} {text : Str} :
    Generates env k defs name n text ↔ alone env k defs name = .ok (n, text) := by
  rw [← (genFile_eq env k defs name).1, Generates]
  cases genFile env k defs name with
  | error e => simp [Except.map]
  | ok r =>
    obtain ⟨a, b, c⟩ := r
    simp [Except.map]

/-- `main` modifies the schema it has loaded; generating again in the same process gives the same files all the same. -/
theorem C77_again {env : Env} {defs defs' : Defs} (h : schemaAfter env defs = some defs') : plan env defs' = plan env defs :=
  (schemaAfter_eqv h).plan

def sampleEnv : Env := ⟨fun _ => [], fun _ => [], fun _ => none, fun _ => .error .typeError⟩

/-- The names that definition `name` of a schema requires. -/
def requiredOf (defs : Defs) (name : String) : List Str :=
  match lookupKey defs name with
  | some (.dict d) => match lookupKey d "required" with
    | some (.list l) => l.map (Val.pyStr sampleEnv)
    | _ => []
  | _ => []

/-- A definition that is merged in place: afterwards it requires `text` by itself. -/
example : ((schemaAfter sampleEnv [("a_node", .dict [("properties", .dict [("type", .dict [("enum", .list [.str ['a']])])]),
      ("required", .list [.str "type".toList]),
      ("allOf", .list [.dict [("properties", .dict [("text", .dict [])]), ("required", .list [.str "text".toList])]])])]).map
        fun d => requiredOf d "a_node") = some ["type".toList, "text".toList] := by
  decide +kernel

/-- What is generated for a definition depends on that definition only. -/
theorem C77_local {env : Env} {k : Kind} {defs defs' : Defs} {name : Str}
    (h : lookupKey defs (String.ofList name) = lookupKey defs' (String.ofList name)) (n : Names) (text : Str) :
    Generates env k defs name n text ↔ Generates env k defs' name n text := by
  have hd : definition defs name = definition defs' name := by rw [definition, definition, h]
  have e1 : enumFor defs name = enumFor defs' name := by rw [enumFor_eq, enumFor_eq, hd]
  have e2 : infoFor defs name = infoFor defs' name := by rw [infoFor_eq, infoFor_eq, hd]
  rw [generates_iff, generates_iff, alone, alone, namesFor_eq, namesFor_eq, e1, e2]

/-- Two schemas with the same definition of a mark. -/
example (env : Env) : ∃ n text, Generates env .mark [("a_mark", .dict [])] "a_mark".toList n text ∧
    lookupKey [("a_mark", .dict [])] (String.ofList "a_mark".toList) =
      lookupKey [("b_mark", .int 1), ("a_mark", .dict [])] (String.ofList "a_mark".toList) :=
  ⟨_, _, ⟨_, rfl⟩, rfl⟩

theorem excluded_iff {name : Str} {k : Kind} (hs : ∃ t, name = t ++ suffix k) : skipped name = true ↔ Excluded name := by
  have hc : Analyze.endsWith name "_content".toList = false := by
    rw [Bool.eq_false_iff]
    intro h
    obtain ⟨a, ha⟩ := Analyze.endsWith_iff.1 h
    obtain ⟨t, ht⟩ := hs
    have := congrArg (fun l => l.getLast?) (ha.symm.trans ht)
    cases k <;> simp [suffix] at this
  have hn : ∀ s : Str, Analyze.endsWith s "_content".toList = true → name ≠ s := by
    rintro s h rfl; rw [hc] at h; cases h
  have h1 := hn "non_nestable_block_content".toList (by decide)
  have h2 := hn "block_content".toList (by decide)
  simp only [skipped, hc, Bool.or_eq_true, decide_eq_true_eq, beq_iff_eq, Analyze.endsWith_iff, Bool.false_eq_true, or_false,
    h1, h2, Excluded, List.mem_cons, List.not_mem_nil]
  constructor
  · rintro ((((((⟨a, b, h⟩ | h) | h) | h) | h) | h) | h)
    · exact .inl ⟨a, b, h.symm⟩
    all_goals simp_all
  · rintro (⟨a, b, h⟩ | h | h | h | h | h | h)
    · exact .inl (.inl (.inl (.inl (.inl (.inl ⟨a, b, h.symm⟩)))))
    all_goals simp_all

theorem mem_defs (defs : Defs) (name : Str) : name ∈ defs.map (fun p => p.1.toList) ↔ String.ofList name ∈ defs.map (·.1) := by
  simp only [List.mem_map]
  constructor
  · rintro ⟨p, hp, rfl⟩; exact ⟨p, hp, by simp⟩
  · rintro ⟨p, hp, h⟩; exact ⟨p, hp, by rw [h]; simp⟩

theorem defs_nodup {defs : Defs} (h : (defs.map (·.1)).Nodup) : (defs.map fun p => p.1.toList).Nodup := by
  have : (defs.map fun p => p.1.toList) = (defs.map (·.1)).map String.toList := by simp [Function.comp_def]
  rw [this]
  exact h.map fun a b hab => String.toList_inj.1 hab

/-- Which definitions are generated, and in which order: alphabetically, marks before nodes. -/
theorem C77_which {defs : Defs} (h : (defs.map (·.1)).Nodup) :
    (∀ name, name ∈ markDefs defs ↔ Wanted defs .mark name) ∧ (∀ name, name ∈ nodeDefs defs ↔ Wanted defs .node name) ∧
    (markDefs defs).Pairwise (· < ·) ∧ (nodeDefs defs).Pairwise (· < ·) := by
  refine ⟨fun name => ?_, fun name => ?_, ?_, ?_⟩
  · rw [markDefs, (Analyze.sort_perm _).mem_iff, List.mem_filter, mem_defs, Wanted]
    refine and_congr_right fun _ => ?_
    rw [Bool.and_eq_true, Bool.not_eq_true', and_comm]
    constructor
    · rintro ⟨h1, h2⟩
      have hs : ∃ t, name = t ++ suffix .mark := Analyze.endsWith_iff.1 h1
      exact ⟨hs, fun hx => by rw [(excluded_iff hs).2 hx] at h2; cases h2⟩
    · rintro ⟨hs, h2⟩
      exact ⟨Analyze.endsWith_iff.2 hs, by rw [Bool.eq_false_iff]; exact fun hx => h2 ((excluded_iff hs).1 hx)⟩
  · rw [nodeDefs, (Analyze.sort_perm _).mem_iff, List.mem_filter, mem_defs, Wanted]
    refine and_congr_right fun _ => ?_
    rw [Bool.and_eq_true, Bool.and_eq_true, Bool.not_eq_true', Bool.not_eq_true']
    constructor
    · rintro ⟨⟨h1, h2⟩, h3⟩
      have hs : ∃ t, name = t ++ suffix .node := Analyze.endsWith_iff.1 h3
      exact ⟨hs, fun hx => by rw [(excluded_iff hs).2 hx] at h1; cases h1⟩
    · rintro ⟨hs, h2⟩
      refine ⟨⟨by rw [Bool.eq_false_iff]; exact fun hx => h2 ((excluded_iff hs).1 hx), ?_⟩, Analyze.endsWith_iff.2 hs⟩
      obtain ⟨t, rfl⟩ := hs
      exact node_not_mark t
  · exact Analyze.sort_strict ((defs_nodup h).filter _)
  · exact Analyze.sort_strict ((defs_nodup h).filter _)

/-- A schema with a variant. -/
example : ([("b_node", Val.dict []), ("a_with_b_node", .dict []), ("a_node", .dict []), ("s_mark", .dict [])].map (·.1)).Nodup ∧
    nodeDefs [("b_node", .dict []), ("a_with_b_node", .dict []), ("a_node", .dict []), ("s_mark", .dict [])] =
      ["a_node".toList, "b_node".toList] := by
  constructor
  · decide
  · decide +kernel

theorem lookup_perm {d e : List (String × Val)} (h : d.Perm e) (hn : (d.map (·.1)).Nodup) (k : String) : lookupKey d k = lookupKey e k := by
  induction h with
  | nil => rfl
  | cons p _ ih =>
    rw [List.map_cons, List.nodup_cons] at hn
    rw [lookupKey, lookupKey, ih hn.2]
  | swap p q l =>
    simp only [List.map_cons, List.nodup_cons, List.mem_cons, not_or] at hn
    simp only [lookupKey]
    by_cases h1 : p.1 = k <;> by_cases h2 : q.1 = k <;> simp [h1, h2]
    exact absurd (h2.trans h1.symm) hn.1.1
  | trans h1 _ ih1 ih2 => rw [ih1 hn, ih2 ((h1.map _).nodup_iff.1 hn)]

/-- The order of the definitions in the schema does not matter. -/
theorem C77_order {env : Env} {defs defs' : Defs} (h : defs.Perm defs') (hn : (defs.map (·.1)).Nodup) : plan env defs' = plan env defs := by
  have hp := h.map (fun p : String × Val => p.1.toList)
  have sorted : ∀ p : Str → Bool, Analyze.sort ((defs'.map fun p => p.1.toList).filter p) = Analyze.sort ((defs.map fun p => p.1.toList).filter p) := by
    intro p
    have hn' := (defs_nodup hn).filter p
    have e := hp.filter p
    exact (((Analyze.sort_perm _).trans (e.symm.trans (Analyze.sort_perm _).symm))).eq_of_pairwise
      (fun a b _ _ h1 h2 => absurd (h1.trans h2) (lt_irrefl a))
      (Analyze.sort_strict (e.nodup_iff.1 hn')) (Analyze.sort_strict hn')
  have hd : ∀ name, definition defs' name = definition defs name := fun name => by
    rw [definition, definition, lookup_perm h hn]
  have e1 : ∀ name, enumFor defs' name = enumFor defs name := fun name => by rw [enumFor_eq, enumFor_eq, hd]
  have e2 : ∀ name, infoFor defs' name = infoFor defs name := fun name => by rw [infoFor_eq, infoFor_eq, hd]
  have m1 : markDefs defs' = markDefs defs := sorted _
  have m2 : nodeDefs defs' = nodeDefs defs := sorted _
  have e3 : ∀ name, namesFor defs' name = namesFor defs name := fun name => by rw [namesFor_eq, namesFor_eq, e1]
  have w : ∀ k l, written env k defs' l = written env k defs l := by
    intro k l
    induction l with
    | nil => rfl
    | cons a l ih => rw [written, written, ih, alone, alone, e3, e2]
  have st : ∀ k, stubAct k defs' = stubAct k defs := by
    intro k
    funext n
    have e : ∀ d s, (namesOf d s).map (fun r => stubText k r.1) = (namesFor d s).map (stubText k) := by
      intro d s; rw [namesFor]; cases namesOf d s <;> rfl
    cases k <;> simp only [stubAct, e, e3]
  rw [plan_eq, plan_eq, purePlan, purePlan, m1, m2, w, w, st, st]

/-- Two orders of two definitions. -/
example : [("a_node", Val.dict []), ("b_node", .dict [])].Perm [("b_node", .dict []), ("a_node", .dict [])] ∧
    ([("a_node", Val.dict []), ("b_node", .dict [])].map (·.1)).Nodup := ⟨.swap _ _ _, by decide⟩

end Verif.Props
