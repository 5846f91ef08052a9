import Verif.Props.NodeGenModule
/-!
# C77, C78: all files of a run, and the registry in parse.py

scripts/s02-nodes-code-gen/s1_gen_code.py, for every schema.
-/

namespace Verif.Props
open Verif Verif.NodeGen Verif.Spec.NodeGen

/-! ## C77: what a run writes -/

theorem written_spec (env : Env) (k : Kind) (defs : Defs) (l : List Str) :
    (∃ ms : List (Str × Names × Str), ms.map (·.1) = l ∧ (∀ m ∈ ms, Generates env k defs m.1 m.2.1 m.2.2) ∧
      (written env k defs l).2 = .ok (ms.map (·.2.1)) ∧
      (written env k defs l).1 = ms.map fun m => .write (fileName m.2.1) m.2.2) ∨
    ∃ ms : List (Str × Names × Str), ∃ name e r, l = ms.map (·.1) ++ name :: r ∧ (∀ m ∈ ms, Generates env k defs m.1 m.2.1 m.2.2) ∧
      (¬ ∃ n text, Generates env k defs name n text) ∧ (written env k defs l).2 = .error e ∧
      (written env k defs l).1 = ms.map fun m => .write (fileName m.2.1) m.2.2 := by
  induction l with
  | nil => exact .inl ⟨[], rfl, by simp, rfl, rfl⟩
  | cons name l ih =>
    rw [written]
    cases ha : alone env k defs name with
    | error e =>
      refine .inr ⟨[], name, e, l, rfl, by simp, ?_, rfl, rfl⟩
      rintro ⟨n, text, h⟩
      rw [generates_iff, ha] at h
      cases h
    | ok x =>
      obtain ⟨n, text⟩ := x
      have hg := generates_iff.2 ha
      simp only
      rcases ih with ⟨ms, h1, h2, h3, h4⟩ | ⟨ms, name', e, r, h1, h2, h3, h4, h5⟩
      · refine .inl ⟨(name, n, text) :: ms, by simp [h1], ?_, by rw [h3]; rfl, by rw [h4]; rfl⟩
        intro m hm
        rcases List.mem_cons.1 hm with rfl | hm
        · exact hg
        · exact h2 m hm
      · refine .inr ⟨(name, n, text) :: ms, name', e, r, by simp [h1], ?_, h3, by rw [h4]; rfl, by rw [h5]; rfl⟩
        intro m hm
        rcases List.mem_cons.1 hm with rfl | hm
        · exact hg
        · exact h2 m hm

theorem generates_names {env : Env} {k : Kind} {defs : Defs} {name : Str} {n : Names} {text : Str}
    (h : Generates env k defs name n text) : ∃ d, namesOf defs name = .ok (n, d) := by
  obtain ⟨d, h⟩ := h
  rw [genFile] at h
  simp only [bind, Except.bind, pure, Except.pure] at h
  cases hn : namesOf defs name with
  | error e => rw [hn] at h; cases h
  | ok x =>
    rw [hn] at h
    simp only at h
    cases hi : extract x.2 name with
    | error e => rw [hi] at h; cases h
    | ok y =>
      rw [hi] at h
      cases k <;> simp only [Except.ok.injEq, Prod.mk.injEq] at h <;> exact ⟨x.2, by rw [← h.1]⟩

theorem stubAct_eq {env : Env} {k : Kind} {defs : Defs} {t : Str} {n : Names} {text : Str}
    (h : Generates env k defs (t ++ suffix k) n text) : stubAct k defs n = .stub (fileName n) (.ok (stubText k n)) := by
  obtain ⟨d, hd⟩ := generates_names h
  obtain ⟨-, ht, -⟩ := names_shape hd
  cases k <;> simp only [stubAct, ht] <;> simp only [suffix] at hd <;> rw [hd] <;> rfl

/-- A run that works: one module per definition, parse.py, and a stub per definition, in this order; definitions are taken in
alphabetical order, marks before nodes. -/
theorem C77_files {env : Env} {defs : Defs} {acts : List Act} (hn : (defs.map (·.1)).Nodup) (h : plan env defs = (acts, none)) :
    ∃ marks nodes : List (Str × Names × Str),
      (∀ m ∈ marks, Generates env .mark defs m.1 m.2.1 m.2.2) ∧ (∀ m ∈ nodes, Generates env .node defs m.1 m.2.1 m.2.2) ∧
      (∀ name, name ∈ marks.map (·.1) ↔ Wanted defs .mark name) ∧ (∀ name, name ∈ nodes.map (·.1) ↔ Wanted defs .node name) ∧
      (marks.map (·.1)).Pairwise (· < ·) ∧ (nodes.map (·.1)).Pairwise (· < ·) ∧
      acts = marks.map (fun m => .write (m.2.1.moduleName ++ ".py".toList) m.2.2) ++
        nodes.map (fun m => .write (m.2.1.moduleName ++ ".py".toList) m.2.2) ++
        [.write "parse.py".toList (parseText env (marks.map (·.2.1)) (nodes.map (·.2.1)))] ++
        marks.map (fun m => .stub (m.2.1.moduleName ++ ".py".toList) (.ok (stubText .mark m.2.1))) ++
        nodes.map (fun m => .stub (m.2.1.moduleName ++ ".py".toList) (.ok (stubText .node m.2.1))) := by
  obtain ⟨w1, w2, w3, w4⟩ := C77_which hn
  rw [plan_eq, purePlan] at h
  rcases written_spec env .mark defs (markDefs defs) with ⟨ms, m1, m2, m3, m4⟩ | ⟨ms, name, e, r, -, -, -, m3, -⟩
  swap
  · rw [m3] at h; cases h
  rcases written_spec env .node defs (nodeDefs defs) with ⟨ns, n1, n2, n3, n4⟩ | ⟨ns, name, e, r, -, -, -, n3, -⟩
  swap
  · rw [m3, n3] at h; cases h
  rw [m3, n3, m4, n4] at h
  simp only [Prod.mk.injEq, and_true] at h
  have st : ∀ (k : Kind) (l : List (Str × Names × Str)), (∀ m ∈ l, Generates env k defs m.1 m.2.1 m.2.2) →
      (∀ name ∈ l.map (·.1), Wanted defs k name) →
      (l.map (·.2.1)).map (stubAct k defs) = l.map fun m => .stub (m.2.1.moduleName ++ ".py".toList) (.ok (stubText k m.2.1)) := by
    intro k l h1 h2
    rw [List.map_map]
    refine List.map_congr_left fun m hm => ?_
    obtain ⟨-, ⟨t, ht⟩, -⟩ := h2 _ (List.mem_map_of_mem hm)
    have := h1 m hm
    rw [ht] at this
    exact stubAct_eq this
  refine ⟨ms, ns, m2, n2, fun name => by rw [m1]; exact w1 name, fun name => by rw [n1]; exact w2 name, m1 ▸ w3, n1 ▸ w4, ?_⟩
  rw [← h, st .mark ms m2 (fun name hm => (w1 name).1 (m1 ▸ hm)), st .node ns n2 (fun name hm => (w2 name).1 (n1 ▸ hm))]
  rfl

/-- A run raises exactly if some definition cannot be generated; what it has written then are modules of definitions. -/
theorem C77_raises (env : Env) {defs : Defs} (hn : (defs.map (·.1)).Nodup) :
    ((∃ e, (plan env defs).2 = some e) ↔ ∃ k name, Wanted defs k name ∧ ¬ ∃ n text, Generates env k defs name n text) ∧
    ((∃ e, (plan env defs).2 = some e) → ∀ a ∈ (plan env defs).1, ∃ k name n text, Wanted defs k name ∧ Generates env k defs name n text ∧
      a = .write (n.moduleName ++ ".py".toList) text) := by
  obtain ⟨w1, w2, -, -⟩ := C77_which hn
  rw [plan_eq, purePlan]
  rcases written_spec env .mark defs (markDefs defs) with ⟨ms, m1, m2, m3, m4⟩ | ⟨ms, name, e, r, m1, m2, mx, m3, m4⟩
  swap
  · rw [m3, m4]
    refine ⟨iff_of_true ⟨e, rfl⟩ ⟨.mark, name, (w1 name).1 (by rw [m1]; simp), mx⟩, fun _ a ha => ?_⟩
    obtain ⟨m, hm, rfl⟩ := List.mem_map.1 ha
    exact ⟨.mark, m.1, _, _, (w1 _).1 (by rw [m1]; exact List.mem_append_left _ (List.mem_map_of_mem hm)), m2 m hm, rfl⟩
  rcases written_spec env .node defs (nodeDefs defs) with ⟨ns, n1, n2, n3, n4⟩ | ⟨ns, name, e, r, n1, n2, nx, n3, n4⟩
  swap
  · rw [m3, n3, m4, n4]
    refine ⟨iff_of_true ⟨e, rfl⟩ ⟨.node, name, (w2 name).1 (by rw [n1]; simp), nx⟩, fun _ a ha => ?_⟩
    rcases List.mem_append.1 ha with ha | ha
    · obtain ⟨m, hm, rfl⟩ := List.mem_map.1 ha
      exact ⟨.mark, m.1, _, _, (w1 _).1 (by rw [← m1]; exact List.mem_map_of_mem hm), m2 m hm, rfl⟩
    · obtain ⟨m, hm, rfl⟩ := List.mem_map.1 ha
      exact ⟨.node, m.1, _, _, (w2 _).1 (by rw [n1]; exact List.mem_append_left _ (List.mem_map_of_mem hm)), n2 m hm, rfl⟩
  rw [m3, n3]
  refine ⟨iff_of_false (by simp) ?_, by simp⟩
  rintro ⟨k, name, hw, hx⟩
  cases k with
  | mark =>
    have := (w1 name).2 hw
    rw [← m1] at this
    obtain ⟨m, hm, rfl⟩ := List.mem_map.1 this
    exact hx ⟨_, _, m2 m hm⟩
  | node =>
    have := (w2 name).2 hw
    rw [← n1] at this
    obtain ⟨m, hm, rfl⟩ := List.mem_map.1 this
    exact hx ⟨_, _, n2 m hm⟩

/-- A schema that can be generated, and one that cannot (`attrs` is no object). -/
example : (plan sampleEnv modDefs).2.isNone = true ∧ (modDefs.map (·.1)).Nodup ∧
    (plan sampleEnv [("a_node", .dict [("properties", .dict [("attrs", .int 1)])])]).2.isSome = true := by
  refine ⟨by decide +kernel, by decide, by decide +kernel⟩

/-! ## C78: the registry -/

theorem plit_0 : "# =============================================================================\n".toList =
    "# =============================================================================".toList ++ (['\n']) := by decide +kernel
theorem plit_1 : "\n".toList = ['\n'] := by decide
theorem plit_2 : ",\n".toList =
    ",".toList ++ (['\n']) := by decide +kernel
theorem plit_3 : "# -*- coding: utf-8 -*-\n\n\"\"\"\nAuto-generated ADF Parser\n\nThis module provides functions to parse ADF JSON into Python objects.\n\"\"\"\n\n".toList =
    "# -*- coding: utf-8 -*-".toList ++ (['\n'] ++ (['\n'] ++ ("\"\"\"".toList ++ (['\n'] ++ ("Auto-generated ADF Parser".toList ++ (['\n'] ++ (['\n'] ++ ("This module provides functions to parse ADF JSON into Python objects.".toList ++ (['\n'] ++ ("\"\"\"".toList ++ (['\n'] ++ (['\n'])))))))))))) := by decide +kernel
theorem plit_4 : "import typing as T\nfrom ..type_hint import T_DATA\n\nif T.TYPE_CHECKING:  # pragma: no cover\n    from .base import T_MARK, T_NODE\n\n".toList =
    "import typing as T".toList ++ (['\n'] ++ ("from ..type_hint import T_DATA".toList ++ (['\n'] ++ (['\n'] ++ ("if T.TYPE_CHECKING:  # pragma: no cover".toList ++ (['\n'] ++ ("    from .base import T_MARK, T_NODE".toList ++ (['\n'] ++ (['\n']))))))))) := by decide +kernel
theorem plit_5 : "# Mark imports\n".toList =
    "# Mark imports".toList ++ (['\n']) := by decide +kernel
theorem plit_6 : "# Node imports\n".toList =
    "# Node imports".toList ++ (['\n']) := by decide +kernel
theorem plit_7 : "# Mark registry\n".toList =
    "# Mark registry".toList ++ (['\n']) := by decide +kernel
theorem plit_8 : "_mark_type_to_class_mapping = {\n".toList =
    "_mark_type_to_class_mapping = {".toList ++ (['\n']) := by decide +kernel
theorem plit_9 : "}\n\n\ndef parse_mark(dct: T_DATA) -> \"T_MARK\":\n    \"\"\"Parse a mark dictionary into a Mark object.\"\"\"\n    type_ = dct[\"type\"]\n    klass = _mark_type_to_class_mapping[type_]\n    return klass.from_dict(dct)\n\n\n".toList =
    "}".toList ++ (['\n'] ++ (['\n'] ++ (['\n'] ++ ("def parse_mark(dct: T_DATA) -> \"T_MARK\":".toList ++ (['\n'] ++ ("    \"\"\"Parse a mark dictionary into a Mark object.\"\"\"".toList ++ (['\n'] ++ ("    type_ = dct[\"type\"]".toList ++ (['\n'] ++ ("    klass = _mark_type_to_class_mapping[type_]".toList ++ (['\n'] ++ ("    return klass.from_dict(dct)".toList ++ (['\n'] ++ (['\n'] ++ (['\n']))))))))))))))) := by decide +kernel
theorem plit_10 : "# Node registry\n".toList =
    "# Node registry".toList ++ (['\n']) := by decide +kernel
theorem plit_11 : "_node_type_to_class_mapping = {\n".toList =
    "_node_type_to_class_mapping = {".toList ++ (['\n']) := by decide +kernel
theorem plit_12 : "}\n\n\ndef parse_node(dct: T_DATA) -> \"T_NODE\":\n    \"\"\"Parse a node dictionary into a Node object.\"\"\"\n    type_ = dct[\"type\"]\n    klass = _node_type_to_class_mapping[type_]\n    return klass.from_dict(dct)".toList =
    "}".toList ++ (['\n'] ++ (['\n'] ++ (['\n'] ++ ("def parse_node(dct: T_DATA) -> \"T_NODE\":".toList ++ (['\n'] ++ ("    \"\"\"Parse a node dictionary into a Node object.\"\"\"".toList ++ (['\n'] ++ ("    type_ = dct[\"type\"]".toList ++ (['\n'] ++ ("    klass = _node_type_to_class_mapping[type_]".toList ++ (['\n'] ++ ("    return klass.from_dict(dct)".toList)))))))))))) := by decide +kernel

/-- The entry of a definition. -/
def entryOf (env : Env) (n : Names) : Entry := ⟨n.typeEnum.pyStr env, n.moduleName, n.className⟩

theorem imports_lines (env : Env) (l : List Names) : l.flatMap importLine =
    unlines ((l.map (entryOf env)).map fun e => "from .".toList ++ e.moduleName ++ " import ".toList ++ e.className) := by
  rw [unlines, List.map_map, List.flatMap_map]
  refine List.flatMap_congr fun n _ => ?_
  delta importLine
  rw [plit_1]
  rfl

theorem entries_lines (env : Env) (l : List Names) : l.flatMap (entryLine env) =
    unlines ((l.map (entryOf env)).map fun e => "    \"".toList ++ e.typeString ++ "\": ".toList ++ e.className ++ ",".toList) := by
  rw [unlines, List.map_map, List.flatMap_map]
  refine List.flatMap_congr fun n _ => ?_
  delta entryLine
  rw [plit_2, ← List.append_assoc]
  rfl

set_option simprocs false in
theorem parseText_lines (env : Env) (marks nodes : List Names) : parseText env marks nodes ++ ['\n'] =
    unlines (parseLines (marks.map (entryOf env)) (nodes.map (entryOf env))) := by
  delta parseText parseLines rule
  simp only [imports_lines env, entries_lines, plit_0, plit_1, plit_3, plit_4, plit_5, plit_6, plit_7, plit_8, plit_9, plit_10, plit_11,
    plit_12, unlines_append, List.append_assoc]
  simp only [unlines, List.flatMap_cons, List.flatMap_nil, List.append_assoc, List.append_nil, List.nil_append, List.cons_append]

/-- The entries of parse.py, and what a dict display makes of them: of several definitions with the same type string the
alphabetically last counts. -/
theorem registry_display {env : Env} {k : Kind} {defs : Defs} {l : List (Str × Names × Str)}
    (h1 : ∀ m ∈ l, Generates env k defs m.1 m.2.1 m.2.2) (h2 : ∀ name, name ∈ l.map (·.1) ↔ Wanted defs k name)
    (h3 : (l.map (·.1)).Pairwise (· < ·)) (key cls : Str) :
    Display ((l.map (·.2.1)).map fun n => (n.typeEnum.pyStr env, n.className)) key cls ↔
      ∃ name n text, Wanted defs k name ∧ Generates env k defs name n text ∧ n.typeEnum.pyStr env = key ∧ n.className = cls ∧
        ∀ name' n' text', Wanted defs k name' → Generates env k defs name' n' text' → name < name' → n'.typeEnum.pyStr env ≠ key := by
  have det : ∀ {name n n' text text'}, Generates env k defs name n text → Generates env k defs name n' text' → n = n' := by
    intro name n n' text text' ha hb
    rw [generates_iff] at ha hb
    rw [ha] at hb
    exact (Prod.mk.inj (Except.ok.inj hb)).1
  rw [List.map_map]
  constructor
  · rintro ⟨a, b, he, hb⟩
    obtain ⟨la, lb', rfl, ha', hb'⟩ := List.map_eq_append_iff.1 he
    obtain ⟨m, lb, rfl, hm, hb''⟩ := List.map_eq_cons_iff.1 hb'
    simp only [Function.comp_apply, Prod.mk.injEq] at hm
    refine ⟨m.1, m.2.1, m.2.2, (h2 _).1 (List.mem_map_of_mem (by simp)), h1 m (by simp), hm.1, hm.2, ?_⟩
    intro name' n' text' hw hg hlt heq
    obtain ⟨m', hm', rfl⟩ := List.mem_map.1 ((h2 _).2 hw)
    rw [List.map_append, List.map_cons, List.pairwise_append, List.pairwise_cons] at h3
    rcases List.mem_append.1 hm' with hx | hx
    · exact absurd (hlt.trans (h3.2.2 _ (List.mem_map_of_mem hx) _ (.head _))) (lt_irrefl _)
    · rcases List.mem_cons.1 hx with rfl | hx
      · exact lt_irrefl _ hlt
      · refine hb (List.mem_map.2 ⟨(m'.2.1.typeEnum.pyStr env, m'.2.1.className), ?_, ?_⟩)
        · rw [← hb'']; exact List.mem_map.2 ⟨m', hx, rfl⟩
        · rw [← heq, det hg (h1 m' (by simp [hx]))]
  · rintro ⟨name, n, text, hw, hg, rfl, rfl, hlast⟩
    obtain ⟨m, hm, rfl⟩ := List.mem_map.1 ((h2 _).2 hw)
    obtain ⟨la, lb, rfl⟩ := List.append_of_mem hm
    refine ⟨la.map ((fun n => (n.typeEnum.pyStr env, n.className)) ∘ fun x => x.2.1),
      lb.map ((fun n => (n.typeEnum.pyStr env, n.className)) ∘ fun x => x.2.1), ?_, ?_⟩
    · rw [List.map_append, List.map_cons, det hg (h1 m hm)]; rfl
    · intro hk
      rw [List.map_map] at hk
      obtain ⟨m', hm', hk⟩ := List.mem_map.1 hk
      rw [List.map_append, List.map_cons, List.pairwise_append, List.pairwise_cons] at h3
      exact hlast m'.1 m'.2.1 m'.2.2 ((h2 _).1 (List.mem_map_of_mem (by simp [hm']))) (h1 m' (by simp [hm']))
        (h3.2.1.1 _ (List.mem_map_of_mem hm')) hk

/-- The last file a run writes into nodes/ is parse.py: the lines of `Spec.NodeGen.parseLines`, with an import and an entry of
the registry for each definition.  Looked up, the registry of marks (of nodes) gives for a type string the class of the definition
with this type string; of several such definitions the alphabetically last counts, and the classes of the others are never used. -/
theorem C78_partial {env : Env} {defs : Defs} {acts : List Act} (hn : (defs.map (·.1)).Nodup) (h : plan env defs = (acts, none)) :
    ∃ (text : Str) (entries : Kind → List Entry), (∀ t, .write "parse.py".toList t ∈ acts ↔ t = text) ∧
      text ++ ['\n'] = unlines (parseLines (entries .mark) (entries .node)) ∧
      ∀ k, (∀ e, e ∈ entries k ↔
          ∃ name n text, Wanted defs k name ∧ Generates env k defs name n text ∧
            e = ⟨n.typeEnum.pyStr env, n.moduleName, n.className⟩) ∧
        ∀ key cls, Display ((entries k).map fun e => (e.typeString, e.className)) key cls ↔
          ∃ name n text, Wanted defs k name ∧ Generates env k defs name n text ∧ n.typeEnum.pyStr env = key ∧ n.className = cls ∧
            ∀ name' n' text', Wanted defs k name' → Generates env k defs name' n' text' → name < name' →
              n'.typeEnum.pyStr env ≠ key := by
  obtain ⟨ms, ns, m1, n1, m2, n2, m3, n3, rfl⟩ := C77_files hn h
  have det : ∀ {k name n n' text text'}, Generates env k defs name n text → Generates env k defs name n' text' → n = n' := by
    intro k name n n' text text' ha hb
    rw [generates_iff] at ha hb
    rw [ha] at hb
    exact (Prod.mk.inj (Except.ok.inj hb)).1
  have file : ∀ (l : List (Str × Names × Str)) (k : Kind), (∀ m ∈ l, Generates env k defs m.1 m.2.1 m.2.2) →
      (∀ name, name ∈ l.map (·.1) ↔ Wanted defs k name) → ∀ t,
      Act.write "parse.py".toList t ∉ l.map fun m => Act.write (m.2.1.moduleName ++ ".py".toList) m.2.2 := by
    intro l k h1 h2 t hm
    obtain ⟨m, hm, he⟩ := List.mem_map.1 hm
    simp only [Act.write.injEq] at he
    obtain ⟨-, ⟨x, hx⟩, -⟩ := (h2 _).1 (List.mem_map_of_mem hm)
    have hg := h1 m hm
    rw [hx] at hg
    obtain ⟨d, hd⟩ := generates_names hg
    obtain ⟨-, -, hmod, -⟩ := names_shape hd
    rw [hmod] at he
    cases k <;> simp [modulePrefix] at he
  have ent : ∀ (l : List (Str × Names × Str)) (k : Kind), (∀ m ∈ l, Generates env k defs m.1 m.2.1 m.2.2) →
      (∀ name, name ∈ l.map (·.1) ↔ Wanted defs k name) → ∀ e, e ∈ (l.map (·.2.1)).map (entryOf env) ↔
      ∃ name n text, Wanted defs k name ∧ Generates env k defs name n text ∧ e = ⟨n.typeEnum.pyStr env, n.moduleName, n.className⟩ := by
    intro l k h1 h2 e
    rw [List.map_map]
    constructor
    · intro he
      obtain ⟨m, hm, rfl⟩ := List.mem_map.1 he
      exact ⟨m.1, m.2.1, m.2.2, (h2 _).1 (List.mem_map_of_mem hm), h1 m hm, rfl⟩
    · rintro ⟨name, n, text, hw, hg, rfl⟩
      obtain ⟨m, hm, rfl⟩ := List.mem_map.1 ((h2 _).2 hw)
      exact List.mem_map.2 ⟨m, hm, by rw [det hg (h1 m hm)]; rfl⟩
  have disp : ∀ (l : List (Str × Names × Str)), ((l.map (·.2.1)).map (entryOf env)).map (fun e => (e.typeString, e.className)) =
      (l.map (·.2.1)).map fun n => (n.typeEnum.pyStr env, n.className) := by
    intro l; rw [List.map_map]; rfl
  refine ⟨parseText env (ms.map (·.2.1)) (ns.map (·.2.1)),
    fun k => match k with | .mark => (ms.map (·.2.1)).map (entryOf env) | .node => (ns.map (·.2.1)).map (entryOf env), ?_,
    parseText_lines _ _ _, ?_⟩
  · intro t
    have hm := file ms .mark m1 m2 t
    have hn := file ns .node n1 n2 t
    simp only [List.mem_append, hm, hn, false_or, List.mem_singleton, Act.write.injEq, true_and]
    constructor
    · rintro ((h | h) | h)
      · exact h
      · obtain ⟨m, -, he⟩ := List.mem_map.1 h; cases he
      · obtain ⟨m, -, he⟩ := List.mem_map.1 h; cases he
    · exact fun h => .inl (.inl h)
  · intro k
    cases k with
    | mark => exact ⟨ent ms .mark m1 m2, fun key cls => by simp only [disp]; exact registry_display m1 m2 m3 key cls⟩
    | node => exact ⟨ent ns .node n1 n2, fun key cls => by simp only [disp]; exact registry_display n1 n2 n3 key cls⟩

/-- Two definitions with the same type string. -/
def twoDefs : Defs :=
  [("a_node", .dict [("properties", .dict [("type", .dict [("enum", .list [.str ['x']])])])]),
   ("b_node", .dict [("properties", .dict [("type", .dict [("enum", .list [.str ['x']])])])])]

theorem plan_ok_of {env : Env} {defs : Defs} (h : (plan env defs).2.isNone = true) : ∃ acts, plan env defs = (acts, none) :=
  ⟨(plan env defs).1, Prod.ext rfl (Option.isNone_iff_eq_none.1 h)⟩

/-- The hypotheses of `C77_files` and `C78_partial`. -/
example : (∃ acts, plan sampleEnv twoDefs = (acts, none)) ∧ (twoDefs.map (·.1)).Nodup :=
  ⟨plan_ok_of (by decide +kernel), by decide⟩

/-- A dict display has one value per key. -/
theorem display_unique {entries : List (Str × Str)} {key a b : Str} (ha : Display entries key a) (hb : Display entries key b) : a = b := by
  obtain ⟨l, r, rfl, hr⟩ := ha
  obtain ⟨l', r', he, hr'⟩ := hb
  rcases List.append_eq_append_iff.1 he with ⟨x, rfl, hx⟩ | ⟨x, rfl, hx⟩
  · cases x with
    | nil => simp at hx; exact hx.1
    | cons y x =>
      simp only [List.cons_append, List.cons.injEq] at hx
      obtain ⟨rfl, rfl⟩ := hx
      exact absurd (by simp) hr
  · cases x with
    | nil => simp at hx; exact hx.1.symm
    | cons y x =>
      simp only [List.cons_append, List.cons.injEq] at hx
      obtain ⟨rfl, rfl⟩ := hx
      exact absurd (by simp) hr'

theorem generates_with {env : Env} {k : Kind} {defs : Defs} {name x y : Str}
    (h : (genFile env k defs name).toOption.map (fun r => (r.1.typeEnum.pyStr env, r.1.className)) = some (x, y)) :
    ∃ n text, Generates env k defs name n text ∧ n.typeEnum.pyStr env = x ∧ n.className = y := by
  cases hx : genFile env k defs name with
  | error e => rw [hx] at h; cases h
  | ok r =>
    rw [hx] at h
    simp only [Except.toOption, Option.map_some, Option.some.injEq, Prod.mk.injEq] at h
    exact ⟨r.1, r.2.1, ⟨r.2.2, hx⟩, h⟩

/-- C78 as stated is false: parse.py cannot have every generated class in its registry under its type string. -/
theorem C78_false : ¬ ∀ (env : Env) (defs : Defs) (acts : List Act), (defs.map (·.1)).Nodup → plan env defs = (acts, none) →
    ∀ k, ∃ registry : List (Str × Str), ∀ name n text, Wanted defs k name → Generates env k defs name n text →
      Display registry (n.typeEnum.pyStr env) n.className := by
  intro h
  obtain ⟨acts, hp⟩ := plan_ok_of (env := sampleEnv) (defs := twoDefs) (by decide +kernel)
  obtain ⟨reg, hr⟩ := h sampleEnv twoDefs acts (by decide) hp .node
  obtain ⟨n, t, g1, e1, c1⟩ := generates_with (env := sampleEnv) (k := .node) (defs := twoDefs) (name := "a_node".toList)
    (x := ['x']) (y := "NodeA".toList) (by decide +kernel)
  obtain ⟨n', t', g2, e2, c2⟩ := generates_with (env := sampleEnv) (k := .node) (defs := twoDefs) (name := "b_node".toList)
    (x := ['x']) (y := "NodeB".toList) (by decide +kernel)
  have w := (C77_which (defs := twoDefs) (by decide)).2.1
  have d1 := hr _ _ _ ((w "a_node".toList).1 (by decide +kernel)) g1
  have d2 := hr _ _ _ ((w "b_node".toList).1 (by decide +kernel)) g2
  rw [e1, c1] at d1
  rw [e2, c2] at d2
  exact absurd (display_unique d1 d2) (by decide)

end Verif.Props
