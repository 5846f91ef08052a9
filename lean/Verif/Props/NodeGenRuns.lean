import Verif.Props.NodeGenMain
/-!
# C80: complete runs of the node generator

What a run leaves that nobody disturbs, and what a killed run leaves for ever.
-/

namespace Verif.Props
open Verif Verif.NodeGen Verif.Spec.NodeGen Verif.NodeGenMain
open Verif.FileCache (Bytes writeAt)

theorem slit_0 : "# -*- coding: utf-8 -*-\n\n\"\"\"\nMixin for ADF ".toList = "# -*- coding: utf-8 -*-".toList ++ (['\n'] ++ (['\n'] ++ ("\"\"\"".toList ++ (['\n'] ++ ("Mixin for ADF ".toList))))) := by decide +kernel
theorem slit_1 : "\n\nThis file is NOT auto-generated. Implement to_markdown() method here.\n\"\"\"\n\nimport typing as T\n\nif T.TYPE_CHECKING:  # pragma: no cover\n    from ..nodes.".toList = ['\n'] ++ (['\n'] ++ ("This file is NOT auto-generated. Implement to_markdown() method here.".toList ++ (['\n'] ++ ("\"\"\"".toList ++ (['\n'] ++ (['\n'] ++ ("import typing as T".toList ++ (['\n'] ++ (['\n'] ++ ("if T.TYPE_CHECKING:  # pragma: no cover".toList ++ (['\n'] ++ ("    from ..nodes.".toList)))))))))))) := by decide +kernel
theorem slit_2 : "\n\n\nclass ".toList = ['\n'] ++ (['\n'] ++ (['\n'] ++ ("class ".toList))) := by decide +kernel
theorem slit_3 : "Mixin:\n    def to_markdown(self: \"".toList = "Mixin:".toList ++ (['\n'] ++ ("    def to_markdown(self: \"".toList)) := by decide +kernel
theorem slit_4 : "\", text: str) -> str:\n        # TODO: Implement markdown conversion\n        return text".toList = "\", text: str) -> str:".toList ++ (['\n'] ++ ("        # TODO: Implement markdown conversion".toList ++ (['\n'] ++ ("        return text".toList)))) := by decide +kernel
theorem slit_5 : "\") -> str:\n        # TODO: Implement markdown conversion\n        return \"\"".toList = "\") -> str:".toList ++ (['\n'] ++ ("        # TODO: Implement markdown conversion".toList ++ (['\n'] ++ ("        return \"\"".toList)))) := by decide +kernel

set_option simprocs false in
/-- The stub of a mixin. -/
theorem stubText_lines (k : Kind) (n : Names) :
    stubText k n ++ ['\n'] = unlines (stubLines k n.typeName n.moduleName n.className) := by
  cases k <;> delta stubText stubLines <;>
    simp only [slit_0, slit_1, slit_2, slit_3, slit_4, slit_5, classPrefix, unlines, List.flatMap_cons, List.flatMap_nil,
      List.append_assoc, List.append_nil, List.nil_append, List.cons_append]

/-! ## Progress -/

theorem ng_exec_append {env : Env} {encode : Str → Option Bytes} {dirs : Dir → Bool} {s₀ s1 s : Sys} {tr tr' : List Event}
    (h1 : Exec env encode dirs s₀ tr s1) (h2 : Exec env encode dirs s1 tr' s) : Exec env encode dirs s₀ (tr ++ tr') s := by
  induction h2 with
  | nil => simpa using h1
  | snoc _ hst ih => rw [← List.append_assoc]; exact ih.snoc hst

theorem ng_step_exec {env : Env} {encode : Str → Option Bytes} {dirs : Dir → Bool} {s s' : Sys} {e : Event}
    (h : Step env encode dirs s e s') : Exec env encode dirs s [e] s' := Exec.snoc (tr := []) .nil h

/-- A process that has opened a file alone writes it and closes it. -/
theorem write_out {env : Env} {encode : Str → Option Bytes} {dirs : Dir → Bool} {s : Sys} {p : Nat} {path : Dir × Str} {c : Str} {b : Bytes}
    {todo : List Act} {err : Option PyErr} (h : s.procs p = .opened path c todo err) (hc : encode c = some b) :
    ∃ mid s', Exec env encode dirs s mid s' ∧ (∀ e ∈ mid, e = .silent p) ∧ s'.procs p = .running todo err ∧
      ∀ x, x ≠ path → s'.files x = s.files x := by
  have e1 := ng_step_exec (Step.encode (env := env) (encode := encode) (dirs := dirs) p h hc)
  have e2 := e1.snoc (Step.write p b.length (ng_set_self _ _ _) (Nat.le_refl _))
  have e3 := e2.snoc (Step.close p (by rw [ng_set_self, List.drop_length]))
  refine ⟨_, _, e3, by simp, ng_set_self _ _ _, fun x hx => ?_⟩
  rw [ng_set_files, ng_set_files, ng_put_other _ _ hx, ng_set_files]

theorem do_write {env : Env} {encode : Str → Option Bytes} {dirs : Dir → Bool} {s : Sys} {p : Nat} {f c : Str} {b : Bytes}
    {todo : List Act} {err : Option PyErr} (h : s.procs p = .running (.write f c :: todo) err) (hd : dirs .nodes = true)
    (hc : encode c = some b) :
    ∃ mid s', Exec env encode dirs s mid s' ∧ (∀ e ∈ mid, e = .silent p) ∧ s'.procs p = .running todo err ∧
      ∀ x, x ≠ (.nodes, f) → s'.files x = s.files x := by
  have e1 := ng_step_exec (Step.openNode (env := env) (encode := encode) (dirs := dirs) p h hd)
  obtain ⟨mid, s', h1, h2, h3, h4⟩ := write_out (env := env) (dirs := dirs) (ng_set_self _ _ _) hc
  refine ⟨_, s', ng_exec_append e1 h1, ?_, h3, fun x hx => ?_⟩
  · intro e he
    rcases List.mem_append.1 he with he | he
    · simpa using he
    · exact h2 e he
  · rw [h4 x hx, ng_set_files, ng_put_other _ _ hx]

theorem do_stub {env : Env} {encode : Str → Option Bytes} {dirs : Dir → Bool} {s : Sys} {p : Nat} {f c : Str} {b : Bytes}
    {todo : List Act} {err : Option PyErr} (h : s.procs p = .running (.stub f (.ok c) :: todo) err) (hd : dirs .mixins = true)
    (hc : encode c = some b) :
    ∃ mid s', Exec env encode dirs s mid s' ∧ (∀ e ∈ mid, e = .silent p) ∧ s'.procs p = .running todo err := by
  cases hx : s.files (.mixins, f) with
  | some x =>
    exact ⟨_, _, ng_step_exec (Step.skip p h (by rw [hx]; rfl)), by simp, ng_set_self _ _ _⟩
  | none =>
    have e1 := ng_step_exec (Step.absent (env := env) (encode := encode) (dirs := dirs) p h hx)
    have e2 := e1.snoc (Step.openMixin p (ng_set_self _ _ _) hd)
    obtain ⟨mid, s', h1, h2, h3, -⟩ := write_out (env := env) (dirs := dirs) (ng_set_self _ _ _) hc
    refine ⟨_, s', ng_exec_append e2 h1, ?_, h3⟩
    intro e he
    rcases List.mem_append.1 he with he | he
    · simpa using he
    · exact h2 e he

/-- Whatever a process has still to do, it can do it alone. -/
theorem do_all {env : Env} {encode : Str → Option Bytes} {dirs : Dir → Bool} {p : Nat} (err : Option PyErr)
    (hd : ∀ d, dirs d = true) (acts : List Act) {s : Sys} (h : s.procs p = .running acts err)
    (hw : ∀ f c, .write f c ∈ acts → (encode c).isSome) (hs : ∀ f c, .stub f c ∈ acts → ∃ t, c = .ok t ∧ (encode t).isSome) :
    ∃ mid s', Exec env encode dirs s mid s' ∧ (∀ e ∈ mid, e = .silent p) ∧ s'.procs p = .running [] err := by
  induction acts generalizing s with
  | nil => exact ⟨[], s, .nil, by simp, h⟩
  | cons a r ih =>
    have go : (∃ mid s', Exec env encode dirs s mid s' ∧ (∀ e ∈ mid, e = .silent p) ∧ s'.procs p = .running r err) →
        ∃ mid s', Exec env encode dirs s mid s' ∧ (∀ e ∈ mid, e = .silent p) ∧ s'.procs p = .running [] err := by
      rintro ⟨mid, s', h1, h2, h3⟩
      obtain ⟨mid', s'', i1, i2, i3⟩ := ih h3 (fun f c hm => hw f c (.tail _ hm)) (fun f c hm => hs f c (.tail _ hm))
      refine ⟨_, _, ng_exec_append h1 i1, ?_, i3⟩
      intro e he
      rcases List.mem_append.1 he with he | he
      · exact h2 e he
      · exact i2 e he
    cases a with
    | write f c =>
      obtain ⟨b, hb⟩ := Option.isSome_iff_exists.1 (hw f c (.head _))
      obtain ⟨mid, s', h1, h2, h3, -⟩ := do_write (env := env) h (hd _) hb
      exact go ⟨mid, s', h1, h2, h3⟩
    | stub f c =>
      obtain ⟨t, rfl, ht⟩ := hs f c (.head _)
      obtain ⟨b, hb⟩ := Option.isSome_iff_exists.1 ht
      exact go (do_stub (env := env) h (hd _) hb)

/-- The texts of a plan that works. -/
theorem plan_stubs {env : Env} {defs : Defs} (hn : (defs.map (·.1)).Nodup) (h : (plan env defs).2 = none) :
    ∀ f c, .stub f c ∈ (plan env defs).1 → ∃ t, c = .ok t := by
  obtain ⟨ms, ns, -, -, -, -, -, -, he⟩ := C77_files (acts := (plan env defs).1) hn (Prod.ext rfl h)
  intro f c hm
  rw [he] at hm
  simp only [List.mem_append, List.mem_map, List.mem_singleton, reduceCtorEq, and_false, exists_false, or_false, false_or,
    Act.stub.injEq] at hm
  rcases hm with ⟨m, -, -, rfl⟩ | ⟨m, -, -, rfl⟩ <;> exact ⟨_, rfl⟩

/-- After any history a process that is not in a run can make a complete one: no crash, no failure and no other run, suspended in any
moment, stands in the way, if the schema can be generated, the locale can encode the texts and both directories exist. -/
theorem C80_possible {env : Env} {encode : Str → Option Bytes} {dirs : Dir → Bool} {files : Files} {tr : List Event} {s1 : Sys}
    (hex : Exec env encode dirs (Sys.start files) tr s1) {p : Nat} (hp : ¬ Running p tr) {defs : Defs} (hn : (defs.map (·.1)).Nodup)
    (hg : ∀ k name, Wanted defs k name → ∃ n text, Generates env k defs name n text)
    (he : ∀ c, (encode c).isSome) (hd : ∀ d, dirs d = true) :
    ∃ mid s, (∀ e ∈ mid, e = .silent p) ∧ Exec env encode dirs s1 (.start p defs :: (mid ++ [.returns p])) s := by
  have hplan : (plan env defs).2 = none := by
    cases hx : (plan env defs).2 with
    | none => rfl
    | some e =>
      obtain ⟨k, name, hw, hno⟩ := (C77_raises env hn).1.1 ⟨e, hx⟩
      exact absurd (hg k name hw) hno
  have e1 := ng_step_exec (Step.start (env := env) (encode := encode) (dirs := dirs) p defs (idle_of hex p hp))
  obtain ⟨mid, s', h1, h2, h3⟩ := do_all (env := env) (encode := encode) (dirs := dirs) (p := p) (plan env defs).2 hd (plan env defs).1
    (ng_set_self _ _ _) (fun f c _ => he c) (fun f c hm => by
      obtain ⟨t, ht⟩ := plan_stubs hn hplan f c hm
      exact ⟨t, ht, he t⟩)
  rw [hplan] at h3
  refine ⟨mid, s'.set p .idle, h2, ?_⟩
  have := (ng_exec_append e1 h1).snoc (Step.returns p h3)
  simpa using this

/-! ## What a complete run leaves -/

theorem leaves_again {encode : Str → Option Bytes} {acts : List Act} {path : Dir × Str} {old a b : Option Bytes}
    (h1 : Leaves encode acts old path a) (h2 : Leaves encode acts a path b) : b = a := by
  obtain ⟨d, f⟩ := path
  cases d with
  | nodes =>
    rcases h2 with ⟨l, r, c, x, hl, hr, hc, rfl⟩ | ⟨-, h⟩
    · rcases h1 with ⟨l', r', c', x', hl', hr', hc', rfl⟩ | ⟨h, -⟩
      · have : c = c' := by
          rw [hl] at hl'
          rcases List.append_eq_append_iff.1 hl' with ⟨y, -, hy⟩ | ⟨y, -, hy⟩
          · cases y with
            | nil => simp at hy; exact hy.1
            | cons z y =>
              simp only [List.cons_append, List.cons.injEq] at hy
              obtain ⟨rfl, rfl⟩ := hy
              exact absurd (by simp) (hr c')
          · cases y with
            | nil => simp at hy; exact hy.1.symm
            | cons z y =>
              simp only [List.cons_append, List.cons.injEq] at hy
              obtain ⟨rfl, rfl⟩ := hy
              exact absurd (by simp) (hr' c)
        subst this
        rw [hc] at hc'
        exact hc'
      · exact absurd (by rw [hl]; simp) (h c)
    · exact h
  | mixins =>
    rcases h2 with ⟨-, h⟩ | ⟨h0, l, r, c, x, hl, -⟩ | ⟨-, h⟩
    · exact h
    · subst h0
      rcases h1 with ⟨h, h'⟩ | ⟨-, _, _, _, _, _, _, _, h⟩ | ⟨h, -⟩
      · exact absurd h'.symm h
      · cases h
      · exact absurd (by rw [hl]; simp) (h (.ok c))
    · exact h

/-- A second run, started by anybody at once after a complete one with the same schema, changes no file. -/
theorem C80_again {env : Env} {encode : Str → Option Bytes} {dirs : Dir → Bool} {mid mid' : List Event} {p q : Nat}
    {defs : Defs} {s1 s s' : Sys} (hex : Exec env encode dirs s1 (.start p defs :: (mid ++ [.returns p])) s)
    (hex' : Exec env encode dirs s (.start q defs :: (mid' ++ [.returns q])) s')
    (hm : ∀ e ∈ mid, e = .silent p) (hm' : ∀ e ∈ mid', e = .silent q) : s'.files = s.files :=
  funext fun path => leaves_again ((C80_run hex hm).2 path) ((C80_run hex' hm').2 path)

/-- The only text for a file is the last, and the first. -/
theorem leaves_node {encode : Str → Option Bytes} {acts : List Act} {f c : Str} {old new : Option Bytes}
    (h : Leaves encode acts old (.nodes, f) new) (hc : .write f c ∈ acts) (hu : ∀ c', .write f c' ∈ acts → c' = c) :
    new = encode c ∧ (encode c).isSome := by
  rcases h with ⟨l, r, c', b, rfl, -, h1, rfl⟩ | ⟨h, -⟩
  · obtain rfl := hu c' (by simp)
    exact ⟨h1.symm, by rw [h1]; rfl⟩
  · exact absurd hc (h c)

theorem leaves_mixin {encode : Str → Option Bytes} {acts : List Act} {f c : Str} {old new : Option Bytes}
    (h : Leaves encode acts old (.mixins, f) new) (hc : .stub f (.ok c) ∈ acts) (hu : ∀ c', .stub f c' ∈ acts → c' = .ok c) :
    (old = none → new = encode c ∧ (encode c).isSome) ∧ (old ≠ none → new = old) := by
  rcases h with ⟨h1, h2⟩ | ⟨h1, l, r, c', b, rfl, -, h3, rfl⟩ | ⟨h, -⟩
  · exact ⟨fun h => absurd h h1, fun _ => h2⟩
  · have := hu (.ok c') (by simp)
    cases this
    exact ⟨fun _ => ⟨h3.symm, by rw [h3]; rfl⟩, fun h => absurd h1 h⟩
  · exact absurd hc (h _)

/-- What holds of C80. After a run that returned and that nobody disturbed, whatever happened before it (other runs, killed, failed or
unfinished ones; edits): the module of a definition whose module name no other definition has is the generated text, in the encoding
of the locale; and its mixin is what it was before the run, or the stub if there was none. -/
theorem C80_partial {env : Env} {encode : Str → Option Bytes} {dirs : Dir → Bool} {mid : List Event} {p : Nat}
    {defs : Defs} {s1 s : Sys} (hn : (defs.map (·.1)).Nodup)
    (hex : Exec env encode dirs s1 (.start p defs :: (mid ++ [.returns p])) s) (hm : ∀ e ∈ mid, e = .silent p) :
    ∀ k name n text, Wanted defs k name → Generates env k defs name n text →
      (∀ k' name' n' text', Wanted defs k' name' → Generates env k' defs name' n' text' → n'.moduleName = n.moduleName →
        k' = k ∧ name' = name) →
      (∃ b, encode text = some b ∧ s.files (.nodes, n.moduleName ++ ".py".toList) = some b) ∧
      (s1.files (.mixins, n.moduleName ++ ".py".toList) ≠ none →
        s.files (.mixins, n.moduleName ++ ".py".toList) = s1.files (.mixins, n.moduleName ++ ".py".toList)) ∧
      (s1.files (.mixins, n.moduleName ++ ".py".toList) = none →
        ∃ stub b, stub ++ ['\n'] = unlines (stubLines k n.typeName n.moduleName n.className) ∧ encode stub = some b ∧
          s.files (.mixins, n.moduleName ++ ".py".toList) = some b) := by
  obtain ⟨hplan, h2⟩ := C80_run hex hm
  intro k name n text hw hg hu
  obtain ⟨ms, ns, m1, n1, m2, n2, -, -, he⟩ := C77_files (acts := (plan env defs).1) hn (Prod.ext rfl hplan)
  have det : ∀ {k name n n' text text'}, Generates env k defs name n text → Generates env k defs name n' text' → n = n' ∧ text = text' := by
    intro k name n n' text text' ha hb
    rw [generates_iff] at ha hb
    rw [ha] at hb
    exact Prod.mk.inj (Except.ok.inj hb)
  obtain ⟨t, ht⟩ := hw.2.1
  have hmod : ∃ x, n.moduleName = modulePrefix k ++ x := by
    subst ht
    obtain ⟨d, hd⟩ := generates_names hg
    exact ⟨_, (names_shape hd).2.2.1⟩
  have hparse : n.moduleName ++ ".py".toList ≠ "parse.py".toList := by
    obtain ⟨x, hx⟩ := hmod
    rw [hx]
    cases k <;> simp [modulePrefix]
  -- the acts for this definition
  have all : ∀ k' (l : List (Str × Names × Str)), (∀ m ∈ l, Generates env k' defs m.1 m.2.1 m.2.2) →
      (∀ name, name ∈ l.map (·.1) ↔ Wanted defs k' name) → ∀ m ∈ l, m.2.1.moduleName ++ ".py".toList = n.moduleName ++ ".py".toList →
      k' = k ∧ m = (name, n, text) := by
    intro k' l g w m hm hf
    have hw' := (w m.1).1 (List.mem_map_of_mem hm)
    obtain ⟨rfl, hname⟩ := hu k' m.1 m.2.1 m.2.2 hw' (g m hm) (List.append_cancel_right hf)
    have hg' := g m hm
    rw [hname] at hg'
    obtain ⟨ha, hb⟩ := det hg' hg
    exact ⟨rfl, Prod.ext hname (Prod.ext ha hb)⟩
  have mem : (name, n, text) ∈ (match k with | .mark => ms | .node => ns) := by
    cases k with
    | mark =>
      obtain ⟨m, hm, hname⟩ := List.mem_map.1 ((m2 name).2 hw)
      have hg' := m1 m hm
      rw [hname] at hg'
      obtain ⟨ha, hb⟩ := det hg' hg
      exact (show m = (name, n, text) from Prod.ext hname (Prod.ext ha hb)) ▸ hm
    | node =>
      obtain ⟨m, hm, hname⟩ := List.mem_map.1 ((n2 name).2 hw)
      have hg' := n1 m hm
      rw [hname] at hg'
      obtain ⟨ha, hb⟩ := det hg' hg
      exact (show m = (name, n, text) from Prod.ext hname (Prod.ext ha hb)) ▸ hm
  have w1 : .write (n.moduleName ++ ".py".toList) text ∈ (plan env defs).1 := by
    rw [he]
    cases k with
    | mark => exact List.mem_append_left _ (List.mem_append_left _ (List.mem_append_left _ (List.mem_append_left _
        (List.mem_map.2 ⟨_, mem, rfl⟩))))
    | node => exact List.mem_append_left _ (List.mem_append_left _ (List.mem_append_left _ (List.mem_append_right _
        (List.mem_map.2 ⟨_, mem, rfl⟩))))
  have w2 : ∀ c, .write (n.moduleName ++ ".py".toList) c ∈ (plan env defs).1 → c = text := by
    intro c hc
    rw [he] at hc
    simp only [List.mem_append, List.mem_map, List.mem_singleton, reduceCtorEq, and_false, exists_false, or_false,
      Act.write.injEq, hparse, false_and] at hc
    rcases hc with ⟨m, hm, hf, rfl⟩ | ⟨m, hm, hf, rfl⟩
    · rw [(all .mark ms m1 m2 m hm hf).2]
    · rw [(all .node ns n1 n2 m hm hf).2]
  have s1' : .stub (n.moduleName ++ ".py".toList) (.ok (stubText k n)) ∈ (plan env defs).1 := by
    rw [he]
    cases k with
    | mark => exact List.mem_append_left _ (List.mem_append_right _ (List.mem_map.2 ⟨_, mem, rfl⟩))
    | node => exact List.mem_append_right _ (List.mem_map.2 ⟨_, mem, rfl⟩)
  have s2' : ∀ c, .stub (n.moduleName ++ ".py".toList) c ∈ (plan env defs).1 → c = .ok (stubText k n) := by
    intro c hc
    rw [he] at hc
    simp only [List.mem_append, List.mem_map, List.mem_singleton, reduceCtorEq, and_false, exists_false, or_false, false_or,
      Act.stub.injEq] at hc
    rcases hc with ⟨m, hm, hf, rfl⟩ | ⟨m, hm, hf, rfl⟩
    · obtain ⟨rfl, hx⟩ := all .mark ms m1 m2 m hm hf
      rw [hx]
    · obtain ⟨rfl, hx⟩ := all .node ns n1 n2 m hm hf
      rw [hx]
  obtain ⟨ha, hb⟩ := leaves_node (h2 (.nodes, _)) w1 w2
  obtain ⟨hc, hd⟩ := leaves_mixin (h2 (.mixins, _)) s1' s2'
  obtain ⟨b, hb⟩ := Option.isSome_iff_exists.1 hb
  refine ⟨⟨b, hb, ha.trans hb⟩, hd, fun hx => ?_⟩
  obtain ⟨hc1, hc2⟩ := hc hx
  obtain ⟨b', hb'⟩ := Option.isSome_iff_exists.1 hc2
  exact ⟨stubText k n, b', stubText_lines k n, hb', hc1.trans hb'⟩

/-! ## What a killed run leaves, and what happens without mixins/ -/

/-- A schema with one definition. -/
def oneDef : Defs := [("a_mark", .dict [])]

theorem oneDef_plan : ∃ c1 c2 c3, plan sampleEnv oneDef =
    ([.write "mark_a.py".toList c1, .write "parse.py".toList c2, .stub "mark_a.py".toList (.ok c3)], none) := by
  have h : (match plan sampleEnv oneDef with
      | ([.write f1 _, .write f2 _, .stub f3 (.ok _)], none) =>
        f1 == "mark_a.py".toList && f2 == "parse.py".toList && f3 == "mark_a.py".toList
      | _ => false) = true := by decide +kernel
  generalize plan sampleEnv oneDef = x at h
  split at h
  · simp only [Bool.and_eq_true, beq_iff_eq] at h
    obtain ⟨⟨rfl, rfl⟩, rfl⟩ := h
    exact ⟨_, _, _, rfl⟩
  · cases h

theorem oneDef_gen : ∃ n text, Generates sampleEnv .mark oneDef "a_mark".toList n text ∧ n.moduleName = "mark_a".toList := by
  have : (genFile sampleEnv .mark oneDef "a_mark".toList).toOption.map (fun r => r.1.moduleName) = some "mark_a".toList := by
    decide +kernel
  cases hx : genFile sampleEnv .mark oneDef "a_mark".toList with
  | error e => rw [hx] at this; cases this
  | ok r => rw [hx] at this; exact ⟨r.1, r.2.1, ⟨r.2.2, hx⟩, Option.some.inj this⟩

theorem oneDef_nodup : (oneDef.map (·.1)).Nodup := by decide

theorem oneDef_wanted : Wanted oneDef .mark "a_mark".toList := ((C77_which oneDef_nodup).1 _).1 (by decide +kernel)

theorem oneDef_only : ∀ k name, Wanted oneDef k name → ∃ n text, Generates sampleEnv k oneDef name n text := by
  intro k name hw
  obtain ⟨hm, ⟨t, ht⟩, -⟩ := hw
  simp only [oneDef, List.map_cons, List.map_nil, List.mem_singleton] at hm
  have hname : name = "a_mark".toList := by rw [← hm]; simp
  cases k with
  | mark => obtain ⟨n, text, hg, -⟩ := oneDef_gen; exact ⟨n, text, hname ▸ hg⟩
  | node =>
    exfalso
    have h1 : (t ++ suffix .node).getLast? = some 'e' := by simp [suffix]
    rw [← ht, hname] at h1
    revert h1; decide

/-- The locale encodes every text (as a byte, for instance, of 7). -/
def someEncode : Str → Option Bytes := fun _ => some [7]

/-- A run has begun and has found that the mixin does not exist. -/
theorem until_absent (files : Files) (h : files (.mixins, "mark_a.py".toList) = none) :
    ∃ mid s c, Exec sampleEnv someEncode (fun _ => true) (Sys.start files) (.start 0 oneDef :: mid) s ∧ (∀ e ∈ mid, e = .silent 0) ∧
      s.procs 0 = .absent "mark_a.py".toList c [] none ∧ s.files (.mixins, "mark_a.py".toList) = none ∧
      (∀ e ∈ mid, ∀ path x, e ≠ .edit path x) := by
  obtain ⟨c1, c2, c3, hp⟩ := oneDef_plan
  have e0 := ng_step_exec (Step.start (env := sampleEnv) (encode := someEncode) (dirs := fun _ => true) (s := Sys.start files) 0 oneDef rfl)
  rw [hp] at e0
  obtain ⟨m1, s1, a1, b1, d1, f1⟩ := do_write (env := sampleEnv) (encode := someEncode) (dirs := fun _ => true) (p := 0) (b := [7])
    (s := (Sys.start files).set 0 (.running [.write "mark_a.py".toList c1, .write "parse.py".toList c2, .stub "mark_a.py".toList (.ok c3)] none))
    (ng_set_self _ _ _) rfl rfl
  obtain ⟨m2, s2, a2, b2, d2, f2⟩ := do_write (env := sampleEnv) (encode := someEncode) (dirs := fun _ => true) (p := 0) (b := [7])
    d1 rfl rfl
  have hnone : s2.files (.mixins, "mark_a.py".toList) = none := by
    rw [f2 _ (by simp), f1 _ (by simp)]; exact h
  have e3 := (ng_exec_append (ng_exec_append e0 a1) a2).snoc (Step.absent 0 d2 hnone)
  have hs : ∀ e ∈ m1 ++ (m2 ++ [Event.silent 0]), e = .silent 0 := by
    intro e he
    simp only [List.mem_append, List.mem_singleton] at he
    rcases he with he | he | he
    · exact b1 e he
    · exact b2 e he
    · exact he
  refine ⟨m1 ++ (m2 ++ [.silent 0]), _, c3, by simpa using e3, hs, ng_set_self _ _ _, hnone, fun e he path x => ?_⟩
  rw [hs e he]; simp

/-- C79 as stated is false: a mixin somebody creates between the test and the opening of the file is emptied. -/
theorem C79_false : ¬ ∀ (env : Env) (encode : Str → Option Bytes) (dirs : Dir → Bool) (files : Files) (tr tr' : List Event) (s : Sys)
    (f : Str) (b : Bytes), Exec env encode dirs (Sys.start files) (tr ++ .edit (.mixins, f) (some b) :: tr') s →
    (∀ x, .edit (.mixins, f) x ∉ tr') → s.files (.mixins, f) = some b := by
  intro h
  obtain ⟨mid, s, c, h1, -, h3, h4, -⟩ := until_absent (fun _ => none) rfl
  have e1 := h1.snoc (Step.edit (.mixins, "mark_a.py".toList) (some [1]))
  have e2 := e1.snoc (Step.openMixin 0 (by rw [ng_put_procs]; exact h3) rfl)
  have := h sampleEnv someEncode (fun _ => true) (fun _ => none) (.start 0 oneDef :: mid) [.silent 0] _ _ [1]
    (by simpa using e2) (by simp)
  rw [ng_set_files, ng_put_self] at this
  cases this

/-- C80 as stated is false: a run that is killed after it has opened a mixin leaves an empty file, and every later run keeps it,
although nobody ever edited a file. -/
theorem C80_false : ¬ ∀ (env : Env) (encode : Str → Option Bytes) (dirs : Dir → Bool) (tr mid : List Event) (p : Nat) (defs : Defs)
    (s : Sys), Exec env encode dirs (Sys.start fun _ => none) (tr ++ .start p defs :: (mid ++ [.returns p])) s →
    (∀ e ∈ mid, e = .silent p) → (∀ path x, .edit path x ∉ tr) → ∀ k name n text, Wanted defs k name → Generates env k defs name n text →
    ∃ stub b, stub ++ ['\n'] = unlines (stubLines k n.typeName n.moduleName n.className) ∧ encode stub = some b ∧
      s.files (.mixins, n.moduleName ++ ".py".toList) = some b := by
  intro h
  obtain ⟨mid, s, c, h1, -, h3, -, h5⟩ := until_absent (fun _ => none) rfl
  have e1 := (h1.snoc (Step.openMixin 0 h3 rfl)).snoc (Step.crash 0)
  generalize hs : (((s.put (.mixins, "mark_a.py".toList) (some [])).set 0 _).set 0 _ : Sys) = s1 at e1
  have hf : s1.files (.mixins, "mark_a.py".toList) = some [] := by subst hs; rw [ng_set_files, ng_set_files, ng_put_self]
  have hgen := oneDef_gen
  have hn := oneDef_nodup
  have hwant := oneDef_wanted
  have only := oneDef_only
  have hr : ¬ Running 0 (.start 0 oneDef :: mid ++ [.silent 0] ++ [.crash 0]) := by
    rintro ⟨l, d, r, he, -, -, hc⟩
    rcases List.eq_nil_or_concat r with rfl | ⟨r', x, rfl⟩
    · exact Event.noConfusion (List.cons.inj (List.append_inj_right' he rfl)).1
    · have he' : (.start 0 oneDef :: mid ++ [.silent 0]) ++ [Event.crash 0] = (l ++ .start 0 d :: r') ++ [x] := by simpa using he
      have := (List.cons.inj (List.append_inj_right' he' rfl)).1
      exact hc (by simp [← this])
  obtain ⟨mid', s2, m1, m2⟩ := C80_possible e1 hr hn only (fun _ => rfl) (fun _ => rfl)
  obtain ⟨n, text, hg, hmod⟩ := hgen
  obtain ⟨stub, b, -, hb, hfile⟩ := h sampleEnv someEncode (fun _ => true) _ mid' 0 oneDef s2 (ng_exec_append e1 m2) m1
    (by
      intro path x hx
      simp only [List.cons_append, List.mem_cons, List.mem_append, reduceCtorEq, List.not_mem_nil, or_false, false_or] at hx
      exact h5 _ hx _ _ rfl) .mark "a_mark".toList n text hwant hg
  have hl := (C80_run m2 m1).2 (.mixins, "mark_a.py".toList)
  rw [hf] at hl
  have : s2.files (.mixins, "mark_a.py".toList) = some [] := by
    rcases hl with ⟨-, h⟩ | ⟨h, -⟩ | ⟨-, h⟩
    · exact h
    · cases h
    · exact h
  rw [hmod] at hfile
  have hname : "mark_a".toList ++ ".py".toList = "mark_a.py".toList := by decide
  rw [hname, this] at hfile
  rw [← hfile] at hb
  cases hb

/-- The directory mixins/ does not exist in the repository: as long as nobody creates it, no run that has a definition to generate
ever returns. -/
theorem C80_no_mixins {env : Env} {encode : Str → Option Bytes} {dirs : Dir → Bool} {files : Files} {tr : List Event} {s : Sys}
    (hex : Exec env encode dirs (Sys.start files) tr s) (hd : dirs .mixins = false) (hf : ∀ f, files (.mixins, f) = none)
    (he : ∀ f x, .edit (.mixins, f) x ∉ tr)
    (hs : ∀ p defs, .start p defs ∈ tr → (defs.map (·.1)).Nodup ∧ ∃ k name, Wanted defs k name) (p : Nat) : .returns p ∉ tr := by
  have stub : ∀ defs, (defs.map (·.1)).Nodup → (∃ k name, Wanted defs k name) → (plan env defs).2 = none →
      ∃ f c, .stub f c ∈ (plan env defs).1 := by
    rintro defs hn ⟨k, name, hw⟩ hp
    obtain ⟨ms, ns, -, -, m2, n2, -, -, he⟩ := C77_files (acts := (plan env defs).1) hn (Prod.ext rfl hp)
    rw [he]
    cases k with
    | mark =>
      obtain ⟨m, hm, -⟩ := List.mem_map.1 ((m2 name).2 hw)
      exact ⟨_, _, List.mem_append_left _ (List.mem_append_right _ (List.mem_map.2 ⟨m, hm, rfl⟩))⟩
    | node =>
      obtain ⟨m, hm, -⟩ := List.mem_map.1 ((n2 name).2 hw)
      exact ⟨_, _, List.mem_append_right _ (List.mem_map.2 ⟨m, hm, rfl⟩)⟩
  suffices h : (.returns p ∉ tr) ∧ (∀ f, s.files (.mixins, f) = none) ∧ ∀ q, match s.procs q with
      | .idle => True
      | .running todo err => err = none → ∃ f c, .stub f c ∈ todo
      | .absent _ _ _ _ => True
      | .opened x _ todo err => x.1 = .nodes ∧ (err = none → ∃ f c, .stub f c ∈ todo)
      | .writing x _ _ todo err => x.1 = .nodes ∧ (err = none → ∃ f c, .stub f c ∈ todo) from h.1
  induction hex with
  | nil => exact ⟨by simp, hf, fun q => trivial⟩
  | @snoc tr s1 s2 e _ hst ih =>
    obtain ⟨i0, i1, i2⟩ := ih (fun f x hx => he f x (by simp [hx])) (fun p d hx => hs p d (by simp [hx]))
    have set : ∀ (s' : Sys) (q : Nat) (st : Stage), e ≠ .returns p → s'.procs = s1.procs → (∀ f, s'.files (.mixins, f) = none) →
        (match st with
        | .idle => True
        | .running todo err => err = none → ∃ f c, .stub f c ∈ todo
        | .absent _ _ _ _ => True
        | .opened x _ todo err => x.1 = .nodes ∧ (err = none → ∃ f c, .stub f c ∈ todo)
        | .writing x _ _ todo err => x.1 = .nodes ∧ (err = none → ∃ f c, .stub f c ∈ todo)) →
        (.returns p ∉ tr ++ [e]) ∧ (∀ f, (s'.set q st).files (.mixins, f) = none) ∧ ∀ r, match (s'.set q st).procs r with
        | .idle => True
        | .running todo err => err = none → ∃ f c, .stub f c ∈ todo
        | .absent _ _ _ _ => True
        | .opened x _ todo err => x.1 = .nodes ∧ (err = none → ∃ f c, .stub f c ∈ todo)
        | .writing x _ _ todo err => x.1 = .nodes ∧ (err = none → ∃ f c, .stub f c ∈ todo) := by
      intro s' q st hne hp hf h
      refine ⟨by simp [i0, Ne.symm hne], hf, fun r => ?_⟩
      by_cases hrq : r = q
      · subst hrq; rw [ng_set_self]; exact h
      · rw [ng_set_other _ _ hrq, hp]; exact i2 r
    have get : ∀ {q : Nat} {st : Stage}, s1.procs q = st → (match st with
        | .idle => True
        | .running todo err => err = none → ∃ f c, .stub f c ∈ todo
        | .absent _ _ _ _ => True
        | .opened x _ todo err => x.1 = .nodes ∧ (err = none → ∃ f c, .stub f c ∈ todo)
        | .writing x _ _ todo err => x.1 = .nodes ∧ (err = none → ∃ f c, .stub f c ∈ todo)) := by
      rintro q st rfl; exact i2 q
    have put : ∀ {x : Dir × Str} (b : Option Bytes), x.1 = .nodes → ∀ f, (s1.put x b).files (.mixins, f) = none := by
      rintro ⟨d, f'⟩ b rfl f
      rw [ng_put_other _ _ (by simp)]; exact i1 f
    have tail : ∀ {f' c' : Str} {todo : List Act} {err : Option PyErr},
        (err = none → ∃ f c, .stub f c ∈ Act.write f' c' :: todo) → (err = none → ∃ f c, .stub f c ∈ todo) := by
      intro f' c' todo err h h'
      obtain ⟨f, c, hm⟩ := h h'
      exact ⟨f, c, by simpa using hm⟩
    cases hst with
    | start q defs hq =>
      have := hs q defs (by simp)
      exact set s1 q _ (by simp) rfl i1 (stub defs this.1 this.2)
    | openNode q hq hd => have g := get hq; exact set (s1.put _ _) q _ (by simp) rfl (put _ rfl) ⟨rfl, tail g⟩
    | openNodeFail q hq => exact set s1 q _ (by simp) rfl i1 trivial
    | skip q hq hx => rw [i1] at hx; cases hx
    | absent q hq hx => exact set s1 q _ (by simp) rfl i1 trivial
    | absentFail q hq hx => exact set s1 q _ (by simp) rfl i1 trivial
    | openMixin q hq hd' => rw [hd] at hd'; cases hd'
    | openMixinFail q hq => exact set s1 q _ (by simp) rfl i1 trivial
    | encode q hq hc => exact set s1 q _ (by simp) rfl i1 (get hq)
    | encodeFail q hq hc => exact set s1 q _ (by simp) rfl i1 trivial
    | write q n hq hn' => have g := get hq; exact set (s1.put _ _) q _ (by simp) rfl (put _ g.1) g
    | writeFail q hq => exact set s1 q _ (by simp) rfl i1 trivial
    | close q hq => exact set s1 q _ (by simp) rfl i1 (get hq).2
    | returns q hq =>
      obtain ⟨f, c, hm⟩ := get hq rfl
      cases hm
    | raises q hq => exact set s1 q _ (by simp) rfl i1 trivial
    | crash q => exact set s1 q _ (by simp) rfl i1 trivial
    | edit x b =>
      obtain ⟨d, f'⟩ := x
      cases d with
      | nodes => exact ⟨by simp [i0], put b rfl, i2⟩
      | mixins => exact absurd (by simp) (he f' b)

/-! ## Histories that meet the hypotheses -/

theorem not_running_nil (p : Nat) : ¬ Running p [] := by
  rintro ⟨l, d, r, he, -⟩
  simp at he

/-- A complete run, from any files. -/
theorem complete_run (files : Files) (p : Nat) : ∃ mid s, (∀ e ∈ mid, e = .silent p) ∧
    Exec sampleEnv someEncode (fun _ => true) (Sys.start files) (.start p oneDef :: (mid ++ [.returns p])) s :=
  C80_possible .nil (not_running_nil p) oneDef_nodup oneDef_only (fun _ => rfl) fun _ => rfl

/-- A run over a mixin that was there. -/
example : ∃ files mid s, Exec sampleEnv someEncode (fun _ => true) (Sys.start files) (.start 0 oneDef :: (mid ++ [.returns 0])) s ∧
    s.files (.mixins, "mark_a.py".toList) = some [1] := by
  obtain ⟨mid, s, h1, h2⟩ := complete_run (fun _ => some [1]) 0
  refine ⟨_, mid, s, h2, C79_initial h2 rfl fun x hx => ?_⟩
  simp only [List.mem_cons, reduceCtorEq, List.mem_append, List.not_mem_nil, or_false, false_or] at hx
  exact Event.noConfusion (h1 _ hx)

/-- A mixin written before a run, and nodes/base.py. -/
example : ∃ tr s, Exec sampleEnv someEncode (fun _ => true) (Sys.start fun _ => none)
      ([] ++ .edit (.mixins, "mark_a.py".toList) (some [1]) :: tr) s ∧ .returns 0 ∈ tr ∧
    s.files (.mixins, "mark_a.py".toList) = some [1] ∧ s.files (.nodes, "base.py".toList) = none := by
  have e1 := ng_step_exec (Step.edit (env := sampleEnv) (encode := someEncode) (dirs := fun _ => true)
    (s := Sys.start fun _ => none) (.mixins, "mark_a.py".toList) (some [1]))
  have hr : ¬ Running 0 [.edit (.mixins, "mark_a.py".toList) (some [1])] := by
    rintro ⟨l, d, r, he, -⟩
    have : Event.start 0 d ∈ [Event.edit (.mixins, "mark_a.py".toList) (some [1])] := by rw [he]; simp
    simp at this
  obtain ⟨mid, s, h1, h2⟩ := C80_possible e1 hr oneDef_nodup oneDef_only (fun _ => rfl) fun _ => rfl
  have hex := ng_exec_append e1 h2
  have hno : ∀ path x, Event.edit path x ∉ Event.start 0 oneDef :: (mid ++ [.returns 0]) := by
    intro path x hx
    simp only [List.mem_cons, reduceCtorEq, List.mem_append, List.not_mem_nil, or_false, false_or] at hx
    exact Event.noConfusion (h1 _ hx)
  refine ⟨_, s, hex, by simp, C79_partial (tr := []) hex (fun p => not_running_nil p) (hno _), ?_⟩
  refine C79_others hex (fun p defs hx => ?_) (fun x hx => ?_)
  · have hd : defs = oneDef := by
      simp only [List.singleton_append, List.mem_cons, reduceCtorEq, Event.start.injEq, List.mem_append, List.not_mem_nil, or_false,
        false_or] at hx
      rcases hx with hx | hx
      · exact hx.2
      · exact Event.noConfusion (h1 _ hx)
    subst hd
    obtain ⟨c1, c2, c3, hp⟩ := oneDef_plan
    rw [hp]
    rintro ⟨c, hc⟩
    simp at hc
  · rcases List.mem_append.1 hx with hx | hx
    · simp at hx
    · exact hno _ _ hx

/-- Two runs after each other, of different processes. -/
example : ∃ mid mid' s s', Exec sampleEnv someEncode (fun _ => true) (Sys.start fun _ => none) (.start 0 oneDef :: (mid ++ [.returns 0])) s ∧
    Exec sampleEnv someEncode (fun _ => true) s (.start 1 oneDef :: (mid' ++ [.returns 1])) s' ∧ s'.files = s.files := by
  obtain ⟨mid, s, h1, h2⟩ := complete_run (fun _ => none) 0
  have hr : ¬ Running 1 (.start 0 oneDef :: (mid ++ [.returns 0])) := by
    rintro ⟨l, d, r, he, -⟩
    have : Event.start 1 d ∈ Event.start 0 oneDef :: (mid ++ [.returns 0]) := by rw [he]; simp
    simp only [List.mem_cons, reduceCtorEq, Event.start.injEq, Nat.one_ne_zero, false_and, List.mem_append, List.not_mem_nil, or_false,
      false_or] at this
    exact Event.noConfusion (h1 _ this)
  obtain ⟨mid', s', h3, h4⟩ := C80_possible h2 hr oneDef_nodup oneDef_only (fun _ => rfl) fun _ => rfl
  exact ⟨mid, mid', s, s', h2, h4, C80_again h2 h4 h1 h3⟩

/-- `C80_partial` on that run: the definition and its names. -/
example : ∃ n text, Wanted oneDef .mark "a_mark".toList ∧ Generates sampleEnv .mark oneDef "a_mark".toList n text ∧
    ∀ k' name' n' text', Wanted oneDef k' name' → Generates sampleEnv k' oneDef name' n' text' → n'.moduleName = n.moduleName →
      k' = .mark ∧ name' = "a_mark".toList := by
  obtain ⟨n, text, hg, hm⟩ := oneDef_gen
  refine ⟨n, text, oneDef_wanted, hg, fun k' name' n' text' hw _ _ => ?_⟩
  obtain ⟨hmem, ⟨t, ht⟩, -⟩ := hw
  simp only [oneDef, List.map_cons, List.map_nil, List.mem_singleton] at hmem
  have hname : name' = "a_mark".toList := by rw [← hmem]; simp
  refine ⟨?_, hname⟩
  cases k' with
  | mark => rfl
  | node =>
    exfalso
    have h1 : (t ++ suffix .node).getLast? = some 'e' := by simp [suffix]
    rw [← ht, hname] at h1
    revert h1; decide

/-- Without mixins/ a run begins, overwrites the modules, and cannot end. -/
example : ∃ mid s, Exec sampleEnv someEncode (fun d => d = .nodes) (Sys.start fun _ => none) (.start 0 oneDef :: mid) s ∧
    s.files (.nodes, "mark_a.py".toList) ≠ none ∧ ∀ p, .returns p ∉ Event.start 0 oneDef :: mid := by
  obtain ⟨c1, c2, c3, hp⟩ := oneDef_plan
  have e0 := ng_step_exec (Step.start (env := sampleEnv) (encode := someEncode) (dirs := fun d => d = .nodes)
    (s := Sys.start fun _ => none) 0 oneDef rfl)
  rw [hp] at e0
  have e1 := e0.snoc (Step.openNode 0 (ng_set_self _ _ _) rfl)
  refine ⟨_, _, e1, by rw [ng_set_files, ng_put_self]; simp, fun p => ?_⟩
  refine C80_no_mixins e1 rfl (fun _ => rfl) (by simp) (fun p defs hx => ?_) p
  have : p = 0 ∧ defs = oneDef := by simpa using hx
  obtain ⟨-, rfl⟩ := this
  exact ⟨oneDef_nodup, .mark, _, oneDef_wanted⟩

end Verif.Props
