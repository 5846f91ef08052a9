import Verif.Lemmas.AnalyzeRefs
/-!
# C73, C74: the order in which node types can be implemented
-/

namespace Verif.Props
open Verif Verif.Analyze Verif.Spec.Analyze

/-! ## C73 -/

/-- C73: `topological_sort` ends, lists every entry exactly once, in the intended order (always the alphabetically first of
the entries whose dependencies are already listed, then those on or behind cycles, alphabetically), whatever the graph, cyclic
or not, with dependencies that are no entries, and whatever the iteration order of the set of entries. -/
theorem C73_order (g : Graph) (hw : WF g) (order : List Str) (hn : order.Nodup) (ho : ∀ n, n ∈ order ↔ Entry g n) :
    ∃ result, topologicalSort g order = some result ∧ result.Nodup ∧ (∀ n, n ∈ result ↔ Entry g n) ∧
      IsOrder (Entry g) (Dep g) result := by
  have hp : order.Perm g.keys :=
    (List.perm_ext_iff_of_nodup hn (show g.keys.Nodup from hw.1)).mpr fun n => by rw [ho, mem_keys]
  obtain ⟨r, h1, h2, h3⟩ := sort_spec hw hp
  exact ⟨r, h1, h2.nodup_iff.mpr hw.1, fun n => by rw [h2.mem_iff, mem_keys], h3⟩

/-- Entries not on or behind a cycle come after what they need. -/
theorem needs_first {entry : Str → Prop} {dep : Str → Str → Prop} {result a b : List Str} {n d : Str}
    (h : IsOrder entry dep result) (hab : result = a ++ n :: b) (hn : result.Nodup) (hc : ¬ Cyclic dep n)
    (hd : dep n d) : d ∈ a := by
  obtain ⟨front, back, rfl, h1, _, h3⟩ := h
  have hnb : n ∉ back := fun hb => hc ((h3 n).mp hb).2
  have hnf : n ∈ front := by
    have : n ∈ front ++ back := by rw [hab]; simp
    exact (List.mem_append.mp this).resolve_right hnb
  obtain ⟨a', b', rfl⟩ := List.append_of_mem hnf
  have := h1 a' n b' rfl
  have hsplit : a = a' := by
    rw [List.append_assoc, List.cons_append] at hab
    have hn' := hn
    rw [List.append_assoc, List.cons_append] at hn'
    have n1 : n ∉ a' := fun h => (List.nodup_append.mp hn').2.2 _ h _ (by simp) rfl
    rw [hab] at hn'
    have n2 : n ∉ a := fun h => (List.nodup_append.mp hn').2.2 _ h _ (by simp) rfl
    have e1 : (a' ++ n :: (b' ++ back)).idxOf n = a'.length := by rw [List.idxOf_append_of_notMem n1]; simp
    have e2 : (a ++ n :: b).idxOf n = a.length := by rw [List.idxOf_append_of_notMem n2]; simp
    rw [hab, e2] at e1
    exact (List.append_inj_left hab e1.symm).symm
  rw [hsplit]
  exact this.1 d hd

/-- C73: whatever is not on or behind a cycle is listed after everything it needs. -/
theorem C73_needs_first (g : Graph) (hw : WF g) (order : List Str) (hn : order.Nodup) (ho : ∀ n, n ∈ order ↔ Entry g n)
    (result a b : List Str) (n d : Str) (hr : topologicalSort g order = some result) (hab : result = a ++ n :: b)
    (hc : ¬ Cyclic (Dep g) n) (hd : Dep g n d) : d ∈ a := by
  obtain ⟨r, h1, h2, h3, h4⟩ := C73_order g hw order hn ho
  rw [hr] at h1
  cases h1
  exact needs_first h4 hab h2 hc hd

/-- C73: the result depends only on the entries and on what needs what, not on the order in which the dict was filled or in
which Python happens to iterate its sets. -/
theorem C73_deterministic (g g' : Graph) (hw : WF g) (hw' : WF g') (order order' : List Str) (hn : order.Nodup)
    (hn' : order'.Nodup) (ho : ∀ n, n ∈ order ↔ Entry g n) (ho' : ∀ n, n ∈ order' ↔ Entry g' n)
    (he : ∀ n, Entry g n ↔ Entry g' n) (hd : ∀ n d, Dep g n d ↔ Dep g' n d) :
    topologicalSort g order = topologicalSort g' order' := by
  obtain ⟨r, h1, h2, h3, h4⟩ := C73_order g hw order hn ho
  obtain ⟨r', h1', h2', h3', h4'⟩ := C73_order g' hw' order' hn' ho'
  have e1 : Entry g = Entry g' := funext fun n => propext (he n)
  have e2 : Dep g = Dep g' := funext fun n => funext fun d => propext (hd n d)
  rw [h1, h1']
  rw [← e1, ← e2] at h4'
  rw [order_unique h2 ((List.perm_ext_iff_of_nodup h2 h2').mpr fun n => by rw [h3, h3', e1]) (fun n hm => (h3 n).mp hm) h4 h4']

/-- C73: the description of the order leaves no freedom. -/
theorem C73_unique (entry : Str → Prop) (dep : Str → Str → Prop) (r r' : List Str) (hn : r.Nodup) (hn' : r'.Nodup)
    (he : ∀ n, n ∈ r ↔ entry n) (he' : ∀ n, n ∈ r' ↔ entry n) (h : IsOrder entry dep r) (h' : IsOrder entry dep r') :
    r = r' :=
  order_unique hn ((List.perm_ext_iff_of_nodup hn hn').mpr fun n => by rw [he, he']) (fun n hm => (he n).mp hm) h h'

/-- A graph with a cycle, something behind it, a dependency that is no entry and a chain. -/
def sampleGraph : Graph :=
  [("a".toList, ["b".toList, "x".toList]), ("e".toList, ["c".toList]), ("b".toList, []), ("c".toList, ["d".toList]),
   ("d".toList, ["c".toList, "b".toList])]

theorem sampleGraph_ok : WF sampleGraph ∧ (["d", "a", "c", "e", "b"].map String.toList).Nodup ∧
    ∀ n, n ∈ ["d", "a", "c", "e", "b"].map String.toList ↔ Entry sampleGraph n := by
  refine ⟨⟨by decide, by decide⟩, by decide, fun n => ?_⟩
  rw [← mem_keys]
  exact (show (["d", "a", "c", "e", "b"].map String.toList).Perm sampleGraph.keys by decide).mem_iff

theorem sampleGraph_sorted : topologicalSort sampleGraph (["d", "a", "c", "e", "b"].map String.toList) =
    some (["b", "a", "c", "d", "e"].map String.toList) := by decide +kernel

/-! ## C74 -/

/-- C74: `extract_refs` collects exactly the definitions that are referred to anywhere inside, at any depth; it raises
AttributeError exactly if some `$ref` is not a string. -/
theorem C74_refs (v : Val) : (∀ refs, extractRefs v [] = .ok refs → refs.Nodup ∧ ∀ name, name ∈ refs ↔ Refers v name) ∧
    ((∃ e, extractRefs v [] = .error e) ↔ BadRef v) ∧ ∀ e, extractRefs v [] = .error e → e = .attributeError := by
  have := extractRefs_spec v []
  cases h : extractRefs v [] with
  | ok r =>
    rw [h] at this
    refine ⟨?_, ?_, by simp⟩
    · rintro _ ⟨⟩
      exact ⟨this.2.1 List.nodup_nil, fun name => by rw [this.1]; simp⟩
    · simpa using this.2.2
  | error e =>
    rw [h] at this
    refine ⟨by simp, ⟨fun _ => this.2, fun _ => ⟨e, rfl⟩⟩, ?_⟩
    rintro _ ⟨⟩
    exact this.1

/-- C74: the base type of a definition name: `b_node` and its variants `b_with_.._node`, `b_mark`. -/
theorem C74_base_type (name b : Str) (hb : b ≠ []) : baseType name = some b ↔ Of name b := by
  rw [← of_iff]; simp [hb]

/-- C74: for every schema, the analysis lists every base type that has a node definition exactly once, in the intended order
for the relation "some definition of the one refers, anywhere inside, to a definition of the other"; `order` is the iteration
order of the set of base types. -/
theorem C74_order (defs : List (String × Val)) (hd : (defs.map (·.1)).Nodup)
    (hb : ∀ name v, (name, v) ∈ defs → "_node".toList <:+ name.toList → ¬ BadRef v) (order : List Str) (hn : order.Nodup)
    (ho : ∀ b, b ∈ order ↔ IsBase defs b) :
    ∃ result, sortedBases defs order = .ok (some result) ∧ result.Nodup ∧ (∀ b, b ∈ result ↔ IsBase defs b) ∧
      IsOrder (IsBase defs) (Needs defs) result := by
  obtain ⟨g, h1, h2, h3⟩ := nodeDeps_ok defs fun name v hm he =>
    hb name v hm (List.isSuffixOf_iff_suffix.mp (by simpa [endsWith] using he))
  obtain ⟨hw, he, hdep⟩ := baseGraph_spec hd h2 h3
  obtain ⟨r, r1, r2, r3, r4⟩ := C73_order (baseGraph g) hw order hn (fun n => by rw [he, ho])
  rw [he, hdep] at r4
  refine ⟨r, ?_, r2, fun b => by rw [r3, he], r4⟩
  rw [sortedBases, h1]
  show Except.ok _ = _
  rw [r1]

/-- C74: the analysis fails, with AttributeError, if a node definition has a `$ref` that is not a string. -/
theorem C74_bad_ref (defs : List (String × Val)) (order : List Str) (name : String) (v : Val) (hm : (name, v) ∈ defs)
    (he : "_node".toList <:+ name.toList) (hb : BadRef v) : sortedBases defs order = .error .attributeError := by
  rw [sortedBases, nodeDeps_error defs name v hm (by
    rw [endsWith]; exact List.isSuffixOf_iff_suffix.mpr he) hb]
  rfl

/-- C74: a base type that is not on or behind a cycle of references is listed after every base type its definitions
refer to. -/
theorem C74_needs_first (defs : List (String × Val)) (hd : (defs.map (·.1)).Nodup)
    (hb : ∀ name v, (name, v) ∈ defs → "_node".toList <:+ name.toList → ¬ BadRef v) (order : List Str) (hn : order.Nodup)
    (ho : ∀ b, b ∈ order ↔ IsBase defs b) (result a c : List Str) (b b' : Str)
    (hr : sortedBases defs order = .ok (some result)) (hab : result = a ++ b :: c) (hc : ¬ Cyclic (Needs defs) b)
    (hneeds : Needs defs b b') : b' ∈ a := by
  obtain ⟨r, h1, h2, h3, h4⟩ := C74_order defs hd hb order hn ho
  rw [hr] at h1
  cases h1
  exact needs_first h4 hab h2 hc hneeds

/-- C74: the list is the same in every run. -/
theorem C74_deterministic (defs : List (String × Val)) (hd : (defs.map (·.1)).Nodup)
    (hb : ∀ name v, (name, v) ∈ defs → "_node".toList <:+ name.toList → ¬ BadRef v) (order order' : List Str)
    (hn : order.Nodup) (hn' : order'.Nodup) (ho : ∀ b, b ∈ order ↔ IsBase defs b) (ho' : ∀ b, b ∈ order' ↔ IsBase defs b) :
    sortedBases defs order = sortedBases defs order' := by
  obtain ⟨r, h1, h2, h3, h4⟩ := C74_order defs hd hb order hn ho
  obtain ⟨r', h1', h2', h3', h4'⟩ := C74_order defs hd hb order' hn' ho'
  rw [h1, h1', C73_unique _ _ r r' h2 h2' h3 h3' h4 h4']

/-- A schema: documents contain paragraphs and (indirectly) themselves through panels; paragraphs have a variant and refer to
text and to a mark. -/
def sampleDefs : List (String × Val) :=
  [("doc_node", .dict [("items", .list [.dict [("$ref", .str "#/definitions/panel_node".toList)],
      .dict [("$ref", .str "#/definitions/paragraph_node".toList)]])]),
   ("panel_node", .dict [("$ref", .str "#/definitions/doc_node".toList)]),
   ("paragraph_with_marks_node", .dict [("$ref", .str "#/definitions/strong_mark".toList)]),
   ("paragraph_node", .dict [("$ref", .str "#/definitions/text_node".toList)]),
   ("strong_mark", .dict []), ("text_node", .dict [])]

theorem sampleDefs_sorted : (sampleDefs.map (·.1)).Nodup ∧
    sortedBases sampleDefs (["paragraph", "text", "doc", "panel"].map String.toList) =
      .ok (some (["text", "paragraph", "doc", "panel"].map String.toList)) := by
  refine ⟨by decide, ?_⟩
  have : (match sortedBases sampleDefs (["paragraph", "text", "doc", "panel"].map String.toList) with
    | .ok r => r == some (["text", "paragraph", "doc", "panel"].map String.toList) | .error _ => false) = true := by
    decide +kernel
  revert this
  split
  · intro h; rw [beq_iff_eq] at h; simp_all
  · simp

/-- The sample meets the hypotheses of `C74_order`. -/
theorem sampleDefs_ok : (∀ name v, (name, v) ∈ sampleDefs → "_node".toList <:+ name.toList → ¬ BadRef v) ∧
    ∀ b, b ∈ ["paragraph", "text", "doc", "panel"].map String.toList ↔ IsBase sampleDefs b := by
  constructor
  · intro name v hm _ hb
    rw [← (C74_refs v).2.1] at hb
    simp only [sampleDefs, List.mem_cons, Prod.mk.injEq, List.not_mem_nil, or_false] at hm
    obtain ⟨e, he⟩ := hb
    rcases hm with ⟨-, rfl⟩ | ⟨-, rfl⟩ | ⟨-, rfl⟩ | ⟨-, rfl⟩ | ⟨-, rfl⟩ | ⟨-, rfl⟩ <;> exact absurd he nofun
  · intro b
    constructor
    · intro h
      simp only [List.map_cons, List.map_nil, List.mem_cons, List.not_mem_nil, or_false] at h
      rcases h with rfl | rfl | rfl | rfl
      · exact ⟨"paragraph_node", _, by rw [sampleDefs]; repeat' (first | exact List.mem_cons_self | apply List.mem_cons_of_mem), (nodeOf_iff (by decide)).mp ⟨by decide, by decide⟩⟩
      · exact ⟨"text_node", _, by rw [sampleDefs]; repeat' (first | exact List.mem_cons_self | apply List.mem_cons_of_mem), (nodeOf_iff (by decide)).mp ⟨by decide, by decide⟩⟩
      · exact ⟨"doc_node", _, by rw [sampleDefs]; repeat' (first | exact List.mem_cons_self | apply List.mem_cons_of_mem), (nodeOf_iff (by decide)).mp ⟨by decide, by decide⟩⟩
      · exact ⟨"panel_node", _, by rw [sampleDefs]; repeat' (first | exact List.mem_cons_self | apply List.mem_cons_of_mem), (nodeOf_iff (by decide)).mp ⟨by decide, by decide⟩⟩
    · rintro ⟨name, v, hm, hb⟩
      have := of_iff.mpr (.inl hb : Of name.toList b)
      simp only [sampleDefs, List.mem_cons, Prod.mk.injEq, List.not_mem_nil, or_false] at hm
      rcases hm with ⟨rfl, -⟩ | ⟨rfl, -⟩ | ⟨rfl, -⟩ | ⟨rfl, -⟩ | ⟨rfl, -⟩ | ⟨rfl, -⟩
      all_goals
        have h1 := Option.some.inj this.1.symm
        subst h1
      · decide
      · decide
      · decide
      · decide
      · obtain ⟨_, s, hs, _⟩ := hb
        have := List.append_inj_right' (show "strong".toList ++ "_mark".toList = s ++ "_node".toList from hs) (by decide)
        exact absurd this (by decide)
      · decide

/-! ### The theorems on these samples -/

example := C73_order sampleGraph sampleGraph_ok.1 _ sampleGraph_ok.2.1 sampleGraph_ok.2.2

theorem sampleGraph_a_acyclic : ¬ Cyclic (Dep sampleGraph) "a".toList := by
  have hb : ∀ d, ¬ Dep sampleGraph "b".toList d := by
    rintro d ⟨⟨ds, hm, hd⟩, _⟩
    simp only [sampleGraph, List.mem_cons, Prod.mk.injEq, List.not_mem_nil, or_false] at hm
    rcases hm with ⟨h, rfl⟩ | ⟨h, rfl⟩ | ⟨h, rfl⟩ | ⟨h, rfl⟩ | ⟨h, rfl⟩ <;> first | exact absurd h (by decide) | simp at hd
  have ha : ∀ d, Dep sampleGraph "a".toList d → d = "b".toList := by
    rintro d ⟨⟨ds, hm, hd⟩, ⟨es, he⟩⟩
    simp only [sampleGraph, List.mem_cons, Prod.mk.injEq, List.not_mem_nil, or_false] at hm
    rcases hm with ⟨h, rfl⟩ | ⟨h, rfl⟩ | ⟨h, rfl⟩ | ⟨h, rfl⟩ | ⟨h, rfl⟩ <;> try exact absurd h (by decide)
    simp only [List.mem_cons, List.not_mem_nil, or_false] at hd
    rcases hd with rfl | rfl
    · rfl
    · simp only [sampleGraph, List.mem_cons, Prod.mk.injEq, List.not_mem_nil, or_false] at he
      rcases he with ⟨h, -⟩ | ⟨h, -⟩ | ⟨h, -⟩ | ⟨h, -⟩ | ⟨h, -⟩ <;> exact absurd h (by decide)
  have hab : ∀ m, Relation.ReflTransGen (Dep sampleGraph) "a".toList m → m = "a".toList ∨ m = "b".toList := by
    intro m h
    induction h with
    | refl => exact .inl rfl
    | tail _ hs ih =>
      rcases ih with rfl | rfl
      · exact .inr (ha _ hs)
      · exact absurd hs (hb _)
  rintro ⟨m, hm, hc⟩
  obtain ⟨c, hc1, hc2⟩ := Relation.TransGen.head'_iff.mp hc
  rcases hab m hm with rfl | rfl
  · have := ha _ hc1
    subst this
    rcases Relation.ReflTransGen.cases_head hc2 with h | ⟨_, h, _⟩
    · exact absurd h (by decide)
    · exact hb _ h
  · exact hb _ hc1

example := C73_needs_first sampleGraph sampleGraph_ok.1 _ sampleGraph_ok.2.1 sampleGraph_ok.2.2 _
  ["b".toList] (["c", "d", "e"].map String.toList) "a".toList "b".toList sampleGraph_sorted rfl sampleGraph_a_acyclic
  ⟨⟨_, by rw [sampleGraph]; exact List.mem_cons_self, List.mem_cons_self⟩, [], by simp [sampleGraph]⟩

/-- The same graph with entries and names in another order. -/
example := C73_deterministic sampleGraph sampleGraph.reverse sampleGraph_ok.1 ⟨by decide, by decide⟩ _ _
  sampleGraph_ok.2.1 sampleGraph_ok.2.1 sampleGraph_ok.2.2
  (fun n => (sampleGraph_ok.2.2 n).trans ⟨fun ⟨ds, h⟩ => ⟨ds, List.mem_reverse.mpr h⟩, fun ⟨ds, h⟩ => ⟨ds, List.mem_reverse.mp h⟩⟩)
  (fun _ => ⟨fun ⟨ds, h⟩ => ⟨ds, List.mem_reverse.mpr h⟩, fun ⟨ds, h⟩ => ⟨ds, List.mem_reverse.mp h⟩⟩)
  (fun _ _ => by simp only [Dep, Entry, List.mem_reverse])

example := C74_base_type "paragraph_with_marks_node".toList "paragraph".toList (by decide)

theorem sampleDefs_names : (["paragraph", "text", "doc", "panel"].map String.toList).Nodup := by decide

example := C74_order sampleDefs sampleDefs_sorted.1 sampleDefs_ok.1 _ sampleDefs_names sampleDefs_ok.2

example := C74_deterministic sampleDefs sampleDefs_sorted.1 sampleDefs_ok.1 _
  (["panel", "doc", "text", "paragraph"].map String.toList) sampleDefs_names (by decide) sampleDefs_ok.2
  (fun b => (show (["panel", "doc", "text", "paragraph"].map String.toList).Perm
    (["paragraph", "text", "doc", "panel"].map String.toList) by decide).mem_iff.trans (sampleDefs_ok.2 b))

example := C74_bad_ref (("bad_node", .dict [("x", .list [.dict [("$ref", .int 3)]])]) :: sampleDefs) [] "bad_node" _
  List.mem_cons_self (by decide) (.value _ _ _ List.mem_cons_self (.item _ _ List.mem_cons_self (.here _ _ rfl nofun)))

example : True := by
  obtain ⟨r, _, hn, he, ho⟩ := C73_order sampleGraph sampleGraph_ok.1 _ sampleGraph_ok.2.1 sampleGraph_ok.2.2
  have := C73_unique (Entry sampleGraph) (Dep sampleGraph) r r hn hn he he ho ho
  trivial

/-- What the paragraph and the text of the sample need. -/
theorem sampleDefs_needs (b b' : Str) (h : Needs sampleDefs b b') :
    (b = "paragraph".toList → b' = "text".toList) ∧ b ≠ "text".toList := by
  obtain ⟨-, hb', name, v, r, hm, hn, hr, ho⟩ := h
  have h1 := (of_iff.mpr (.inl hn : Of name.toList b)).1
  have h2 := of_iff.mpr ho
  have h3 := (C74_refs v).1
  rw [← sampleDefs_ok.2] at hb'
  simp only [sampleDefs, List.mem_cons, Prod.mk.injEq, List.not_mem_nil, or_false] at hm
  rcases hm with ⟨rfl, rfl⟩ | ⟨rfl, rfl⟩ | ⟨rfl, rfl⟩ | ⟨rfl, rfl⟩ | ⟨rfl, rfl⟩ | ⟨rfl, rfl⟩
  all_goals
    have h4 := ((h3 _ rfl).2 r).mpr hr
    have h1 := Option.some.inj h1
    subst h1
  · exact ⟨fun h => absurd h (by decide), by decide⟩
  · exact ⟨fun h => absurd h (by decide), by decide⟩
  · have : r = "strong_mark".toList := List.mem_singleton.mp h4
    subst this
    have h5 := Option.some.inj h2.1
    subst h5
    exact absurd hb' (by decide)
  · have : r = "text_node".toList := List.mem_singleton.mp h4
    subst this
    have h5 := Option.some.inj h2.1
    subst h5
    exact ⟨fun _ => by decide, by decide⟩
  · exact absurd h4 (by simp)
  · exact absurd h4 (by simp)

theorem sampleDefs_acyclic : ¬ Cyclic (Needs sampleDefs) "paragraph".toList := by
  have hab : ∀ m, Relation.ReflTransGen (Needs sampleDefs) "paragraph".toList m → m = "paragraph".toList ∨ m = "text".toList := by
    intro m h
    induction h with
    | refl => exact .inl rfl
    | tail _ hs ih =>
      rcases ih with rfl | rfl
      · exact .inr ((sampleDefs_needs _ _ hs).1 rfl)
      · exact absurd rfl (sampleDefs_needs _ _ hs).2
  rintro ⟨m, hm, hc⟩
  obtain ⟨c, hc1, hc2⟩ := Relation.TransGen.head'_iff.mp hc
  rcases hab m hm with rfl | rfl
  · have := (sampleDefs_needs _ _ hc1).1 rfl
    subst this
    rcases Relation.ReflTransGen.cases_head hc2 with h | ⟨_, h, _⟩
    · exact absurd h (by decide)
    · exact (sampleDefs_needs _ _ h).2 rfl
  · exact (sampleDefs_needs _ _ hc1).2 rfl

example := C74_needs_first sampleDefs sampleDefs_sorted.1 sampleDefs_ok.1 _ sampleDefs_names sampleDefs_ok.2 _
  ["text".toList] (["doc", "panel"].map String.toList) "paragraph".toList "text".toList sampleDefs_sorted.2 rfl sampleDefs_acyclic
  ⟨by decide, (sampleDefs_ok.2 _).mp (by decide), "paragraph_node", _, "text_node".toList,
    by rw [sampleDefs]; exact .tail _ (.tail _ (.tail _ (.head _))),
    (nodeOf_iff (by decide)).mp ⟨by decide, by decide⟩, .here _ _ rfl, of_iff.mp ⟨by decide, by decide⟩⟩

end Verif.Props
