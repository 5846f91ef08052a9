import Verif.Lemmas.Gen
import Verif.Lemmas.Chars
import Verif.Lemmas.Nesting
/-!
# C44, C48: the generated api.py
-/

namespace Verif.Props
open Verif Verif.Gen Verif.Spec.Gen

theorem marks_section {w : World} (hs : Sane w) :
    ∃ as ps, scanDir w "marks".toList "mark_".toList w.marksDir = .ok as ∧
      renderGroups (group as) = .ok (lines "marks".toList ps) ∧
      (∀ p, p ∈ ps ↔ Belongs w.load "marks".toList "mark_".toList w.marksDir p) ∧ ps.Nodup ∧
      ps.Pairwise Before :=
  section_spec hs hs.marks (by decide) _ rfl (fun _ => path_mark) fun _ _ => scan_marks hs.loads

theorem nodes_section {w : World} (hs : Sane w) (hp : "marks".toList ∉ w.parts) :
    ∃ as ps, scanDir w "nodes".toList "node_".toList w.nodesDir = .ok as ∧
      renderGroups (group as) = .ok (lines "nodes".toList ps) ∧
      (∀ p, p ∈ ps ↔ Belongs w.load "nodes".toList "node_".toList w.nodesDir p) ∧ ps.Nodup ∧
      ps.Pairwise Before :=
  section_spec hs hs.nodes (by decide) _ rfl (fun _ => path_node) fun _ hf => scan_nodes hs.loads hp hf

/-- When the package does not lie under a directory called `marks`: the generated file consists of the
fixed header and, for the marks and then the nodes, one import line for every public name of every
`mark_*.py` / `node_*.py` module and no other line; each name appears once, from the module that has
it, files in order and names in order within a file. -/
theorem C44_exports (w : World) (hs : Sane w) (hp : "marks".toList ∉ w.parts) :
    ∃ ms ns, generate w = .ok (header ++ lines "marks".toList ms ++ middle ++ lines "nodes".toList ns) ∧
      (∀ p, p ∈ ms ↔ Belongs w.load "marks".toList "mark_".toList w.marksDir p) ∧
      (∀ p, p ∈ ns ↔ Belongs w.load "nodes".toList "node_".toList w.nodesDir p) ∧
      ms.Nodup ∧ ns.Nodup ∧ ms.Pairwise Before ∧ ns.Pairwise Before := by
  obtain ⟨as, ms, h1, h2, h3, h4, h5⟩ := marks_section hs
  obtain ⟨bs, ns, k1, k2, k3, k4, k5⟩ := nodes_section hs hp
  refine ⟨ms, ns, ?_, h3, k3, h4, k4, h5, k5⟩
  unfold generate
  rw [h1]
  simp only
  rw [k1]
  simp only
  rw [h2]
  simp only
  rw [k2]

/-! ### The statements of the file -/

/-- Is the reader inside the docstring after these lines? -/
def docAfter : Bool → List Str → Bool
  | b, [] => b
  | true, l :: ls => docAfter (l != "\"\"\"".toList) ls
  | false, l :: ls => docAfter (l == "\"\"\"".toList) ls

theorem statements_append (b : Bool) (a c : List Str) :
    statements b (a ++ c) = statements b a ++ statements (docAfter b a) c := by
  induction a generalizing b with
  | nil => cases b <;> rfl
  | cons l a ih =>
    cases b with
    | true => simp only [List.cons_append, statements, docAfter]; exact ih _
    | false =>
      simp only [List.cons_append, statements, docAfter]
      by_cases h : l = "\"\"\"".toList
      · rw [if_pos h, if_pos h, ih, show (l == "\"\"\"".toList) = true by simpa using h]
      · rw [if_neg h, if_neg h, show (l == "\"\"\"".toList) = false by simpa using h]
        split
        · exact ih _
        · rw [ih]; rfl

theorem splitNL_ended (a b : Str) : Str.splitNL (a ++ '\n' :: b) = Str.splitNL a ++ Str.splitNL b := splitNL_append_gen a b

theorem importFrom_nl {p : Str × Str} (h1 : '\n' ∉ p.1) (h2 : '\n' ∉ p.2) : '\n' ∉ importFrom p := by
  have hx : '\n' ∉ "from .".toList := by decide
  have hz : '\n' ∉ " import ".toList := by decide
  unfold importFrom
  generalize "from .".toList = x at *
  generalize " import ".toList = z at *
  simp only [List.mem_append, not_or]
  exact ⟨⟨⟨hx, h1⟩, hz⟩, h2⟩

/-- The lines of a section. -/
theorem section_statements (dir : Str) (ps : List (Str × Str)) (r : Str) (hd : '\n' ∉ dir)
    (h : ∀ p ∈ ps, '\n' ∉ p.1 ∧ '\n' ∉ p.2) :
    statements false (Str.splitNL (lines dir ps ++ r)) =
      (ps.map fun p => importFrom (dir ++ ".".toList ++ p.1, p.2)) ++ statements false (Str.splitNL r) := by
  induction ps with
  | nil => rfl
  | cons p ps ih =>
    have hp := h p (by simp)
    have e : lines dir (p :: ps) ++ r = importFrom (dir ++ ".".toList ++ p.1, p.2) ++ '\n' :: (lines dir ps ++ r) := by
      unfold lines importFrom
      generalize "from .".toList = x
      generalize ".".toList = y
      generalize " import ".toList = z
      rw [List.flatMap_cons, show "\n".toList = ['\n'] from rfl]
      simp only [List.append_assoc, List.cons_append, List.nil_append]
    have hn := importFrom_nl (p := (dir ++ ".".toList ++ p.1, p.2)) (by
      have : '\n' ∉ ".".toList := by decide
      generalize ".".toList = y at *
      simp only [List.mem_append, not_or]
      exact ⟨⟨hd, this⟩, hp.1⟩) hp.2
    have hs : Str.splitNL (importFrom (dir ++ ".".toList ++ p.1, p.2)) = [importFrom (dir ++ ".".toList ++ p.1, p.2)] :=
      splitNL_of_noNL hn
    rw [e, splitNL_ended, hs, List.singleton_append, List.map_cons, List.cons_append,
      ← ih fun q hq => h q (by simp [hq])]
    have hf : importFrom (dir ++ ".".toList ++ p.1, p.2) = 'f' :: (importFrom (dir ++ ".".toList ++ p.1, p.2)).drop 1 := rfl
    rw [statements, if_neg (by rw [hf]; intro h; exact absurd (List.cons.inj h).1 (by decide)), if_neg (by rw [hf]; simp)]

theorem header_end : header = header.dropLast ++ ['\n'] := by decide +kernel
theorem middle_end : middle = middle.dropLast ++ ['\n'] := by decide +kernel
theorem header_statements : statements false (Str.splitNL header.dropLast) = fixedImports.map importFrom ∧
    docAfter false (Str.splitNL header.dropLast) = false := by decide +kernel
theorem middle_statements : statements false (Str.splitNL middle.dropLast) = [] ∧
    docAfter false (Str.splitNL middle.dropLast) = false := by decide +kernel

theorem file_statements {h m a b : Str} {fixed : List (Str × Str)} {ms ns : List (Str × Str)}
    (h1 : h = h.dropLast ++ ['\n']) (h2 : m = m.dropLast ++ ['\n'])
    (c1 : statements false (Str.splitNL h.dropLast) = fixed.map importFrom ∧ docAfter false (Str.splitNL h.dropLast) = false)
    (c2 : statements false (Str.splitNL m.dropLast) = [] ∧ docAfter false (Str.splitNL m.dropLast) = false)
    (ha : '\n' ∉ a) (hb : '\n' ∉ b)
    (hm : ∀ p ∈ ms, '\n' ∉ p.1 ∧ '\n' ∉ p.2) (hn : ∀ p ∈ ns, '\n' ∉ p.1 ∧ '\n' ∉ p.2) :
    statements false ((h ++ lines a ms ++ m ++ lines b ns).splitOn '\n') =
      fixed.map importFrom ++ (ms.map fun p => importFrom (a ++ ".".toList ++ p.1, p.2)) ++
        (ns.map fun p => importFrom (b ++ ".".toList ++ p.1, p.2)) := by
  have e : h ++ lines a ms ++ m ++ lines b ns =
      h.dropLast ++ '\n' :: (lines a ms ++ (m.dropLast ++ '\n' :: (lines b ns ++ []))) := by
    conv_lhs => rw [h1, h2]
    simp only [List.append_assoc, List.cons_append, List.nil_append, List.append_nil]
  rw [splitOn_nl, e, splitNL_ended, statements_append, c1.1, c1.2, section_statements _ _ _ ha hm, splitNL_ended,
    statements_append, c2.1, c2.2, section_statements _ _ _ hb hn]
  simp only [Str.splitNL, statements, List.nil_append, List.append_assoc, List.append_nil, true_or, if_true, reduceCtorEq,
    show (([] : Str) = "\"\"\"".toList) = False from by simp, if_false]

/-- C44, for the text as a Python reader sees it: apart from comments and the docstring, the generated file is one import
statement for each of the fixed names, then for each public name of the marks and of the nodes. -/
theorem C44_statements (w : World) (hs : Sane w) (hl : OneLine w) (hp : "marks".toList ∉ w.parts) :
    ∃ (s : Str) (ms ns : List (Str × Str)), generate w = .ok s ∧
      statements false (s.splitOn '\n') = fixedImports.map importFrom ++
        (ms.map fun p => importFrom ("marks".toList ++ ".".toList ++ p.1, p.2)) ++
        (ns.map fun p => importFrom ("nodes".toList ++ ".".toList ++ p.1, p.2)) ∧
      (∀ p, p ∈ ms ↔ Belongs w.load "marks".toList "mark_".toList w.marksDir p) ∧
      (∀ p, p ∈ ns ↔ Belongs w.load "nodes".toList "node_".toList w.nodesDir p) ∧
      ms.Nodup ∧ ns.Nodup ∧ ms.Pairwise Before ∧ ns.Pairwise Before := by
  obtain ⟨ms, ns, h1, h2, h3, h4⟩ := C44_exports w hs hp
  have key : ∀ dir pre files p, (∀ f ∈ files, '\n' ∉ f) → Belongs w.load dir pre files p → '\n' ∉ p.1 ∧ '\n' ∉ p.2 := by
    rintro dir pre files p hf ⟨b1, _, members, b2, m, b3, b4, _⟩
    refine ⟨fun hm => hf _ b1 (List.mem_append_left _ hm), ?_⟩
    rw [← b4]
    exact hl.2 _ _ _ b2 b3
  exact ⟨_, ms, ns, h1, file_statements header_end middle_end header_statements middle_statements (by decide) (by decide)
    (fun p hp => key _ _ _ p (fun f hf => hl.1 f (List.mem_append_left _ hf)) ((h2 p).mp hp))
    (fun p hp => key _ _ _ p (fun f hf => hl.1 f (List.mem_append_right _ hf)) ((h3 p).mp hp)), h2, h3, h4⟩

/-- The order and the members determine the file: two worlds with the same public names generate the
same text, however their directories happen to be listed. -/
theorem C44_deterministic (w w' : World) (hs : Sane w) (hs' : Sane w') (hp : "marks".toList ∉ w.parts)
    (hp' : "marks".toList ∉ w'.parts)
    (hm : ∀ p, Belongs w.load "marks".toList "mark_".toList w.marksDir p ↔
      Belongs w'.load "marks".toList "mark_".toList w'.marksDir p)
    (hn : ∀ p, Belongs w.load "nodes".toList "node_".toList w.nodesDir p ↔
      Belongs w'.load "nodes".toList "node_".toList w'.nodesDir p) : generate w = generate w' := by
  obtain ⟨ms, ns, h1, h2, h3, h4, h5, h6, h7⟩ := C44_exports w hs hp
  obtain ⟨ms', ns', k1, k2, k3, k4, k5, k6, k7⟩ := C44_exports w' hs' hp'
  have key : ∀ l l' : List (Str × Str), l.Nodup → l'.Nodup → l.Pairwise Before → l'.Pairwise Before →
      (∀ p, p ∈ l ↔ p ∈ l') → l = l' := by
    intro l l' n1 n2 p1 p2 hmem
    refine ((List.perm_ext_iff_of_nodup n1 n2).mpr hmem).eq_of_pairwise (le := Before) ?_ p1 p2
    intro a b _ _ hab hba
    exfalso
    rcases hab with h | ⟨h, h'⟩ <;> rcases hba with k | ⟨k, k'⟩
    · exact lt_asymm h k
    · rw [k] at h; exact lt_irrefl _ h
    · rw [h] at k; exact lt_irrefl _ k
    · exact lt_asymm h' k'
  rw [h1, k1, key ms ms' h4 k4 h6 k6 fun p => by rw [h2, k2, hm],
    key ns ns' h5 k5 h7 k7 fun p => by rw [h3, k3, hn]]

/-! ## C48: the result should not depend on where the checkout lies -/

theorem scan_parts (w : World) (ps : List Str) (dir f : Str)
    (h : ("marks".toList ∈ w.parts ++ [dir, f] ↔ "marks".toList ∈ ps ++ [dir, f]) ∧
      ("nodes".toList ∈ w.parts ++ [dir, f] ↔ "nodes".toList ∈ ps ++ [dir, f])) :
    scanModule { w with parts := ps } dir f = scanModule w dir f := by
  unfold scanModule
  simp only
  by_cases h1 : "marks".toList ∈ w.parts ++ [dir, f]
  · rw [if_pos h1, if_pos (h.1.mp h1)]
  · rw [if_neg h1, if_neg fun h' => h1 (h.1.mpr h')]
    by_cases h2 : "nodes".toList ∈ w.parts ++ [dir, f]
    · rw [if_pos h2, if_pos (h.2.mp h2)]
    · rw [if_neg h2, if_neg fun h' => h2 (h.2.mpr h')]

theorem scanFiles_congr {w w' : World} {dir : Str} {fs : List Str}
    (h : ∀ f ∈ fs, scanModule w dir f = scanModule w' dir f) : scanFiles w dir fs = scanFiles w' dir fs := by
  induction fs with
  | nil => rfl
  | cons f fs ih =>
    rw [scanFiles, scanFiles, h f (by simp), ih fun f hf => h f (by simp [hf])]

/-- What is true: all locations without a directory called `marks` give the same result (no
assumption on the modules). -/
theorem C48_partial (w : World) (ps : List Str) (hp : "marks".toList ∉ w.parts) (hp' : "marks".toList ∉ ps) :
    generate { w with parts := ps } = generate w := by
  have hm : scanDir { w with parts := ps } "marks".toList "mark_".toList w.marksDir =
      scanDir w "marks".toList "mark_".toList w.marksDir := by
    refine scanFiles_congr fun f _ => ?_
    unfold scanModule
    simp only
    rw [if_pos (by simp), if_pos (by simp)]
  have hn : scanDir { w with parts := ps } "nodes".toList "node_".toList w.nodesDir =
      scanDir w "nodes".toList "node_".toList w.nodesDir := by
    refine scanFiles_congr fun f _ => scan_parts w ps _ f ⟨?_, by simp⟩
    simp only [List.mem_append]
    exact ⟨fun h => .inr (h.resolve_left hp), fun h => .inr (h.resolve_left hp')⟩
  unfold generate
  simp only
  rw [hm, hn]

/-- What goes wrong: under a directory called `marks`, every node module is looked up under the name of
a mark module; as there is none, not one node class is exported, and nothing but a message on stdout
tells. -/
theorem C48_nodes_lost (w : World) (hs : Sane w) (hp : "marks".toList ∈ w.parts)
    (hl : ∀ f ∈ w.nodesDir, w.load ("atlas_doc_parser.marks.".toList ++ stem f) = .importError) :
    ∃ ms, generate w = .ok (header ++ lines "marks".toList ms ++ middle) ∧
      ∀ p, p ∈ ms ↔ Belongs w.load "marks".toList "mark_".toList w.marksDir p := by
  obtain ⟨as, ms, h1, h2, h3, _⟩ := marks_section hs
  refine ⟨ms, ?_, h3⟩
  have hn : scanDir w "nodes".toList "node_".toList w.nodesDir = .ok [] := by
    have := scanFiles_eq (w := w) (dir := "nodes".toList) (g := fun _ => [])
      (fs := (globbed "node_".toList w.nodesDir).mergeSort byName) (by
        intro f hf
        have hf : f ∈ w.nodesDir :=
          (mem_globbed.mp ((List.mergeSort_perm _ _).mem_iff.mp hf)).1
        unfold scanModule
        simp only
        rw [if_pos (List.mem_append_left _ hp), hl f hf])
    unfold scanDir
    rw [this]
    simp
  unfold generate
  rw [h1]
  simp only
  rw [hn]
  simp only
  rw [h2]
  simp [group, renderGroups]

/-! ## A world for the examples: one mark module, one node module with two public classes, a private
class, an imported class and an alias. -/

def str (s : String) : Str := s.toList

def docMembers : List Member :=
  [⟨str "NodeDocAttrs", true, str "atlas_doc_parser.nodes.node_doc", true⟩,
   ⟨str "_Private", true, str "atlas_doc_parser.nodes.node_doc", true⟩,
   ⟨str "NodeDoc", true, str "atlas_doc_parser.nodes.node_doc", true⟩,
   ⟨str "Helper", true, str "atlas_doc_parser.nodes.node_doc", false⟩,
   ⟨str "T_NODE_X", false, [], false⟩]

def load0 (n : Str) : Import :=
  if n = str "atlas_doc_parser.marks.mark_em" then
    .ok [⟨str "MarkEm", true, str "atlas_doc_parser.marks.mark_em", true⟩,
         ⟨str "BaseMark", true, str "atlas_doc_parser.mark_or_node", true⟩]
  else if n = str "atlas_doc_parser.nodes.node_doc" then
    .ok docMembers
  else .importError

def world0 (ps : List Str) : World :=
  ⟨ps, [str "parse_mark.py", str "mark_em.py"], [str "node_doc.py", str "__init__.py"], load0⟩

theorem sane0 (ps : List Str) : Sane (world0 ps) where
  marks := by show List.Nodup [str "parse_mark.py", str "mark_em.py"]; decide
  nodes := by show List.Nodup [str "node_doc.py", str "__init__.py"]; decide
  members := by
    intro full ms h
    change load0 full = .ok ms at h
    unfold load0 at h
    split at h
    · cases h; decide
    · split at h
      · cases h; decide
      · cases h
  loads := by
    intro full e h
    change load0 full = .raises e at h
    unfold load0 at h
    split at h
    · cases h
    · split at h <;> cases h
  aliases := by
    intro full ms m h hm hc
    change load0 full = .ok ms at h
    unfold load0 at h
    split at h
    · cases h
      simp only [List.mem_cons, List.not_mem_nil, or_false] at hm
      rcases hm with rfl | rfl <;> decide
    · split at h
      · cases h
        simp only [docMembers, List.mem_cons, List.not_mem_nil, or_false] at hm
        rcases hm with rfl | rfl | rfl | rfl | rfl <;> first | decide | cases hc
      · cases h

example : "marks".toList ∉ (world0 [str "/", str "home"]).parts := by
  show "marks".toList ∉ [str "/", str "home"]
  decide

/-- `NodeDoc` belongs into the nodes section; so the file has a line for it. -/
theorem nodeDoc_belongs (ps : List Str) : Belongs (world0 ps).load "nodes".toList "node_".toList
    (world0 ps).nodesDir (str "node_doc", str "NodeDoc") := by
  refine ⟨?_, ?_, ?_⟩
  · show str "node_doc.py" ∈ [str "node_doc.py", str "__init__.py"]; simp
  · show "node_".toList <+: str "node_doc"; decide
  · have h : load0 (str "atlas_doc_parser.nodes.node_doc") = .ok docMembers := by
      unfold load0
      rw [if_neg (by decide), if_pos rfl]
    exact ⟨docMembers, h, ⟨str "NodeDoc", true, str "atlas_doc_parser.nodes.node_doc", true⟩,
      by simp [docMembers], rfl, by decide, .inl ⟨rfl, rfl, rfl⟩⟩

/-- The property fails: moving the checkout below a directory called `marks` changes the file. -/
theorem C48_false : ∃ (w : World) (ps : List Str), Sane w ∧ Sane { w with parts := ps } ∧
    generate { w with parts := ps } ≠ generate w := by
  have hsane : ∀ ps, Sane { world0 ps with marksDir := [] } := fun ps =>
    ⟨.nil, (sane0 ps).nodes, (sane0 ps).members, (sane0 ps).loads, (sane0 ps).aliases⟩
  refine ⟨{ world0 [str "home"] with marksDir := [] }, [str "marks"], hsane _, hsane [str "marks"], ?_⟩
  intro he
  obtain ⟨ms, ns, h1, h2, h3, _⟩ := C44_exports _ (hsane [str "home"]) (by
    show "marks".toList ∉ [str "home"]; decide)
  obtain ⟨ms', k1, k2⟩ := C48_nodes_lost _ (hsane [str "marks"]) (by
    show "marks".toList ∈ [str "marks"]; decide) (by
    intro f hf
    change f ∈ [str "node_doc.py", str "__init__.py"] at hf
    simp only [List.mem_cons, List.not_mem_nil, or_false] at hf
    rcases hf with rfl | rfl <;> rfl)
  have hms : ms = [] := List.eq_nil_iff_forall_not_mem.mpr fun p hp => by
    have := ((h2 p).mp hp).1; cases this
  have hms' : ms' = [] := List.eq_nil_iff_forall_not_mem.mpr fun p hp => by
    have := ((k2 p).mp hp).1; cases this
  have hmem : (str "node_doc", str "NodeDoc") ∈ ns := (h3 _).mpr (nodeDoc_belongs [str "home"])
  have he' : generate { world0 [str "marks"] with marksDir := [] } =
      generate { world0 [str "home"] with marksDir := [] } := he
  rw [h1, k1, hms, hms'] at he'
  injection he' with he'
  have hnil : lines "nodes".toList ns = [] := by
    have := (List.self_eq_append_right (xs := header ++ lines "marks".toList [] ++ middle)).mp he'
    exact this
  unfold lines at hnil
  rw [List.flatMap_eq_nil_iff] at hnil
  have := hnil _ hmem
  revert this
  decide

example := C44_exports (world0 [str "home"]) (sane0 _) (by show "marks".toList ∉ [str "home"]; decide)

theorem world0_oneLine (ps : List Str) : OneLine (world0 ps) := by
  refine ⟨?_, ?_⟩
  · show ∀ f ∈ [str "parse_mark.py", str "mark_em.py", str "node_doc.py", str "__init__.py"], '\n' ∉ f
    decide
  intro full ms m h hm
  change load0 full = .ok ms at h
  unfold load0 at h
  split at h
  · cases h; revert m; decide
  · split at h
    · cases h; revert m; decide
    · cases h

example := C44_statements (world0 [str "home"]) (sane0 _) (world0_oneLine _) (by show "marks".toList ∉ [str "home"]; decide)

example := C44_deterministic (world0 [str "home"]) (world0 [str "srv", str "x"]) (sane0 _) (sane0 _)
  (by show "marks".toList ∉ [str "home"]; decide) (by show "marks".toList ∉ [str "srv", str "x"]; decide)
  (fun _ => Iff.rfl) (fun _ => Iff.rfl)

example := C48_partial (world0 [str "home"]) [str "srv", str "x"]
  (by show "marks".toList ∉ [str "home"]; decide) (by show "marks".toList ∉ [str "srv", str "x"]; decide)

example := C48_nodes_lost (world0 [str "marks"]) (sane0 _) (by show "marks".toList ∈ [str "marks"]; decide) (by
  intro f hf
  change f ∈ [str "node_doc.py", str "__init__.py"] at hf
  simp only [List.mem_cons, List.not_mem_nil, or_false] at hf
  rcases hf with rfl | rfl <;> rfl)

end Verif.Props
