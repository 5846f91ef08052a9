import Verif.Lemmas.Report
import Verif.Props.Analyze
import Verif.Lemmas.Samples
/-!
# C91, C92: the report of the schema analysis
-/

namespace Verif.Props
open Verif Verif.Analyze Verif.Spec.Analyze

theorem filter_order (g : Graph) (l : List Str) :
    ((l.map fun b => (b, sort (g.deps b))).filter (·.2.isEmpty)).map (·.1) = l.filter fun b => g.deps b = [] := by
  induction l with
  | nil => rfl
  | cons b l ih =>
    rw [List.map_cons, List.filter_cons, List.filter_cons, sort_isEmpty]
    by_cases h : g.deps b = []
    · rw [decide_eq_true h, if_pos rfl, if_pos rfl, List.map_cons, ih]
    · rw [decide_eq_false h, if_neg (by decide), if_neg (by decide), ih]

theorem filter_order' (g : Graph) (l : List Str) :
    ((l.map fun b => (b, sort (g.deps b))).filter (!·.2.isEmpty)) =
      (l.filter fun b => g.deps b ≠ []).map fun b => (b, sort (g.deps b)) := by
  induction l with
  | nil => rfl
  | cons b l ih =>
    rw [List.map_cons, List.filter_cons, List.filter_cons, sort_isEmpty]
    by_cases h : g.deps b = []
    · rw [decide_eq_true h, if_neg (by decide), if_neg (by simp [h]), ih]
    · rw [decide_eq_false h, if_pos (by decide), if_pos (by simp [h]), List.map_cons, ih]

theorem len_eq {α : Type} (l : List α) : len l = Nat.toDigits 10 l.length := rfl

/-- C91: the report says what the schema says. For every schema whose type enums are lists of strings and whose `$ref`s are strings,
whatever order the set of base types is iterated in, `main` writes the lines of the report for the facts of the schema. -/
theorem C91_report (env : Env) (defs : List (String × Val)) (hd : (defs.map (·.1)).Nodup) (he : ¬ OddEnum (.dict defs))
    (hb : ∀ name v, (name, v) ∈ defs → "_node".toList <:+ name.toList → ¬ BadRef v) (order : List Str) (hn : order.Nodup)
    (ho : ∀ b, b ∈ order ↔ IsBase defs b) :
    ∃ f : Facts, f.Of defs ∧ report env defs order = .ok (some ([Str.nl].intercalate (f.lines env))) := by
  obtain ⟨enums, e1, e2, e3⟩ := extractEnums_spec (.dict defs) [] he
  obtain ⟨g, h1, h2, h3⟩ := nodeDeps_ok defs fun name v hm he => hb name v hm (endsWith_suffix.mp he)
  obtain ⟨hw, hentry, hwants⟩ := baseGraph_wants hd h2 h3
  obtain ⟨-, -, hdep⟩ := baseGraph_spec hd h2 h3
  obtain ⟨bases, r1, r2, r3, r4⟩ := C73_order (baseGraph g) hw order hn (fun n => by rw [hentry, ho])
  rw [hentry] at r3
  rw [hentry, hdep] at r4
  have hne : ∀ b ∈ bases, b ≠ [] := by
    intro b hb
    obtain ⟨_, _, _, h⟩ := (r3 b).mp hb
    exact h.1
  obtain ⟨m1, m2⟩ := markBases_spec defs
  have hmne : ∀ m ∈ sort (markBases defs), m ≠ [] := by
    intro m hm
    exact ((m2 m).mp ((sort_perm _).mem_iff.mp hm)).1
  refine ⟨⟨defs.length, (nodeNames defs).length, (markNames defs).length, (otherNames defs).length, sort enums,
    bases.map fun b => (b, sort ((baseGraph g).deps b)), sort (markBases defs)⟩, ⟨?_, ?_, ?_, ?_, ?_, ?_, ?_, ?_⟩, ?_⟩
  · have := number_filter hd (fun _ => true) (fun _ => True) (by simp)
    simpa using this
  · exact number_filter hd _ _ fun n => endsWith_suffix
  · refine number_filter hd _ _ fun n => ?_
    rw [Bool.and_eq_true, Bool.not_eq_true', endsWith_suffix]
    refine ⟨And.right, fun h => ⟨?_, h⟩⟩
    by_contra hc
    exact suffix_ne (endsWith_suffix.mp (by simpa using hc)) h
  · refine number_filter hd _ _ fun n => ?_
    rw [← endsWith_suffix, ← endsWith_suffix, Bool.and_eq_true, Bool.not_eq_true', Bool.not_eq_true', Bool.not_eq_true,
      Bool.not_eq_true]
  · refine ⟨sort_strict (e3 List.nodup_nil), fun t => ?_⟩
    rw [(sort_perm _).mem_iff, e2]
    simp
  · exact ⟨sort_strict m1, fun m => by rw [(sort_perm _).mem_iff, m2]⟩
  · have : (bases.map fun b => (b, sort ((baseGraph g).deps b))).map (·.1) = bases := by simp [Function.comp_def]
    show ((bases.map fun b => (b, sort ((baseGraph g).deps b))).map (·.1)).Nodup ∧ _
    rw [this]
    exact ⟨r2, r3, r4⟩
  · intro b ds hm
    obtain ⟨b0, hb0, heq⟩ := List.mem_map.mp hm
    cases heq
    refine ⟨sort_strict (deps_nodup hw b), fun b' => ?_⟩
    rw [(sort_perm _).mem_iff, ← hwants]
    constructor
    · intro h
      rcases deps_eq (g := baseGraph g) (n := b) with h0 | h0
      · rw [h0] at h; cases h
      · exact ⟨_, h0, h⟩
    · rintro ⟨ds, h4, h5⟩
      rw [deps_of_mem hw h4]; exact h5
  · unfold report
    rw [e1, h1]
    simp only [bind, Except.bind]
    rw [r1]
    simp only [phase2, phase3, phase4, bind, Except.bind, markItems_eq env _ hmne]
    rw [leafItems_eq env _ fun m hm => hne m (List.mem_filter.mp hm).1,
      compositeItems_eq env _ _ fun m hm => hne m (List.mem_filter.mp hm).1]
    dsimp only
    rw [join_eq]
    congr 3
    have hl : (bases.filter fun b => (baseGraph g).deps b = []).map (fun m => "- Node".toList ++ className env m) =
        ((bases.map fun b => (b, sort ((baseGraph g).deps b))).filter (·.2.isEmpty)).map
          (fun e => "- Node".toList ++ className env e.1) := by
      rw [← filter_order, List.map_map]
      rfl
    have hs : ∀ l : List Str, (sort l).length = l.length := fun l => (sort_perm l).length_eq
    rw [hl]
    simp only [Facts.lines, Facts.leaves, Facts.composites, filter_order', List.map_map, hs, overview, enumLines, orderLines,
      markLines, phase1, orderItems_eq, len_eq, List.append_assoc, List.cons_append, List.nil_append, Nat.add_comm 1]
    rfl

theorem lookupKey_iff {d : List (String × Val)} (hd : (d.map (·.1)).Nodup) (k : String) (v : Val) :
    lookupKey d k = some v ↔ (k, v) ∈ d := by
  induction d with
  | nil => simp [lookupKey]
  | cons e d ih =>
    obtain ⟨k', v'⟩ := e
    rw [List.map_cons, List.nodup_cons] at hd
    rw [lookupKey]
    split
    · rename_i h
      subst h
      constructor
      · intro h; cases h; simp
      · intro h
        rcases List.mem_cons.mp h with h | h
        · cases h; rfl
        · exact absurd (List.mem_map.mpr ⟨_, h, rfl⟩) hd.1
    · rename_i h
      rw [ih hd.2]
      simp [Ne.symm h]

theorem typeValue_congr {d d' : List (String × Val)} (hd : (d.map (·.1)).Nodup) (hd' : (d'.map (·.1)).Nodup)
    (hp : ∀ e, e ∈ d ↔ e ∈ d') {x : Str} (h : TypeValue (.dict d) x) : TypeValue (.dict d') x := by
  cases h with
  | here _ t l _ h1 h2 h3 =>
    exact .here d' t l x ((lookupKey_iff hd' _ _).mpr ((hp _).mp ((lookupKey_iff hd _ _).mp h1))) h2 h3
  | value _ k v _ hm hv => exact .value d' k v x ((hp _).mp hm) hv

/-- C91: the schema determines the facts, whatever order its definitions have. -/
theorem C91_unique (defs defs' : List (String × Val)) (hd : (defs.map (·.1)).Nodup) (hd' : (defs'.map (·.1)).Nodup)
    (hp : ∀ e, e ∈ defs ↔ e ∈ defs') (f f' : Facts) (h : f.Of defs) (h' : f'.Of defs') : f = f' := by
  have hbase : IsBase defs = IsBase defs' := by
    funext b; unfold IsBase; simp only [hp]
  have hneeds : Needs defs = Needs defs' := by
    funext b b'; unfold Needs; rw [hbase]; simp only [hp]
  have hwants : Wants defs = Wants defs' := by
    funext b b'; unfold Wants; simp only [hp]
  have hmark : IsMark defs = IsMark defs' := by
    funext b; unfold IsMark; simp only [hp]
  have e1 := number_unique hp h.definitions h'.definitions
  have e2 := number_unique hp h.nodes h'.nodes
  have e3 := number_unique hp h.marks h'.marks
  have e4 := number_unique hp h.others h'.others
  have e5 : f.types = f'.types := strict_eq h.types.1 h'.types.1 fun x => by
    rw [h.types.2, h'.types.2]
    exact ⟨typeValue_congr hd hd' hp, typeValue_congr hd' hd fun e => (hp e).symm⟩
  have e6 : f.markTypes = f'.markTypes := strict_eq h.markTypes.1 h'.markTypes.1 fun x => by
    rw [h.markTypes.2, h'.markTypes.2, hmark]
  have e7 : f.order.map (·.1) = f'.order.map (·.1) := by
    obtain ⟨a1, a2, a3⟩ := h.bases
    obtain ⟨b1, b2, b3⟩ := h'.bases
    rw [hbase] at a2 a3
    rw [hneeds] at a3
    exact C73_unique _ _ _ _ a1 b1 a2 b2 a3 b3
  have e8 : f.order = f'.order := by
    refine List.ext_getElem (by simpa using congrArg List.length e7) fun i h1 h2 => ?_
    have hi : (f.order[i]).1 = (f'.order[i]).1 := by
      have := congrArg (fun l => l[i]?) e7
      simpa [h1, h2] using this
    have k1 := h.deps _ _ (List.getElem_mem h1)
    have k2 := h'.deps _ _ (List.getElem_mem h2)
    refine Prod.ext hi (strict_eq k1.1 k2.1 fun x => ?_)
    refine (k1.2 x).trans (Iff.trans ?_ (k2.2 x).symm)
    rw [hwants]
    exact iff_of_eq (congrArg (Wants defs' · x) hi)
  cases f
  cases f'
  simp only [Facts.mk.injEq]
  exact ⟨e1, e2, e3, e4, e5, e8, e6⟩

/-- C91: the report is the same in every run (sets are iterated in another order in each), and for every order of the definitions
in the schema. -/
theorem C91_deterministic (env : Env) (defs defs' : List (String × Val)) (hp : defs.Perm defs') (hd : (defs.map (·.1)).Nodup)
    (he : ¬ OddEnum (.dict defs)) (hb : ∀ name v, (name, v) ∈ defs → "_node".toList <:+ name.toList → ¬ BadRef v)
    (order order' : List Str) (hn : order.Nodup) (hn' : order'.Nodup) (ho : ∀ b, b ∈ order ↔ IsBase defs b)
    (ho' : ∀ b, b ∈ order' ↔ IsBase defs b) : report env defs order = report env defs' order' := by
  have hd' : (defs'.map (·.1)).Nodup := (hp.map _).nodup_iff.mp hd
  have hm : ∀ e, e ∈ defs ↔ e ∈ defs' := fun e => hp.mem_iff
  have he' : ¬ OddEnum (.dict defs') := by
    intro h
    apply he
    cases h with
    | here _ t e h1 h2 h3 => exact .here defs t e ((lookupKey_iff hd _ _).mpr ((hm _).mpr ((lookupKey_iff hd' _ _).mp h1))) h2 h3
    | value _ k v hv hx => exact .value defs k v ((hm _).mpr hv) hx
  have hbase : IsBase defs = IsBase defs' := by
    funext b; unfold IsBase; simp only [hm]
  obtain ⟨f, h1, h2⟩ := C91_report env defs hd he hb order hn ho
  obtain ⟨f', h1', h2'⟩ := C91_report env defs' hd' he' (fun name v h => hb name v ((hm _).mpr h)) order' hn'
    (fun b => by rw [ho', hbase])
  rw [h2, h2', C91_unique defs defs' hd hd' hm f f' h1 h1']

/-- C91: whoever implements in the order of the phases (marks, then leaves, then composites) has, at every base type that is not on
or behind a cycle of references, everything it depends on: mark types of the schema are among the marks, base types of the schema
among the leaves or the composites before. -/
theorem C91_phases (defs : List (String × Val)) (f : Facts) (h : f.Of defs) (a c : List (Str × List Str)) (b : Str) (ds : List Str)
    (hab : f.composites = a ++ (b, ds) :: c) (hc : ¬ Cyclic (Needs defs) b) (b' : Str) (hb' : b' ∈ ds) :
    (IsMark defs b' → b' ∈ f.markTypes) ∧ (IsBase defs b' → b' ∈ f.leaves.map (·.1) ++ a.map (·.1)) := by
  refine ⟨(h.markTypes.2 b').mpr, fun hbase => ?_⟩
  have hmem : (b, ds) ∈ f.order := by
    have : (b, ds) ∈ f.composites := by rw [hab]; simp
    exact (List.mem_filter.mp this).1
  have hw := ((h.deps b ds hmem).2 b').mp hb'
  have hneed : Needs defs b b' := ⟨hw.1, hbase, hw.2⟩
  -- split the whole order at `b`
  obtain ⟨p, q, hpq⟩ := List.append_of_mem hmem
  have hnd := h.bases.1
  have hfirst : b' ∈ p.map (·.1) := by
    refine needs_first h.bases.2.2 (a := p.map (·.1)) (b := q.map (·.1)) (n := b) ?_ hnd hc hneed
    rw [hpq]; simp
  have hcomp : f.composites = p.filter (!·.2.isEmpty) ++ (f.order.filter (!·.2.isEmpty)).drop (p.filter (!·.2.isEmpty)).length := by
    rw [hpq, List.filter_append, List.drop_left]
    rw [Facts.composites, hpq, List.filter_append]
  have hdsne : ds.isEmpty = false := by
    cases ds with
    | nil => cases hb'
    | cons => rfl
  have hap : a = p.filter (!·.2.isEmpty) := by
    have h2 : f.composites = p.filter (!·.2.isEmpty) ++ (b, ds) :: q.filter (!·.2.isEmpty) := by
      rw [Facts.composites, hpq, List.filter_append, List.filter_cons, hdsne]
      rfl
    have hn2 : (f.composites.map (·.1)).Nodup := List.Nodup.sublist (List.filter_sublist.map _) hnd
    rw [hab] at h2 hn2
    have hna : b ∉ a.map (·.1) := by
      rw [List.map_append, List.map_cons, List.nodup_append] at hn2
      intro hm
      exact hn2.2.2 b hm b (by simp) rfl
    have hnp : b ∉ (p.filter (!·.2.isEmpty)).map (·.1) := by
      rw [h2, List.map_append, List.map_cons, List.nodup_append] at hn2
      intro hm
      exact hn2.2.2 b hm b (by simp) rfl
    clear hcomp hab hn2
    generalize p.filter (!·.2.isEmpty) = p' at h2 hnp
    induction a generalizing p' with
    | nil =>
      cases p' with
      | nil => rfl
      | cons e p' =>
        rw [List.nil_append, List.cons_append, List.cons.injEq] at h2
        exact absurd (by rw [← h2.1]; simp) hnp
    | cons e a ih =>
      cases p' with
      | nil =>
        rw [List.nil_append, List.cons_append, List.cons.injEq] at h2
        exact absurd (by rw [h2.1]; simp) hna
      | cons e' p' =>
        rw [List.cons_append, List.cons_append, List.cons.injEq] at h2
        rw [h2.1]
        congr 1
        exact ih (fun hm => hna (List.mem_cons_of_mem _ hm)) p' h2.2 (fun hm => hnp (List.mem_cons_of_mem _ hm))
  obtain ⟨⟨x, dx⟩, hx, rfl⟩ := List.mem_map.mp hfirst
  rw [List.mem_append, hap]
  cases hdx : dx.isEmpty with
  | true =>
    left
    refine List.mem_map.mpr ⟨(x, dx), List.mem_filter.mpr ⟨?_, hdx⟩, rfl⟩
    rw [hpq]; simp [hx]
  | false =>
    right
    exact List.mem_map.mpr ⟨(x, dx), List.mem_filter.mpr ⟨hx, by simp [hdx]⟩, rfl⟩

/-! ## C92: the leaves -/

/-- A node definition of base type `b` refers to a node definition of the other base type `b'`. -/
def NodeDep (defs : List (String × Val)) (b b' : Str) : Prop :=
  b' ≠ b ∧ ∃ name v r, (name, v) ∈ defs ∧ NodeOf name.toList b ∧ Refers v r ∧ NodeOf r b'

/-- C92 in full: phase 3 of the report ("Nodes with no node dependencies") lists exactly the base types whose definitions refer to no
other node. -/
def leavesClaim : Prop := ∀ defs f, Facts.Of defs f → ∀ b, b ∈ f.leaves.map (·.1) ↔ IsBase defs b ∧ ¬ ∃ b', NodeDep defs b b'

/-- C92: what is missing is `if` for nodes that refer to marks: phase 3 lists exactly the base types whose definitions refer neither
to another node nor to a mark (of another name). So everything in phase 3 has no node dependencies, and every node without references to
marks that has no node dependencies is there. -/
theorem C92_leaves_partial (defs : List (String × Val)) (f : Facts) (h : f.Of defs) (b : Str) :
    (b ∈ f.leaves.map (·.1) ↔ IsBase defs b ∧ ¬ ∃ b', Wants defs b b') ∧
    (b ∈ f.leaves.map (·.1) → IsBase defs b ∧ ¬ ∃ b', NodeDep defs b b') ∧
    ((∀ name v r, (name, v) ∈ defs → NodeOf name.toList b → Refers v r → ¬ "_mark".toList <:+ r) →
      (b ∈ f.leaves.map (·.1) ↔ IsBase defs b ∧ ¬ ∃ b', NodeDep defs b b')) := by
  have h1 : b ∈ f.leaves.map (·.1) ↔ IsBase defs b ∧ ¬ ∃ b', Wants defs b b' := by
    constructor
    · intro hm
      obtain ⟨⟨b, ds⟩, he, rfl⟩ := List.mem_map.mp hm
      obtain ⟨h2, h3⟩ := List.mem_filter.mp he
      refine ⟨(h.bases.2.1 b).mp (List.mem_map.mpr ⟨_, h2, rfl⟩), ?_⟩
      rintro ⟨b', hw⟩
      have := ((h.deps b ds h2).2 b').mpr hw
      rw [show ds = [] from List.isEmpty_iff.mp h3] at this
      cases this
    · rintro ⟨hb, hw⟩
      obtain ⟨⟨b, ds⟩, he, rfl⟩ := List.mem_map.mp ((h.bases.2.1 b).mpr hb)
      refine List.mem_map.mpr ⟨(b, ds), List.mem_filter.mpr ⟨he, ?_⟩, rfl⟩
      cases ds with
      | nil => rfl
      | cons x ds => exact absurd ⟨x, ((h.deps b _ he).2 x).mp (by simp)⟩ hw
  refine ⟨h1, fun hm => ?_, fun hr => ?_⟩
  · obtain ⟨h2, h3⟩ := h1.mp hm
    exact ⟨h2, fun ⟨b', hne, name, v, r, e1, e2, e3, e4⟩ => h3 ⟨b', hne, name, v, r, e1, e2, e3, .inl e4⟩⟩
  · rw [h1]
    refine and_congr_right fun _ => not_congr ⟨?_, ?_⟩
    · rintro ⟨b', hne, name, v, r, e1, e2, e3, e4 | ⟨_, rfl⟩⟩
      · exact ⟨b', hne, name, v, r, e1, e2, e3, e4⟩
      · exact absurd ⟨b', rfl⟩ (hr name v _ e1 e2 e3)
    · rintro ⟨b', hne, name, v, r, e1, e2, e3, e4⟩
      exact ⟨b', hne, name, v, r, e1, e2, e3, .inl e4⟩

/-! ## A schema -/

/-- Media refer to a mark, groups to media. -/
def reportDefs : List (String × Val) :=
  [("media_node", .dict [("type", .dict [("enum", .list [.str "media".toList, .str "file".toList])]),
      ("marks", .list [.dict [("$ref", .str "#/definitions/border_mark".toList)]])]),
   ("group_node", .dict [("type", .dict [("enum", .list [.str "group".toList])]), ("$ref", .str "#/definitions/media_node".toList)]),
   ("border_mark", .dict [])]

theorem odd_dict {d : List (String × Val)} : OddEnum (.dict d) ↔
    (∃ t e, lookupKey d "type" = some (.dict t) ∧ lookupKey t "enum" = some e ∧ ∀ l, e = .list l → ∃ x ∈ l, ∀ s, x ≠ .str s) ∨
    ∃ e ∈ d, OddEnum e.2 := by
  constructor
  · intro h
    cases h with
    | here _ t e h1 h2 h3 => exact .inl ⟨t, e, h1, h2, h3⟩
    | value _ k v hm hv => exact .inr ⟨(k, v), hm, hv⟩
  · rintro (⟨t, e, h1, h2, h3⟩ | ⟨⟨k, v⟩, hm, hv⟩)
    · exact .here d t e h1 h2 h3
    · exact .value d k v hm hv

theorem odd_list {l : List Val} : OddEnum (.list l) ↔ ∃ v ∈ l, OddEnum v :=
  ⟨fun h => by cases h with | item _ v hm hv => exact ⟨v, hm, hv⟩, fun ⟨v, hm, hv⟩ => .item l v hm hv⟩

theorem odd_str (s : Str) : ¬ OddEnum (.str s) := nofun

theorem refers_dict {d : List (String × Val)} {x : Str} : Refers (.dict d) x ↔
    lookupKey d "$ref" = some (.str ("#/definitions/".toList ++ x)) ∨ ∃ e ∈ d, Refers e.2 x := by
  constructor
  · intro h
    cases h with
    | here _ _ h => exact .inl h
    | value _ k v _ hm hv => exact .inr ⟨(k, v), hm, hv⟩
  · rintro (h | ⟨⟨k, v⟩, hm, hv⟩)
    · exact .here d x h
    · exact .value d k v x hm hv

theorem reportDefs_ok : (reportDefs.map (·.1)).Nodup ∧ ¬ OddEnum (.dict reportDefs) ∧
    (∀ name v, (name, v) ∈ reportDefs → "_node".toList <:+ name.toList → ¬ BadRef v) ∧
    ∀ b, b ∈ ["media".toList, "group".toList] ↔ IsBase reportDefs b := by
  refine ⟨by decide, ?_, ?_, ?_⟩
  · simp [reportDefs, odd_dict, odd_list, odd_str, lookupKey]
  · intro name v hm _ hb
    rw [← (C74_refs v).2.1] at hb
    simp only [reportDefs, List.mem_cons, Prod.mk.injEq, List.not_mem_nil, or_false] at hm
    obtain ⟨e, he⟩ := hb
    rcases hm with ⟨-, rfl⟩ | ⟨-, rfl⟩ | ⟨-, rfl⟩ <;> exact absurd he nofun
  · intro b
    constructor
    · intro h
      simp only [List.mem_cons, List.not_mem_nil, or_false] at h
      rcases h with rfl | rfl
      · exact ⟨"media_node", _, by rw [reportDefs]; exact List.mem_cons_self, (nodeOf_iff (by decide)).mp ⟨by decide, by decide⟩⟩
      · exact ⟨"group_node", _, by rw [reportDefs]; exact List.mem_cons_of_mem _ List.mem_cons_self,
          (nodeOf_iff (by decide)).mp ⟨by decide, by decide⟩⟩
    · rintro ⟨name, v, hm, hb⟩
      have := of_iff.mpr (.inl hb : Of name.toList b)
      simp only [reportDefs, List.mem_cons, Prod.mk.injEq, List.not_mem_nil, or_false] at hm
      rcases hm with ⟨rfl, -⟩ | ⟨rfl, -⟩ | ⟨rfl, -⟩
      all_goals
        have h1 := Option.some.inj this.1.symm
        subst h1
      · decide
      · decide
      · obtain ⟨_, s, hs, _⟩ := hb
        have := List.append_inj_right' (show "border".toList ++ "_mark".toList = s ++ "_node".toList from hs) (by decide)
        exact absurd this (by decide)

/-- The report of that schema. -/
def reportText : Option Str :=
  match report Samples.env reportDefs ["media".toList, "group".toList] with
  | .ok r => r
  | .error _ => none

example : (reportText.map fun s => (Str.splitNL s).filter fun l => l.head? ∈ [some '-', some '1', some '2']) =
    some (["- Total definitions: 3", "- Node definitions (`*_node`): 2", "- Mark definitions (`*_mark`): 1", "- Other definitions: 0",
      "- Unique type enum values: 3", "- file", "- group", "- media", "1. **media** - depends on: border",
      "2. **group** - depends on: media", "1 mark types:", "- border", "- Base", "- BaseNode", "- BaseMark", "- MarkBorder",
      "- NodeMedia - needs: border", "- NodeGroup - needs: media"].map String.toList) := by decide +kernel

example : ∃ f : Facts, f.Of reportDefs := by
  obtain ⟨f, h, -⟩ := C91_report Samples.env reportDefs reportDefs_ok.1 reportDefs_ok.2.1 reportDefs_ok.2.2.1 _ (by decide) reportDefs_ok.2.2.2
  exact ⟨f, h⟩

example := C91_deterministic Samples.env reportDefs _ (List.Perm.swap _ _ _) reportDefs_ok.1 reportDefs_ok.2.1 reportDefs_ok.2.2.1
  ["media".toList, "group".toList] ["group".toList, "media".toList] (by decide) (by decide) reportDefs_ok.2.2.2
  (fun b => by rw [← reportDefs_ok.2.2.2]; simp [or_comm])

/-- C92 in full is false: media refer to a mark only and are not among the leaves. -/
theorem C92_false : ¬ leavesClaim := by
  intro hc
  obtain ⟨f, h, -⟩ := C91_report Samples.env reportDefs reportDefs_ok.1 reportDefs_ok.2.1 reportDefs_ok.2.2.1 _ (by decide) reportDefs_ok.2.2.2
  have hm : NodeOf "media_node".toList "media".toList := (nodeOf_iff (by decide)).mp ⟨by decide, by decide⟩
  have hmem : ("media_node", (reportDefs.head!).2) ∈ reportDefs := by
    rw [show reportDefs.head! = ("media_node", (reportDefs.head!).2) from rfl]
    exact List.mem_cons_self
  have h1 := (hc reportDefs f h "media".toList).mpr ⟨⟨_, _, hmem, hm⟩, ?_⟩
  · refine ((C92_leaves_partial reportDefs f h "media".toList).1.mp h1).2 ⟨"border".toList, by decide, "media_node", _, "border_mark".toList, hmem, hm, ?_, .inr ⟨by decide, rfl⟩⟩
    exact .value _ "marks" _ _ (List.mem_cons_of_mem _ List.mem_cons_self) (.item _ _ _ List.mem_cons_self (.here _ _ rfl))
  · rintro ⟨b', hne, name, v, r, e1, e2, e3, e4⟩
    have hb := (nodeOf_iff (name := name.toList) (b := "media".toList) (by
      obtain ⟨_, s, hs, _⟩ := e2
      exact endsWith_iff.mpr ⟨s, hs⟩)).mpr e2
    simp only [reportDefs, List.mem_cons, Prod.mk.injEq, List.not_mem_nil, or_false] at e1
    rcases e1 with ⟨rfl, rfl⟩ | ⟨rfl, rfl⟩ | ⟨rfl, rfl⟩
    · have : r = "border_mark".toList := by
        have hr := (C74_refs (reportDefs.head!).2).1 ["border_mark".toList] (by rfl)
        exact List.mem_singleton.mp ((hr.2 r).mpr e3)
      subst this
      obtain ⟨_, s, hs, _⟩ := e4
      have := List.append_inj_right' (show "border".toList ++ "_mark".toList = s ++ "_node".toList from hs) (by decide)
      exact absurd this (by decide)
    · exact absurd hb.1 (by decide)
    · exact absurd hb.1 (by decide)

theorem report_needs {b b' : Str} (h : Needs reportDefs b b') : b = "group".toList ∧ b' = "media".toList := by
  obtain ⟨hne, hbase, name, v, r, e1, e2, e3, e4⟩ := h
  have hb := (nodeOf_iff (name := name.toList) (b := b) (by
    obtain ⟨_, s, hs, _⟩ := e2
    exact endsWith_iff.mpr ⟨s, hs⟩)).mpr e2
  have hb' := of_iff.mpr e4
  have hm := (reportDefs_ok.2.2.2 b').mpr hbase
  simp only [reportDefs, List.mem_cons, Prod.mk.injEq, List.not_mem_nil, or_false] at e1
  rcases e1 with ⟨rfl, rfl⟩ | ⟨rfl, rfl⟩ | ⟨rfl, rfl⟩
  · have hr := (C74_refs (reportDefs.head!).2).1 ["border_mark".toList] (by rfl)
    have := List.mem_singleton.mp ((hr.2 r).mpr e3)
    subst this
    have h1 := Option.some.inj hb'.1.symm
    subst h1
    exact absurd hm (by decide)
  · have hr := (C74_refs (.dict [("type", .dict [("enum", .list [.str "group".toList])]),
      ("$ref", .str "#/definitions/media_node".toList)])).1 ["media_node".toList] (by rfl)
    have := List.mem_singleton.mp ((hr.2 r).mpr e3)
    subst this
    exact ⟨Option.some.inj hb.1.symm, Option.some.inj hb'.1.symm⟩
  · exact absurd (of_iff.mpr (.inl e2)) (fun h => by
      obtain ⟨_, s, hs, _⟩ := e2
      exact absurd (List.append_inj_right' (show "border".toList ++ "_mark".toList = s ++ "_node".toList from hs) (by decide)) (by decide))

/-- Groups are among the composites and on no cycle: `C91_phases` applies to them, and `media` comes before. -/
example : ∃ (f : Facts) (a c : List (Str × List Str)) (ds : List Str), f.Of reportDefs ∧ f.composites = a ++ ("group".toList, ds) :: c ∧
    "media".toList ∈ f.leaves.map (·.1) ++ a.map (·.1) := by
  obtain ⟨f, h, -⟩ := C91_report Samples.env reportDefs reportDefs_ok.1 reportDefs_ok.2.1 reportDefs_ok.2.2.1 _ (by decide) reportDefs_ok.2.2.2
  have hg : NodeOf "group_node".toList "group".toList := (nodeOf_iff (by decide)).mp ⟨by decide, by decide⟩
  have hm : NodeOf "media_node".toList "media".toList := (nodeOf_iff (by decide)).mp ⟨by decide, by decide⟩
  have hbase : ∀ b ∈ ["media".toList, "group".toList], IsBase reportDefs b := fun b hb => (reportDefs_ok.2.2.2 b).mp hb
  obtain ⟨⟨x, ds⟩, hin, hx⟩ := List.mem_map.mp ((h.bases.2.1 "group".toList).mpr (hbase _ (by decide)))
  cases hx
  have hw : Wants reportDefs "group".toList "media".toList :=
    ⟨by decide, "group_node", _, "media_node".toList, List.mem_cons_of_mem _ List.mem_cons_self, hg, .here _ _ rfl, .inl hm⟩
  have hd := ((h.deps _ _ hin).2 _).mpr hw
  have hc : ("group".toList, ds) ∈ f.composites := by
    refine List.mem_filter.mpr ⟨hin, ?_⟩
    cases ds with
    | nil => cases hd
    | cons => rfl
  obtain ⟨a, c, hab⟩ := List.append_of_mem hc
  have hcyc : ¬ Cyclic (Needs reportDefs) "group".toList := by
    rintro ⟨m, -, ht⟩
    have h1 := (Relation.TransGen.head'_iff.mp ht)
    have h2 := (Relation.TransGen.tail'_iff.mp ht)
    obtain ⟨x, hx, -⟩ := h1
    obtain ⟨y, -, hy⟩ := h2
    have e1 := (report_needs hx).1
    have e2 := (report_needs hy).2
    rw [e1] at e2
    exact absurd e2 (by decide)
  exact ⟨f, a, c, ds, h, hab, (C91_phases reportDefs f h a c _ ds hab hcyc _ hd).2 (hbase _ (by decide))⟩

end Verif.Props
