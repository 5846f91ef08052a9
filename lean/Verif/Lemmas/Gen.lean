import Verif.Spec.Gen
/-!
# The generated api.py
-/

namespace Verif.Gen
open Verif.Spec.Gen

theorem sorted_byName (l : List Str) : (l.mergeSort byName).Pairwise (· ≤ ·) := by
  have := List.pairwise_mergeSort (le := byName)
    (by intro a b c h1 h2; simp only [byName, decide_eq_true_eq] at *; exact le_trans h1 h2)
    (by intro a b; simp only [byName, Bool.or_eq_true, decide_eq_true_eq]; exact le_total a b) l
  exact this.imp fun h => by simpa [byName] using h

theorem sorted_strict {l : List Str} (hn : l.Nodup) : (l.mergeSort byName).Pairwise (· < ·) := by
  have h1 := sorted_byName l
  have h2 : (l.mergeSort byName).Nodup := (List.mergeSort_perm l byName).nodup_iff.mpr hn
  exact List.Pairwise.imp₂ (fun a b h h' => lt_of_le_of_ne h h') h1 h2

theorem members_strict {l : List Member} (hn : (l.map (·.name)).Nodup) :
    (l.mergeSort fun a b => byName a.name b.name).Pairwise fun a b => a.name < b.name := by
  have h1 := List.pairwise_mergeSort (le := fun a b : Member => byName a.name b.name)
    (by intro a b c h1 h2; simp only [byName, decide_eq_true_eq] at *; exact le_trans h1 h2)
    (by intro a b; simp only [byName, Bool.or_eq_true, decide_eq_true_eq]; exact le_total a.name b.name) l
  have h2 : ((l.mergeSort fun a b => byName a.name b.name).map (·.name)).Nodup :=
    ((List.mergeSort_perm l _).map _).nodup_iff.mpr hn
  have h3 := List.pairwise_map.mp h2
  exact List.Pairwise.imp₂ (fun a b h h' => lt_of_le_of_ne (by simpa [byName] using h) h') h1 h3

/-- What a module contributes. -/
def apisOf (load : Str → Import) (full module : Str) : List Api :=
  match load full with
  | .ok members => (members.mergeSort fun a b => byName a.name b.name).flatMap (memberApis full module)
  | _ => []

theorem py_split {f : Str} (h : ".py".toList <:+ f) : f = stem f ++ ".py".toList := by
  obtain ⟨t, rfl⟩ := h
  simp [stem]

theorem ne_of_py {f : Str} (h : ".py".toList <:+ f) : f ≠ "marks".toList ∧ f ≠ "nodes".toList := by
  constructor <;> rintro rfl <;> revert h <;> decide

theorem scan_marks {w : World} {f : Str} (hl : ∀ full e, w.load full ≠ .raises e) :
    scanModule w "marks".toList f =
      .ok (apisOf w.load ("atlas_doc_parser.marks.".toList ++ stem f) (stem f)) := by
  unfold scanModule apisOf
  rw [if_pos (by simp)]
  simp only
  cases h : w.load ("atlas_doc_parser.marks.".toList ++ stem f) with
  | ok ms => rfl
  | importError => rfl
  | raises e => exact absurd h (hl _ e)

theorem scan_nodes {w : World} {f : Str} (hl : ∀ full e, w.load full ≠ .raises e)
    (hp : "marks".toList ∉ w.parts) (hf : ".py".toList <:+ f) :
    scanModule w "nodes".toList f =
      .ok (apisOf w.load ("atlas_doc_parser.nodes.".toList ++ stem f) (stem f)) := by
  have hne := (ne_of_py hf).1
  unfold scanModule apisOf
  rw [if_neg (by
    rw [List.mem_append, not_or]
    refine ⟨hp, ?_⟩
    intro h
    rcases List.mem_cons.mp h with h | h
    · revert h; decide
    · rw [List.mem_singleton] at h; exact hne h.symm), if_pos (by simp)]
  simp only
  cases h : w.load ("atlas_doc_parser.nodes.".toList ++ stem f) with
  | ok ms => rfl
  | importError => rfl
  | raises e => exact absurd h (hl _ e)

theorem scanFiles_eq {w : World} {dir : Str} {g : Str → List Api} {fs : List Str}
    (h : ∀ f ∈ fs, scanModule w dir f = .ok (g f)) : scanFiles w dir fs = .ok (fs.flatMap g) := by
  induction fs with
  | nil => rfl
  | cons f fs ih =>
    rw [scanFiles, h f (by simp), ih fun f hf => h f (by simp [hf])]
    rfl

theorem memberApis_module {full module : Str} {m : Member} {a : Api} (h : a ∈ memberApis full module m) :
    a = ⟨module, m.name⟩ := by
  unfold memberApis at h
  split at h
  · cases h
  · rcases List.mem_append.mp h with h | h
    · split at h
      · simpa using h
      · cases h
    · split at h
      · simpa using h
      · cases h

theorem apisOf_module {load : Str → Import} {full module : Str} {a : Api} (h : a ∈ apisOf load full module) :
    a.moduleName = module := by
  unfold apisOf at h
  split at h
  · obtain ⟨m, _, hm⟩ := List.mem_flatMap.mp h
    rw [memberApis_module hm]
  · cases h

/-! ## Grouping keeps the order -/

theorem addTo_append {acc : List (Str × List Api)} {k : Str} {xs : List Api} {a : Api}
    (hk : ∀ g ∈ acc, g.1 ≠ k) (ha : a.moduleName = k) :
    addTo (acc ++ [(k, xs)]) a = acc ++ [(k, xs ++ [a])] := by
  induction acc with
  | nil => simp [addTo, ha]
  | cons g acc ih =>
    obtain ⟨k', ys⟩ := g
    rw [List.cons_append, addTo, if_neg (by rw [ha]; exact hk (k', ys) (by simp)),
      ih fun g hg => hk g (by simp [hg])]
    rfl

theorem addTo_new {acc : List (Str × List Api)} {a : Api} (hk : ∀ g ∈ acc, g.1 ≠ a.moduleName) :
    addTo acc a = acc ++ [(a.moduleName, [a])] := by
  induction acc with
  | nil => rfl
  | cons g acc ih =>
    obtain ⟨k', ys⟩ := g
    rw [addTo, if_neg (hk (k', ys) (by simp)), ih fun g hg => hk g (by simp [hg])]
    rfl

theorem fold_block {acc : List (Str × List Api)} {k : Str} (hk : ∀ g ∈ acc, g.1 ≠ k) (xs : List Api)
    {block : List Api} (hb : ∀ a ∈ block, a.moduleName = k) :
    block.foldl addTo (acc ++ [(k, xs)]) = acc ++ [(k, xs ++ block)] := by
  induction block generalizing xs with
  | nil => simp
  | cons a block ih =>
    rw [List.foldl_cons, addTo_append hk (hb a (by simp)), ih _ fun b hb' => hb b (by simp [hb'])]
    simp

theorem group_flat {g : Str → List Api} {key : Str → Str} (hg : ∀ f, ∀ a ∈ g f, a.moduleName = key f) :
    ∀ (fs : List Str) (acc : List (Str × List Api)), (fs.map key).Nodup →
      (∀ f ∈ fs, ∀ e ∈ acc, e.1 ≠ key f) →
      ((fs.flatMap g).foldl addTo acc).flatMap (·.2) = acc.flatMap (·.2) ++ fs.flatMap g := by
  intro fs
  induction fs with
  | nil => intro acc _ _; simp
  | cons f fs ih =>
    intro acc hn hd
    rw [List.map_cons, List.nodup_cons] at hn
    rw [List.flatMap_cons, List.foldl_append]
    have hblock : (g f).foldl addTo acc = acc ∧ g f = [] ∨
        (g f).foldl addTo acc = acc ++ [(key f, g f)] := by
      cases hgf : g f with
      | nil => exact .inl ⟨rfl, rfl⟩
      | cons a as =>
        have hm : ∀ b ∈ a :: as, b.moduleName = key f := fun b hb => hg f b (by rw [hgf]; exact hb)
        have ha := hm a (by simp)
        refine .inr ?_
        rw [List.foldl_cons, addTo_new (by rw [ha]; exact hd f (by simp)), ha,
          fold_block (hd f (by simp)) [a] fun b hb => hm b (by simp [hb])]
        rfl
    rcases hblock with ⟨h1, h2⟩ | h1
    · rw [h1, ih acc hn.2 fun f' hf' => hd f' (by simp [hf']), h2]
      rfl
    · rw [h1, ih _ hn.2 ?_]
      · simp
      · intro f' hf' e he
        rcases List.mem_append.mp he with he | he
        · exact hd f' (by simp [hf']) e he
        · rw [List.mem_singleton] at he
          subst he
          intro h
          have h : key f = key f' := h
          exact hn.1 (by rw [h]; exact List.mem_map_of_mem (f := key) hf')

theorem renderApis_append {as bs : List Api} {s : Str} (h : renderApis as = .ok s) :
    renderApis (as ++ bs) = match renderApis bs with
      | .error e => .error e
      | .ok r => .ok (s ++ r) := by
  induction as generalizing s with
  | nil =>
    cases h
    rw [List.nil_append]
    cases renderApis bs <;> rfl
  | cons a as ih =>
    rw [renderApis] at h
    rw [List.cons_append, renderApis]
    cases hl : a.line with
    | error e => rw [hl] at h; cases h
    | ok l =>
      rw [hl] at h
      cases hr : renderApis as with
      | error e => rw [hr] at h; cases h
      | ok r =>
        rw [hr] at h
        cases h
        simp only
        rw [ih hr]
        cases renderApis bs with
        | error e => rfl
        | ok t => simp

theorem renderGroups_eq (gs : List (Str × List Api)) (s : Str) (h : renderApis (gs.flatMap (·.2)) = .ok s) :
    renderGroups gs = .ok s := by
  induction gs generalizing s with
  | nil => exact h
  | cons g gs ih =>
    rw [List.flatMap_cons] at h
    rw [renderGroups]
    have hpre : ∀ as bs : List Api, ∀ s, renderApis (as ++ bs) = .ok s → ∃ t, renderApis as = .ok t := by
      intro as bs
      induction as with
      | nil => intro s _; exact ⟨[], rfl⟩
      | cons a as ih2 =>
        intro s h
        rw [List.cons_append, renderApis] at h
        rw [renderApis]
        cases hl : a.line with
        | error e => rw [hl] at h; cases h
        | ok l =>
          rw [hl] at h
          cases hr : renderApis (as ++ bs) with
          | error e => rw [hr] at h; cases h
          | ok r =>
            obtain ⟨t, ht⟩ := ih2 r hr
            exact ⟨l ++ t, by rw [ht]⟩
    obtain ⟨t, ht⟩ := hpre _ _ _ h
    rw [renderApis_append ht] at h
    rw [ht]
    simp only
    cases hr : renderApis (gs.flatMap (·.2)) with
    | error e => rw [hr] at h; cases h
    | ok r =>
      rw [hr] at h
      rw [ih r hr]
      exact h

/-! ## The lines -/

def Api.pair (a : Api) : Str × Str := (a.moduleName, a.className)

theorem render_lines {dir : Str} {as : List Api}
    (h : ∀ a ∈ as, a.path = .ok (".".toList ++ dir ++ ".".toList ++ a.moduleName)) :
    renderApis as = .ok (lines dir (as.map Api.pair)) := by
  induction as with
  | nil => rfl
  | cons a as ih =>
    rw [renderApis, Api.line, h a (by simp), ih fun b hb => h b (by simp [hb])]
    simp [lines, Api.pair]

theorem path_mark {a : Api} (h : "mark_".toList <+: a.moduleName) :
    a.path = .ok (".".toList ++ "marks".toList ++ ".".toList ++ a.moduleName) := by
  unfold Api.path
  rw [if_pos (by simpa using h)]
  rfl

theorem path_node {a : Api} (h : "node_".toList <+: a.moduleName) :
    a.path = .ok (".".toList ++ "nodes".toList ++ ".".toList ++ a.moduleName) := by
  unfold Api.path
  rw [if_neg, if_pos (by simpa using h)]
  · rfl
  · intro h'
    have h' : "mark_".toList <+: a.moduleName := by simpa using h'
    rcases List.prefix_or_prefix_of_prefix h h' with h | h <;> revert h <;> decide

theorem prefix_stem {pre f : Str} (hd : '.' ∉ pre) (hp : pre <+: f) (hf : ".py".toList <:+ f) :
    pre <+: stem f := by
  have he := py_split hf
  have h1 : stem f <+: f := ⟨".py".toList, he.symm⟩
  rcases List.prefix_or_prefix_of_prefix hp h1 with h | h
  · exact h
  · obtain ⟨r, hr⟩ := h
    have hp : stem f ++ r <+: stem f ++ ".py".toList := by rw [hr, ← he]; exact hp
    rw [List.prefix_append_right_inj] at hp
    cases r with
    | nil => rw [← hr]; simp
    | cons c r =>
      exfalso
      obtain ⟨t, ht⟩ := hp
      have : c = '.' := by
        have := congrArg List.head? ht
        simpa using this
      subst this
      exact hd (by rw [← hr]; simp)

theorem mem_globbed {pre : Str} {files : List Str} {f : Str} :
    f ∈ globbed pre files ↔ f ∈ files ∧ pre <+: f ∧ ".py".toList <:+ f := by
  unfold globbed
  rw [List.mem_filter, Bool.and_eq_true, List.isPrefixOf_iff_prefix, List.isSuffixOf_iff_suffix]

theorem memberApis_len {full module : Str} {m : Member}
    (h : m.isClass = true → ¬ "T_NODE_".toList <+: m.name ∧ ¬ "T_MARK_".toList <+: m.name) :
    (memberApis full module m).length ≤ 1 := by
  have key : ∀ (a b : Bool) (x : Api), (a = true → b = false) →
      ((if a = true then [x] else []) ++ (if b = true then [x] else [])).length ≤ 1 := by
    intro a b x h
    cases a <;> cases b <;> simp at h ⊢
  unfold memberApis
  split
  · simp
  · refine key _ _ _ fun hc => ?_
    simp only [Bool.and_eq_true] at hc
    obtain ⟨h1, h2⟩ := h hc.1.1
    rw [Bool.or_eq_false_iff]
    constructor
    · rw [← Bool.not_eq_true, List.isPrefixOf_iff_prefix]; exact h1
    · rw [← Bool.not_eq_true, List.isPrefixOf_iff_prefix]; exact h2

/-- Everything the scan of one directory finds. -/
theorem section_spec {w : World} (hs : Sane w) {dir pre : Str} {files : List Str} (hn : files.Nodup)
    (hd : '.' ∉ pre) (g : Str → List Api)
    (hg : g = fun f => apisOf w.load ("atlas_doc_parser.".toList ++ dir ++ ".".toList ++ stem f) (stem f))
    (hpath : ∀ a : Api, pre <+: a.moduleName →
      a.path = .ok (".".toList ++ dir ++ ".".toList ++ a.moduleName))
    (hscan : ∀ f, ".py".toList <:+ f → scanModule w dir f = .ok (g f)) :
    ∃ as ps, scanDir w dir pre files = .ok as ∧ renderGroups (group as) = .ok (lines dir ps) ∧
      (∀ p, p ∈ ps ↔ Belongs w.load dir pre files p) ∧ ps.Nodup ∧ ps.Pairwise Before := by
  let fs := (globbed pre files).mergeSort byName
  have hmem : ∀ f, f ∈ fs ↔ f ∈ files ∧ pre <+: f ∧ ".py".toList <:+ f := fun f => by
    rw [← mem_globbed]; exact (List.mergeSort_perm _ _).mem_iff
  have hstrict : fs.Pairwise (· < ·) := sorted_strict (hn.filter _)
  have hscan' : scanDir w dir pre files = .ok (fs.flatMap g) :=
    scanFiles_eq fun f hf => hscan f ((hmem f).mp hf).2.2
  have hmod : ∀ f, ∀ a ∈ g f, a.moduleName = stem f := by
    intro f a ha
    rw [hg] at ha
    exact apisOf_module ha
  have hstem : ∀ f ∈ fs, f = stem f ++ ".py".toList := fun f hf => py_split ((hmem f).mp hf).2.2
  have hnodup : (fs.map stem).Nodup := by
    rw [List.Nodup, List.pairwise_map]
    refine hstrict.imp_of_mem fun {a b} ha hb hlt he => ?_
    rw [hstem a ha, hstem b hb, he] at hlt
    exact lt_irrefl _ hlt
  have hflat : (group (fs.flatMap g)).flatMap (·.2) = fs.flatMap g := by
    have := group_flat hmod fs [] hnodup (by intro f _ e he; cases he)
    simpa [group] using this
  have hlines : renderApis (fs.flatMap g) = .ok (lines dir ((fs.flatMap g).map Api.pair)) := by
    refine render_lines fun a ha => ?_
    obtain ⟨f, hf, ha⟩ := List.mem_flatMap.mp ha
    refine hpath a ?_
    rw [hmod f a ha]
    obtain ⟨_, h1, h2⟩ := (hmem f).mp hf
    exact prefix_stem hd h1 h2
  have hone : ∀ full module ms, w.load full = .ok ms → ∀ m ∈ ms, (memberApis full module m).length ≤ 1 := by
    intro full module ms hl m hm
    exact memberApis_len fun hc => hs.aliases full ms m hl hm hc
  have hpair : ((fs.flatMap g).map Api.pair).Pairwise Before := by
    rw [List.pairwise_map, List.pairwise_flatMap]
    constructor
    · intro f hf
      rw [hg]
      simp only [apisOf]
      split
      · next ms hl =>
        rw [List.pairwise_flatMap]
        constructor
        · intro m hm
          have := hone _ (stem f) ms hl m ((List.mergeSort_perm ms _).mem_iff.mp hm)
          revert this
          generalize memberApis _ _ _ = l
          match l with
          | [] => simp
          | [a] => simp
          | _ :: _ :: _ => simp
        · refine (members_strict (hs.members _ ms hl)).imp fun {m m'} hlt x hx y hy => ?_
          rw [memberApis_module hx, memberApis_module hy]
          exact .inr ⟨rfl, hlt⟩
      · exact .nil
    · refine hstrict.imp_of_mem fun {f f'} hf hf' hlt x hx y hy => ?_
      refine .inl ?_
      show x.moduleName ++ _ < y.moduleName ++ _
      rw [hmod f x hx, hmod f' y hy, ← hstem f hf, ← hstem f' hf']
      exact hlt
  refine ⟨_, _, hscan', renderGroups_eq _ _ (by rw [hflat]; exact hlines), ?_, ?_, hpair⟩
  · rintro ⟨md, nm⟩
    rw [List.mem_map]
    constructor
    · rintro ⟨a, ha, he⟩
      obtain ⟨f, hf, ha⟩ := List.mem_flatMap.mp ha
      obtain ⟨h1, h2, h3⟩ := (hmem f).mp hf
      have hm := hmod f a ha
      obtain ⟨rfl, rfl⟩ : a.moduleName = md ∧ a.className = nm := by
        simpa [Api.pair] using he
      refine ⟨?_, ?_, ?_⟩
      · rw [hm, ← hstem f hf]; exact h1
      · rw [hm]; exact prefix_stem hd h2 h3
      · rw [hg] at ha
        simp only [apisOf] at ha
        rw [hm]
        split at ha
        · next ms hl =>
          obtain ⟨m, hmm, ha⟩ := List.mem_flatMap.mp ha
          refine ⟨ms, hl, m, (List.mergeSort_perm ms _).mem_iff.mp hmm, ?_⟩
          have hn := memberApis_module ha
          rw [hn]
          simp only [true_and]
          unfold memberApis at ha
          split at ha
          · cases ha
          · next hu =>
            refine ⟨by simpa using hu, ?_⟩
            rcases List.mem_append.mp ha with ha | ha
            · split at ha
              · next hc =>
                simp only [Bool.and_eq_true, beq_iff_eq] at hc
                exact .inl ⟨hc.1.1, hc.1.2, hc.2⟩
              · cases ha
            · split at ha
              · next hc => exact .inr (by simpa using hc)
              · cases ha
        · cases ha
    · rintro ⟨h1, h2, ms, hl, m, hm, rfl, hu, hpub⟩
      simp only at h1 h2 hl hpub hu
      have hstem' : stem (md ++ ".py".toList) = md := by simp [stem]
      refine ⟨⟨md, m.name⟩, List.mem_flatMap.mpr ⟨md ++ ".py".toList, ?_, ?_⟩, rfl⟩
      · rw [hmem]
        exact ⟨h1, List.IsPrefix.trans h2 (List.prefix_append _ _), List.suffix_append _ _⟩
      · rw [hg]
        simp only [apisOf, hstem']
        rw [hl]
        simp only
        refine List.mem_flatMap.mpr ⟨m, (List.mergeSort_perm ms _).mem_iff.mpr hm, ?_⟩
        unfold memberApis
        rw [if_neg (by simpa using hu), List.mem_append]
        rcases hpub with ⟨c1, c2, c3⟩ | hpub
        · left
          rw [if_pos (by simp [c1, c2, c3])]
          simp
        · right
          rw [if_pos (by simpa using hpub)]
          simp
  · refine hpair.imp fun {p q} h he => ?_
    subst he
    rcases h with h | ⟨_, h⟩ <;> exact lt_irrefl _ h

end Verif.Gen
