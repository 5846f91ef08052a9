import Verif.Spec.Analyze
import Mathlib.Data.Set.Finite.List
import Mathlib.Data.Fintype.EquivFin
import Mathlib.Data.Fintype.Pigeonhole
import Mathlib.Data.List.Nodup
/-!
# The schema analysis
-/

namespace Verif.Analyze
open Verif Verif.Spec.Analyze

/-! ## Sorting -/

theorem sort_perm (l : List Str) : (sort l).Perm l := List.perm_insertionSort _ l

theorem sort_strict {l : List Str} (h : l.Nodup) : (sort l).Pairwise (· < ·) :=
  List.Pairwise.imp₂ (fun _ _ h h' => lt_of_le_of_ne h h') (List.pairwise_insertionSort (· ≤ ·) l)
    ((sort_perm l).nodup_iff.mpr h)

theorem strict_eq {l l' : List Str} (h : l.Pairwise (· < ·)) (h' : l'.Pairwise (· < ·)) (hp : ∀ x, x ∈ l ↔ x ∈ l') :
    l = l' := by
  have hn : l.Nodup := h.imp fun h => ne_of_lt h
  have hn' : l'.Nodup := h'.imp fun h => ne_of_lt h
  exact List.Perm.eq_of_pairwise (fun a b _ _ h1 h2 => absurd h1 (lt_asymm h2)) h h'
    ((List.perm_ext_iff_of_nodup hn hn').mpr hp)

/-! ## Graphs -/

theorem mem_keys {g : Graph} {n : Str} : n ∈ g.keys ↔ Entry g n := by
  simp [Graph.keys, Entry]

theorem deps_of_mem {g : Graph} (hw : WF g) {n : Str} {ds : List Str} (h : (n, ds) ∈ g) : g.deps n = ds := by
  obtain ⟨h1, -⟩ := hw
  induction g with
  | nil => simp at h
  | cons e g ih =>
    have ih := fun h h1 => ih h h1
    simp only [Graph.deps, List.find?_cons]
    simp only [List.map_cons, List.nodup_cons, List.mem_map, not_exists, not_and] at h1
    rcases List.mem_cons.mp h with rfl | h
    · simp
    · have : e.1 ≠ n := fun he => h1.1 _ h he.symm
      rw [show (e.1 == n) = false by simpa using this]
      exact ih h h1.2

theorem deps_eq {g : Graph} {n : Str} : g.deps n = [] ∨ (n, g.deps n) ∈ g := by
  simp only [Graph.deps]
  cases h : g.find? fun e => e.1 == n with
  | none => simp
  | some e =>
    have h1 := List.find?_some h
    have h2 := List.mem_of_find?_eq_some h
    simp only [beq_iff_eq] at h1
    subst h1
    right; simpa using h2

theorem deps_nodup {g : Graph} (hw : WF g) (n : Str) : (g.deps n).Nodup := by
  rcases deps_eq (g := g) (n := n) with h | h
  · rw [h]; exact List.nodup_nil
  · exact hw.2 _ h

theorem dep_iff {g : Graph} (hw : WF g) {n d : Str} : Dep g n d ↔ d ∈ g.deps n ∧ d ∈ g.keys := by
  constructor
  · rintro ⟨⟨ds, h1, h2⟩, h3⟩
    rw [deps_of_mem hw h1]
    exact ⟨h2, mem_keys.mpr h3⟩
  · rintro ⟨h1, h2⟩
    refine ⟨⟨_, ?_, h1⟩, mem_keys.mp h2⟩
    rcases deps_eq (g := g) (n := n) with h | h
    · rw [h] at h1; simp at h1
    · exact h

/-! ## Counting -/

/-- The dependencies of `n` in the graph that are not yet in `P`. -/
def openDeps (g : Graph) (P : List Str) (n : Str) : List Str := (g.deps n).filter fun d => d ∈ g.keys ∧ d ∉ P

theorem countDeps_eq (keys : List Str) : ∀ (l : List Str) (k : Int),
    countDeps keys l k = k + ((l.filter fun d => d ∈ keys).length : Int)
  | [], k => by simp [countDeps]
  | d :: l, k => by
    rw [countDeps, countDeps_eq keys l]
    by_cases h : d ∈ keys <;> simp [h]
    omega

theorem inDegree_eq (g : Graph) (n : Str) : inDegree g n = (openDeps g [] n).length := by
  simp [inDegree, countDeps_eq, openDeps]

theorem filter_remove {l : List Str} (hn : l.Nodup) (p : Str → Bool) (x : Str) (hp : p x = true) :
    ((l.filter fun d => p d && decide (d ≠ x)).length : Int) = (l.filter p).length - (if x ∈ l then 1 else 0) := by
  induction l with
  | nil => simp
  | cons d l ih =>
    simp only [List.nodup_cons] at hn
    have ih := ih hn.2
    by_cases hd : d = x
    · subst hd
      simp only [hn.1, if_false] at ih
      simp only [List.filter_cons, hp]
      simp
      rw [← Int.sub_zero ((l.filter p).length : Int), ← ih]
      simp
    · have hx : x ∈ d :: l ↔ x ∈ l := by simp [Ne.symm hd]
      simp only [hx]
      by_cases hpd : p d
      · simp only [List.filter_cons, hpd]
        rw [if_pos (by simp [hd]), if_pos trivial, List.length_cons, List.length_cons]
        omega
      · simp only [List.filter_cons, hpd]
        simpa using ih

theorem openDeps_snoc {g : Graph} (hw : WF g) {P : List Str} {x n : Str} (hx : x ∈ g.keys) (hP : x ∉ P) :
    ((openDeps g (P ++ [x]) n).length : Int) = (openDeps g P n).length - (if x ∈ g.deps n then 1 else 0) := by
  rw [openDeps, openDeps, ← filter_remove (deps_nodup hw n) (fun d => decide (d ∈ g.keys ∧ d ∉ P)) x (by simp [hx, hP])]
  congr 2
  apply List.filter_congr
  intro d _
  simp [Bool.and_assoc]

theorem openDeps_nil {g : Graph} (hw : WF g) {P : List Str} {n : Str} :
    (openDeps g P n).length = 0 ↔ ∀ d, Dep g n d → d ∈ P := by
  rw [List.length_eq_zero_iff, openDeps, List.filter_eq_nil_iff]
  simp only [dep_iff hw, decide_eq_true_eq, not_and, not_not]
  tauto

/-! ## The inner loop -/

theorem relax_spec (g : Graph) (x : Str) : ∀ (order : List Str) (deg : Str → Int) (q : List Str), order.Nodup → q.Nodup →
    q.Pairwise (· < ·) → (∀ n ∈ order, x ∈ g.deps n → n ∉ q) →
    (∀ n, (relax g x order deg q).1 n = deg n - (if n ∈ order ∧ x ∈ g.deps n then 1 else 0)) ∧
    (relax g x order deg q).2.Pairwise (· < ·) ∧
    ∀ n, n ∈ (relax g x order deg q).2 ↔ n ∈ q ∨ (n ∈ order ∧ x ∈ g.deps n ∧ deg n = 1)
  | [], deg, q, _, _, hs, _ => by simp [relax, hs]
  | o :: rest, deg, q, hno, hnq, hs, hd => by
    simp only [List.nodup_cons] at hno
    rw [relax]
    split
    · rename_i hx
      have hoq : o ∉ q := hd o (by simp) hx
      simp only [if_true]
      split
      · rename_i h0
        have hq' : (q ++ [o]).Nodup := by
          rw [List.nodup_append]; exact ⟨hnq, by simp, by rintro a ha b hb rfl; exact hoq (List.mem_singleton.mp hb ▸ ha)⟩
        have hsq := sort_strict hq'
        have hmem : ∀ n, n ∈ sort (q ++ [o]) ↔ n ∈ q ∨ n = o := fun n => by rw [(sort_perm _).mem_iff]; simp
        obtain ⟨i1, i2, i3⟩ := relax_spec g x rest (fun i => if i = o then deg o - 1 else deg i) (sort (q ++ [o])) hno.2
          ((sort_perm _).nodup_iff.mpr hq') hsq (by
            intro n hn hxn
            rw [hmem]
            rintro (h | rfl)
            · exact hd n (by simp [hn]) hxn h
            · exact hno.1 hn)
        refine ⟨fun n => ?_, i2, fun n => ?_⟩
        · rw [i1]
          by_cases hn : n = o
          · subst hn; simp [hno.1, hx]
          · simp [hn]
        · rw [i3, hmem]
          by_cases hn : n = o
          · subst hn; simp only [hno.1, false_and, or_false, or_true, true_iff]
            right; exact ⟨by simp, hx, by omega⟩
          · simp [hn]
      · rename_i h0
        obtain ⟨i1, i2, i3⟩ := relax_spec g x rest (fun i => if i = o then deg o - 1 else deg i) q hno.2 hnq hs
          fun n hn hxn => hd n (by simp [hn]) hxn
        refine ⟨fun n => ?_, i2, fun n => ?_⟩
        · rw [i1]
          by_cases hn : n = o
          · subst hn; simp [hno.1, hx]
          · simp [hn]
        · rw [i3]
          by_cases hn : n = o
          · subst hn
            have : deg n ≠ 1 := by omega
            simp [hno.1, this]
          · simp [hn]
    · rename_i hx
      obtain ⟨i1, i2, i3⟩ := relax_spec g x rest deg q hno.2 hnq hs fun n hn hxn => hd n (by simp [hn]) hxn
      refine ⟨fun n => ?_, i2, fun n => ?_⟩
      · rw [i1]
        by_cases hn : n = o
        · subst hn; simp [hno.1, hx]
        · simp [hn]
      · rw [i3]
        by_cases hn : n = o
        · subst hn; simp [hno.1, hx]
        · simp [hn]

/-! ## The outer loop -/

/-- The entries `front` could be continued with. -/
def Ready (g : Graph) (a : List Str) (m : Str) : Prop := m ∈ g.keys ∧ m ∉ a ∧ ∀ d, Dep g m d → d ∈ a

structure Inv (g : Graph) (deg : Str → Int) (q P : List Str) : Prop where
  nodup : P.Nodup
  keys : ∀ n ∈ P, n ∈ g.keys
  deg : ∀ n ∈ g.keys, deg n = (openDeps g P n).length
  queue : ∀ n, n ∈ q ↔ Ready g P n
  sorted : q.Pairwise (· < ·)
  closed : ∀ n ∈ P, ∀ d, Dep g n d → d ∈ P
  greedy : ∀ a n b, P = a ++ n :: b → Ready g a n ∧ ∀ m, Ready g a m → n ≤ m

theorem inv_step {g : Graph} (hw : WF g) {order : List Str} (ho : order.Perm g.keys) {deg : Str → Int} {x : Str}
    {q P : List Str} (h : Inv g deg (x :: q) P) :
    Inv g (relax g x order deg q).1 (relax g x order deg q).2 (P ++ [x]) := by
  obtain ⟨hx1, hx2, hx3⟩ := (h.queue x).mp (by simp)
  have hsq := List.pairwise_cons.mp h.sorted
  have hnk : g.keys.Nodup := hw.1
  have hmo : ∀ n, n ∈ order ↔ n ∈ g.keys := fun n => ho.mem_iff
  have hself : x ∉ g.deps x := fun hxx => hx2 (hx3 x ((dep_iff hw).mpr ⟨hxx, hx1⟩))
  obtain ⟨i1, i2, i3⟩ := relax_spec g x order deg q (ho.nodup_iff.mpr hnk) (hsq.2.imp fun h => ne_of_lt h) hsq.2 (by
    intro n hn hxn hq
    obtain ⟨_, _, h3⟩ := (h.queue n).mp (by simp [hq])
    exact hx2 (h3 x ((dep_iff hw).mpr ⟨hxn, hx1⟩)))
  have hxq : x ∉ q := fun hq => lt_irrefl _ (hsq.1 x hq)
  refine ⟨?_, ?_, ?_, ?_, i2, ?_, ?_⟩
  · rw [List.nodup_append]; exact ⟨h.nodup, by simp, by rintro a ha b hb rfl; exact hx2 (List.mem_singleton.mp hb ▸ ha)⟩
  · intro n hn
    rcases List.mem_append.mp hn with hn | hn
    · exact h.keys n hn
    · rw [List.mem_singleton.mp hn]; exact hx1
  · intro n hn
    rw [i1, openDeps_snoc hw hx1 hx2, h.deg n hn]
    simp [hmo, hn]
  · intro n
    rw [i3]
    have hd0 : ∀ P, (∀ d, Dep g n d → d ∈ P) ↔ ((openDeps g P n).length : Int) = 0 := by
      intro P; rw [← openDeps_nil hw]; omega
    have hqn := h.queue n
    simp only [Ready, hd0, List.mem_cons] at hqn ⊢
    rw [openDeps_snoc hw hx1 hx2, hmo]
    by_cases hn : n ∈ g.keys
    · simp only [hn, true_and] at hqn ⊢
      rw [h.deg n hn]
      by_cases hxn : x ∈ g.deps n
      · have hne : n ≠ x := fun he => hself (he ▸ hxn)
        have h0 : ((openDeps g P n).length : Int) ≠ 0 := by
          intro h0; exact hx2 ((hd0 P).mpr h0 x ((dep_iff hw).mpr ⟨hxn, hx1⟩))
        have hnP : n ∉ P := fun hnP => hx2 (h.closed n hnP x ((dep_iff hw).mpr ⟨hxn, hx1⟩))
        simp only [hne, false_or, h0, and_false, iff_false] at hqn
        simp only [hqn, false_or, hxn, true_and, if_true, List.mem_append, List.mem_singleton, hnP, hne, or_self,
          not_false_eq_true]
        omega
      · simp only [hxn, false_and, or_false, if_false, List.mem_append, List.mem_singleton, not_or, Int.sub_zero]
        by_cases hne : n = x
        · subst hne; simp [hxq]
        · simp only [hne, false_or, not_false_eq_true, and_true] at hqn ⊢
          exact hqn
    · simp only [hn, false_and, iff_false, not_or, or_false] at hqn ⊢
      exact hqn.2
  · intro n hn d hd
    rcases List.mem_append.mp hn with hn | hn
    · simp [h.closed n hn d hd]
    · rw [List.mem_singleton.mp hn] at hd
      simp [hx3 d hd]
  · intro a n b hab
    rcases List.eq_nil_or_concat b with rfl | ⟨b', y, rfl⟩
    · obtain ⟨rfl, hnx⟩ := List.append_inj' hab (by simp)
      simp only [List.cons.injEq, and_true] at hnx
      subst hnx
      refine ⟨⟨hx1, hx2, hx3⟩, fun m hm => ?_⟩
      rcases List.mem_cons.mp ((h.queue m).mpr hm) with rfl | hmq
      · exact le_refl _
      · exact le_of_lt (hsq.1 m hmq)
    · have : P ++ [x] = (a ++ n :: b') ++ [y] := by simpa using hab
      obtain ⟨h1, -⟩ := List.append_inj' this (by simp)
      exact h.greedy a n b' h1

theorem length_le_of_keys {g : Graph} {P : List Str} (hn : P.Nodup) (hk : ∀ n ∈ P, n ∈ g.keys) : P.length ≤ g.length := by
  have := (List.subperm_of_subset hn hk).length_le
  simpa [Graph.keys] using this

theorem loop_spec {g : Graph} (hw : WF g) {order : List Str} (ho : order.Perm g.keys) :
    ∀ (fuel : Nat) (deg : Str → Int) (q P : List Str), Inv g deg q P → g.length < fuel + P.length →
    ∃ R deg', loop g order fuel deg q P = some R ∧ Inv g deg' [] R
  | 0, deg, q, P, h, hf => by
    have := length_le_of_keys h.nodup h.keys
    omega
  | fuel + 1, deg, [], P, h, hf => ⟨P, deg, rfl, h⟩
  | fuel + 1, deg, x :: q, P, h, hf => by
    have h' := inv_step hw ho h
    obtain ⟨R, deg', h1, h2⟩ := loop_spec hw ho fuel _ _ _ h' (by simp; omega)
    exact ⟨R, deg', by rw [loop]; exact h1, h2⟩

theorem inv_start {g : Graph} (hw : WF g) {order : List Str} (ho : order.Perm g.keys) :
    Inv g (inDegree g) (sort (order.filter fun n => inDegree g n = 0)) [] := by
  refine ⟨List.nodup_nil, by simp, fun n _ => inDegree_eq g n, fun n => ?_, ?_, by simp, by simp⟩
  · rw [(sort_perm _).mem_iff, List.mem_filter, ho.mem_iff, decide_eq_true_eq, inDegree_eq]
    have := openDeps_nil hw (P := []) (n := n)
    simp only [Ready, ← this]
    simp
  · exact sort_strict ((ho.nodup_iff.mpr hw.1).filter _)

/-! ## Cycles -/

/-- Entries that come after their dependencies are not on or behind cycles. -/
theorem not_cyclic {g : Graph} {deg : Str → Int} {R : List Str} (h : Inv g deg [] R) {n : Str} (hn : n ∈ R) : ¬ Cyclic (Dep g) n := by
  have hdec : ∀ n d, n ∈ R → Dep g n d → d ∈ R ∧ R.idxOf d < R.idxOf n := by
    intro n d hn hd
    obtain ⟨a, b, rfl⟩ := List.append_of_mem hn
    obtain ⟨⟨_, h2, h3⟩, _⟩ := h.greedy a n b rfl
    have hda := h3 d hd
    refine ⟨by simp [hda], ?_⟩
    rw [List.idxOf_append_of_mem hda, List.idxOf_append_of_notMem h2]
    have := List.idxOf_lt_length_iff.mpr hda
    omega
  have htr : ∀ n d, n ∈ R → Relation.TransGen (Dep g) n d → d ∈ R ∧ R.idxOf d < R.idxOf n := by
    intro n d hn hd
    induction hd with
    | single h1 => exact hdec _ _ hn h1
    | tail _ h1 ih => have := hdec _ _ ih.1 h1; exact ⟨this.1, by omega⟩
  rintro ⟨m, h1, h2⟩
  have hm : ∀ m, Relation.ReflTransGen (Dep g) n m → m ∈ R := by
    intro m h1
    induction h1 with
    | refl => exact hn
    | tail _ h3 ih => exact (hdec _ _ ih h3).1
  exact absurd (htr m m (hm m h1) h2).2 (by omega)

/-- An entry that was left over is on or behind a cycle. -/
theorem cyclic_of_left {g : Graph} {deg : Str → Int} {R : List Str} (h : Inv g deg [] R) {n : Str}
    (hk : n ∈ g.keys) (hn : n ∉ R) : Cyclic (Dep g) n := by
  let S := { n : Str // n ∈ g.keys ∧ n ∉ R }
  have hstep : ∀ s : S, ∃ t : S, Dep g s.1 t.1 := by
    rintro ⟨s, hs1, hs2⟩
    by_contra hcon
    have : s ∈ ([] : List Str) := (h.queue s).mpr ⟨hs1, hs2, fun d hd => by
      by_contra hdR
      exact hcon ⟨⟨d, mem_keys.mpr hd.2, hdR⟩, hd⟩⟩
    simp at this
  choose f hf using hstep
  have hfin : Finite S := Set.Finite.subset (List.finite_toSet g.keys) (fun x hx => hx.1)
  let u : Nat → S := fun i => f^[i] ⟨n, hk, hn⟩
  have hu : ∀ i, Dep g (u i).1 (u (i + 1)).1 := by
    intro i
    simp only [u, Function.iterate_succ_apply']
    exact hf _
  have hfrom : ∀ k i, Relation.TransGen (Dep g) (u i).1 (u (i + k + 1)).1 := by
    intro k i
    induction k with
    | zero => exact .single (hu i)
    | succ k ih => exact ih.tail (hu _)
  have h0 : ∀ i, Relation.ReflTransGen (Dep g) n (u i).1 := by
    intro i
    induction i with
    | zero => exact .refl
    | succ i ih => exact ih.tail (hu i)
  obtain ⟨i, j, hij, he⟩ := Finite.exists_ne_map_eq_of_infinite u
  have : ∀ i j, i < j → u i = u j → Cyclic (Dep g) n := by
    intro i j hlt he
    have := hfrom (j - i - 1) i
    rw [show i + (j - i - 1) + 1 = j by omega, ← he] at this
    exact ⟨_, h0 i, this⟩
  rcases Nat.lt_or_gt_of_ne hij with hlt | hlt
  · exact this i j hlt he
  · exact this j i hlt he.symm

theorem sort_spec {g : Graph} (hw : WF g) {order : List Str} (ho : order.Perm g.keys) :
    ∃ result, topologicalSort g order = some result ∧ result.Perm g.keys ∧ IsOrder (Entry g) (Dep g) result := by
  obtain ⟨R, deg', h1, h2⟩ := loop_spec hw ho (g.length + 1) _ _ _ (inv_start hw ho) (by simp)
  have hno : order.Nodup := ho.nodup_iff.mpr hw.1
  have hback : (order.filter fun n => n ∉ R).Nodup := hno.filter _
  have hmb : ∀ n, n ∈ sort (order.filter fun n => n ∉ R) ↔ n ∈ g.keys ∧ n ∉ R := by
    intro n; rw [(sort_perm _).mem_iff, List.mem_filter, ho.mem_iff]; simp
  refine ⟨_, by rw [topologicalSort, h1], ?_, R, _, rfl, ?_, sort_strict hback, ?_⟩
  · rw [List.perm_ext_iff_of_nodup ?_ (show g.keys.Nodup from hw.1)]
    · intro n
      rw [List.mem_append, hmb]
      constructor
      · rintro (h | h)
        · exact h2.keys n h
        · exact h.1
      · intro h
        by_cases hR : n ∈ R
        · exact .inl hR
        · exact .inr ⟨h, hR⟩
    · rw [List.nodup_append]
      refine ⟨h2.nodup, (sort_perm _).nodup_iff.mpr hback, ?_⟩
      rintro a ha b hb rfl
      exact ((hmb _).mp hb).2 ha
  · intro a n b hab
    obtain ⟨⟨_, _, h3⟩, h4⟩ := h2.greedy a n b hab
    exact ⟨h3, fun m hm hma hd => h4 m ⟨mem_keys.mpr hm, hma, hd⟩⟩
  · intro n
    rw [hmb, ← mem_keys]
    constructor
    · rintro ⟨h3, h4⟩
      exact ⟨h3, cyclic_of_left h2 h3 h4⟩
    · rintro ⟨h3, h4⟩
      exact ⟨h3, fun hR => not_cyclic h2 hR h4⟩

/-- There is only one order as intended. -/
theorem order_unique {entry : Str → Prop} {dep : Str → Str → Prop} {r r' : List Str} (hn : r.Nodup) (hp : r.Perm r')
    (hk : ∀ n ∈ r, entry n) (h : IsOrder entry dep r) (h' : IsOrder entry dep r') : r = r' := by
  obtain ⟨f, b, rfl, g1, s1, m1⟩ := h
  obtain ⟨f', b', rfl, g2, s2, m2⟩ := h'
  have hb : b = b' := strict_eq s1 s2 fun x => by rw [m1, m2]
  subst hb
  have hpf : f.Perm f' := (List.perm_append_right_iff b).mp hp
  have hnf : f.Nodup := (List.nodup_append.mp hn).1
  have hnf' : f'.Nodup := hpf.nodup_iff.mp hnf
  have key : ∀ k, f.take k = f'.take k := by
    intro k
    induction k with
    | zero => simp
    | succ k ih =>
      by_cases hk1 : k < f.length
      · have hk2 : k < f'.length := hpf.length_eq ▸ hk1
        have e1 : f = f.take k ++ f[k] :: f.drop (k + 1) := by simp
        have e2 : f' = f'.take k ++ f'[k] :: f'.drop (k + 1) := by simp
        have n1 : f[k] ∉ f.take k := by
          rw [e1, List.nodup_append] at hnf
          intro hmem; exact hnf.2.2 _ hmem _ List.mem_cons_self rfl
        have n2 : f'[k] ∉ f'.take k := by
          rw [e2, List.nodup_append] at hnf'
          intro hmem; exact hnf'.2.2 _ hmem _ List.mem_cons_self rfl
        obtain ⟨p1, q1⟩ := g1 _ _ _ e1
        obtain ⟨p2, q2⟩ := g2 _ _ _ e2
        have kk : ∀ x ∈ f, entry x := fun x hx => hk x (by simp [hx])
        have l1 := q1 f'[k] (kk _ (hpf.mem_iff.mpr (List.getElem_mem _))) (by rw [ih]; exact n2) (by rw [ih]; exact p2)
        have l2 := q2 f[k] (kk _ (List.getElem_mem _)) (by rw [← ih]; exact n1) (by rw [← ih]; exact p1)
        have : f[k] = f'[k] := le_antisymm l1 l2
        rw [List.take_succ_eq_append_getElem hk1, List.take_succ_eq_append_getElem hk2, ih, this]
      · have hk2 : ¬ k < f'.length := hpf.length_eq ▸ hk1
        rw [List.take_of_length_le (by omega), List.take_of_length_le (by omega)]
        rw [List.take_of_length_le (by omega), List.take_of_length_le (by omega)] at ih
        exact ih
  have := key f.length
  rw [List.take_length, List.take_of_length_le (by rw [hpf.length_eq])] at this
  rw [this]

end Verif.Analyze
