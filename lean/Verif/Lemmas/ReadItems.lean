import Verif.Lemmas.ReadGood
import Verif.Props.Lists
import Verif.Props.Tasks
/-!
# The lines of the lists of a document
-/

namespace Verif
open Spec Props

theorem splitNL_prefix {a : Str} (ha : '\n' ∉ a) {b x : Str} {r : List Str} (h : Str.splitNL b = x :: r) :
    Str.splitNL (a ++ b) = (a ++ x) :: r := by
  induction a with
  | nil => exact h
  | cons c a ih =>
    have hc : c ≠ '\n' := fun e => ha (by simp [e])
    rw [List.cons_append, Str.splitNL, if_neg hc, ih (fun h => ha (by simp [h]))]
    rfl

theorem kind_noNL {t : Str} {k : Kind} (h : kindOf t = k) (hk : k ≠ .other) : '\n' ∉ t := by
  have := kindOf_noBreak (l := t) (by rw [h]; exact hk)
  rw [List.any_eq_false] at this
  exact fun hm => this _ hm (by decide)

theorem spaces_noNL (k : Nat) : '\n' ∉ spaces k := by simp [spaces]

theorem markerText_noNL (num : Option Nat) : '\n' ∉ markerText num := by
  cases num with
  | none => decide
  | some k =>
    simp only [markerText, toString_digits, List.mem_append]
    rintro (h | h)
    · exact absurd ((digit_chars k).1 _ h) (by decide)
    · revert h; decide

/-- The entries of a list at a level. -/
def entries (lvl : Nat) : Option Nat → List Str → List Str
  | _, [] => []
  | num, t :: ts => (spaces (4 * lvl) ++ (markerText num ++ t)) :: entries lvl (num.map (· + 1)) ts

theorem entries_none (lvl : Nat) (ts : List Str) :
    entries lvl none ts = ts.map fun t => spaces (4 * lvl) ++ "- ".toList ++ t := by
  induction ts with
  | nil => rfl
  | cons t ts ih => rw [entries, Option.map_none, ih, List.map_cons, List.append_assoc]; rfl

theorem entries_some (lvl k : Nat) (ts : List Str) : entries lvl (some k) ts = numbered lvl k ts := by
  induction ts generalizing k with
  | nil => rfl
  | cons t ts ih =>
    rw [entries, Option.map_some, ih, numbered]
    have : (toString (k : Int)).toList = (toString k).toList := rfl
    rw [this]
    simp [markerText]

theorem places_lvl (S : List Line) (lvl : Nat) : places (4 * lvl) (S.map shift) = places (4 * (lvl + 1)) S := by
  unfold places
  rw [List.map_map]
  refine List.map_congr_left fun p _ => ?_
  obtain ⟨z, x⟩ := p
  cases z with
  | true => rfl
  | false => exact spaces_add (4 * lvl) 4 x

theorem places_cons (i : Nat) (x : Str) (T : List Line) : places i ((false, x) :: T) = (spaces i ++ x) :: places i T := rfl

theorem splitNL_cons (s : Str) : ∃ t ts, Str.splitNL s = t :: ts := by
  cases h : Str.splitNL s with
  | nil => exact absurd h (splitNL_ne_nil s)
  | cons t ts => exact ⟨t, ts, rfl⟩

/-- The lines of an item. -/
theorem splitNL_item {s t : Str} {ts : List Str} (h : Str.splitNL s = t :: ts) (i : Nat) (num : Option Nat) :
    Str.splitNL (spaces i ++ (markerText num ++ s)) = (spaces i ++ (markerText num ++ t)) :: ts :=
  splitNL_prefix (spaces_noNL i) (splitNL_prefix (markerText_noNL num) h)

theorem splitNL_item_nest {s t : Str} {ts : List Str} (h : Str.splitNL s = t :: ts) (i : Nat) (num : Option Nat) (r : Str) :
    Str.splitNL (spaces i ++ (markerText num ++ (s ++ '\n' :: r))) = (spaces i ++ (markerText num ++ t)) :: (ts ++ Str.splitNL r) :=
  splitNL_item (by rw [splitNL_append_gen, h]; rfl) i num

theorem lines_two (a b : Str) : lines [a, b] = a ++ '\n' :: b := by simp [lines, List.intercalate]

theorem lines_one (a : Str) : lines [a] = a := by simp [lines, List.intercalate]

/-- The class of a list with these numbers. -/
def listCls : Option Nat → NodeCls
  | none => .bulletList
  | some _ => .orderedList

theorem items_content {env : Env} {kind : NodeCls} {num : Option Nat} {nodes : List Node} {items : List (List Block)}
    (h : Items env kind num nodes items) : ∀ k ∈ nodes, ∃ ks, k.content = .val ks := by
  induction h with
  | nil => intro k hk; cases hk
  | blank hw hc hp hs ht h ih =>
    intro k hk
    rcases List.mem_cons.mp hk with rfl | hk
    · exact ⟨_, hc⟩
    · exact ih k hk
  | line hw hc hp hs ht h ih =>
    intro k hk
    rcases List.mem_cons.mp hk with rfl | hk
    · exact ⟨_, hc⟩
    · exact ih k hk
  | nest hw hc hp hs ht hl hk hne hf hsub h _ ih =>
    intro k hk
    rcases List.mem_cons.mp hk with rfl | hk
    · exact ⟨_, hc⟩
    · exact ih k hk

theorem list_at {env : Env} {num : Option Nat} {l : Node} {kids : List Node} {items : List (List Block)} {lvl : Nat}
    (hl : l.cls = listCls num) (hs : ∀ k, num = some k → StartNumber l lvl k) (hc : l.content = .val kids) (hp : Parsed l)
    (hi : Items env (listCls num) num (itemsOf kids) items)
    {ts : List Str} (h : List.Forall₂ (ItemText env (listCls num) lvl) (itemsOf kids) ts)
    (o : Option Int) (ho : o.getD 0 = lvl) :
    l.toMarkdownAt env o false = .ok (.str (lines (entries lvl num ts))) := by
  have hk : ∀ k ∈ kids, HasType k ∧ (k.cls = .listItem → Proper k) := by
    intro k hk
    have hpk := parsed_kids hp hc k hk
    refine ⟨parsed_hasType hpk, fun hcls => ?_⟩
    obtain ⟨ks, hks⟩ := items_content hi k (by
      unfold itemsOf
      exact List.mem_filter.mpr ⟨hk, by simp [hcls]⟩)
    refine ⟨fun v h => (by rw [hks] at h; cases h), fun ks' h x hx => parsed_hasType (parsed_kids hpk h x hx)⟩
  cases num with
  | none =>
    rw [entries_none]
    exact (C25_bullets env l o lvl kids ho hl hc hk _).mpr ⟨ts, h, rfl⟩
  | some k =>
    rw [entries_some]
    exact (C26_numbers env l o lvl k kids ho hl (hs k rfl) hc hk _).mpr ⟨ts, h, rfl⟩

theorem entries_ne {lvl : Nat} {num : Option Nat} {ts : List Str} (h : ts ≠ []) : entries lvl num ts ≠ [] := by
  cases ts with
  | nil => exact absurd rfl h
  | cons t ts => simp [entries]

theorem items_length {env : Env} {kind : NodeCls} {num : Option Nat} {nodes : List Node} {items : List (List Block)}
    (h : Items env kind num nodes items) : nodes.length = items.length := by
  induction h <;> simp_all

theorem items_lay {env : Env} {kind : NodeCls} {num : Option Nat} {nodes : List Node} {items : List (List Block)}
    (h : Items env kind num nodes items) (hkind : kind = listCls num) (hp : ∀ k ∈ nodes, Parsed k) :
    ∃ T, Lay num T items ∧ ∀ lvl, ∃ ts, List.Forall₂ (ItemText env kind lvl) nodes ts ∧
      (entries lvl num ts).flatMap Str.splitNL = places (4 * lvl) T := by
  induction h with
  | nil => exact ⟨[], .nil, fun lvl => ⟨[], .nil, rfl⟩⟩
  | @blank num item p nodes items s hw hc hpc hs ht h ih =>
    obtain ⟨T, h1, h2⟩ := ih (by cases num <;> exact hkind) (fun k hk => hp k (by simp [hk]))
    refine ⟨_, .blank hw h1, fun lvl => ?_⟩
    obtain ⟨ts, h3, h4⟩ := h2 lvl
    refine ⟨[] :: ts, .cons ⟨[p], [[]], hc, .cons ⟨fun e => ?_, fun _ => ⟨s, hs, ht.symm⟩⟩ .nil, rfl⟩ h3, ?_⟩
    · rw [hpc, hkind] at e; cases num <;> cases e
    · rw [entries, List.flatMap_cons, h4, splitNL_item (ts := []) (t := []) rfl, List.append_nil, places_cons]
      rfl
  | @line num item p nodes items s hw hc hpc hs ht h ih =>
    obtain ⟨T, h1, h2⟩ := ih (by cases num <;> exact hkind) (fun k hk => hp k (by simp [hk]))
    rw [splitOn_nl] at ht ⊢
    obtain ⟨t, tl, he⟩ := splitNL_cons (trimEnd s)
    rw [he] at ht ⊢
    refine ⟨_, .line hw ht h1, fun lvl => ?_⟩
    obtain ⟨ts, h3, h4⟩ := h2 lvl
    refine ⟨trimEnd s :: ts, .cons ⟨[p], [trimEnd s], hc, .cons ⟨fun e => ?_, fun _ => ⟨s, hs, rfl⟩⟩ .nil, ?_⟩ h3, ?_⟩
    · rw [hpc, hkind] at e; cases num <;> cases e
    · rw [lines_one]
    · rw [entries, List.flatMap_cons, h4, splitNL_item he, places_cons, places_append, places_margin]
      rfl
  | @nest num item p l nodes kids items sub s hw hc hpc hs ht hl hk hne hf hsub h ihs ih =>
    have hpi := hp item (by simp)
    have hpl := parsed_kids hpi hc l (by simp)
    obtain ⟨T, h1, h2⟩ := ih (by cases num <;> exact hkind) (fun k hk => hp k (by simp [hk]))
    obtain ⟨S, h1', h2'⟩ := ihs (by cases num <;> exact hkind) (fun k hk' =>
      parsed_kids hpl hk k (List.mem_filter.mp hk').1)
    have hsne : sub ≠ [] := by
      rintro rfl
      exact hne (List.length_eq_zero_iff.mp (items_length hsub))
    rw [splitOn_nl] at ht ⊢
    obtain ⟨t, tl, he⟩ := splitNL_cons (trimEnd s)
    rw [he] at ht ⊢
    refine ⟨_, .nest hw ht hsne hf h1' h1, fun lvl => ?_⟩
    obtain ⟨ts, h3, h4⟩ := h2 lvl
    obtain ⟨ts', h3', h4'⟩ := h2' (lvl + 1)
    have hk' : kind = listCls (num.map fun _ => 1) := by rw [hkind]; cases num <;> rfl
    have hmd := list_at (num := num.map fun _ => 1) (l := l) (lvl := lvl + 1) (by rw [hl, hk']) (by
      intro k hk0
      cases num with
      | none => cases hk0
      | some m => cases hk0; exact .inl ⟨by omega, rfl⟩) hk hpl (hk' ▸ hsub) (hk' ▸ h3') (some ((lvl + 1 : Nat) : Int)) rfl
    refine ⟨lines [trimEnd s, lines (entries (lvl + 1) (num.map fun _ => 1) ts')] :: ts,
      .cons ⟨[p, l], _, hc, .cons ⟨fun e => ?_, fun _ => ⟨s, hs, rfl⟩⟩ (.cons ⟨fun _ => ?_, fun e => absurd hl e⟩ .nil), rfl⟩ h3, ?_⟩
    · rw [hpc, hkind] at e; cases num <;> cases e
    · exact hmd
    · have htne : ts' ≠ [] := by
        rintro rfl
        cases hh : itemsOf kids with
        | nil => exact hne hh
        | cons => rw [hh] at h3'; cases h3'
      have hu : Str.splitNL (lines (entries (lvl + 1) (num.map fun _ => 1) ts')) = places (4 * (lvl + 1)) S := by
        unfold lines
        rw [lines_eq, splitNL_join_flatMap (entries_ne htne), h4']
      rw [entries, List.flatMap_cons, h4, lines_two, splitNL_item_nest he, hu, places_cons, places_append, places_append,
        places_margin, places_lvl]
      rfl

/-! ## Tasks -/

theorem tasks_content {env : Env} {nodes : List Node} {items : List (List Block)}
    (h : Tasks env nodes items) : ∀ k ∈ nodes, k.cls = .taskItem → ∃ ks, k.content = .val ks := by
  induction h with
  | nil => intro k hk; cases hk
  | line hk hc hm ht h ih =>
    intro k hk' hcls
    rcases List.mem_cons.mp hk' with rfl | hk'
    · exact ⟨_, hc⟩
    · exact ih k hk' hcls
  | nest hk hc hm ht hl hlc hne hsub h _ ih =>
    intro k hk' hcls
    rcases List.mem_cons.mp hk' with rfl | hk'
    · exact ⟨_, hc⟩
    · rcases List.mem_cons.mp hk' with rfl | hk'
      · rw [hl] at hcls; cases hcls
      · exact ih k hk' hcls

theorem tasks_at {env : Env} {l : Node} {kids : List Node} {items : List (List Block)} {lvl : Nat}
    (hl : l.cls = .taskList) (hc : l.content = .val kids) (hp : Parsed l) (hi : Tasks env (tasksOf kids) items)
    {es : List Str} (h : List.Forall₂ (TaskEntry env lvl) (tasksOf kids) es) (o : Option Int) (ho : o.getD 0 = lvl) :
    l.toMarkdownAt env o false = .ok (.str (lines es)) := by
  refine (C28_partial env l o lvl kids ho hl hc ?_ _).mpr ⟨es, h, rfl⟩
  intro k hk
  have hpk := parsed_kids hp hc k hk
  refine ⟨parsed_hasType hpk, fun hcls => ⟨?_, C28_state k hpk hcls⟩⟩
  obtain ⟨ks, hks⟩ := tasks_content hi k (by
    unfold tasksOf
    exact List.mem_filter.mpr ⟨hk, by simp [hcls]⟩) hcls
  exact ⟨fun v h => (by rw [hks] at h; cases h), fun ks' h x hx => parsed_hasType (parsed_kids hpk h x hx)⟩

theorem tasks_nil {env : Env} {nodes : List Node} {items : List (List Block)} (h : Tasks env nodes items) :
    nodes = [] ↔ items = [] := by cases h <;> simp

theorem tasks_first {env : Env} {nodes : List Node} {items : List (List Block)} (h : Tasks env nodes items) :
    ∀ b ∈ items.head?, b ≠ [] := by
  cases h <;> simp

theorem tasks_lay {env : Env} {nodes : List Node} {items : List (List Block)} (h : Tasks env nodes items)
    (hp : ∀ k ∈ nodes, Parsed k) :
    ∃ T, Lay none T items ∧ ∀ lvl, ∃ es, List.Forall₂ (TaskEntry env lvl) nodes es ∧
      es.flatMap Str.splitNL = places (4 * lvl) T := by
  induction h with
  | nil => exact ⟨[], .nil, fun lvl => ⟨[], .nil, rfl⟩⟩
  | @line k nodes ks ss items hk hc hm ht h ih =>
    obtain ⟨T, h1, h2⟩ := ih (fun k hk => hp k (by simp [hk]))
    rw [splitOn_nl] at ht ⊢
    obtain ⟨t, tl, he⟩ := splitNL_cons (checkbox k ++ " ".toList ++ trimEnd ss.flatten)
    rw [he] at ht ⊢
    refine ⟨_, .line (by decide) ht h1, fun lvl => ?_⟩
    obtain ⟨es, h3, h4⟩ := h2 lvl
    refine ⟨_, .cons ⟨fun _ => ⟨ks, ss, hc, hm, rfl⟩, fun e => (by rw [hk] at e; cases e)⟩ h3, ?_⟩
    have e : spaces (4 * lvl) ++ "- ".toList ++ checkbox k ++ " ".toList ++ trimEnd ss.flatten =
        spaces (4 * lvl) ++ (markerText none ++ (checkbox k ++ " ".toList ++ trimEnd ss.flatten)) := by
      simp [markerText]
    rw [List.flatMap_cons, h4, e, splitNL_item he, places_cons, places_append, places_margin]
    rfl
  | @nest k l nodes ks kids ss items sub hk hc hm ht hl hlc hne hsub h ihs ih =>
    have hpl := hp l (by simp)
    obtain ⟨T, h1, h2⟩ := ih (fun k hk => hp k (by simp [hk]))
    obtain ⟨S, h1', h2'⟩ := ihs (fun k hk' => parsed_kids hpl hlc k (List.mem_filter.mp hk').1)
    have hsne : sub ≠ [] := fun e => hne ((tasks_nil hsub).mpr e)
    rw [splitOn_nl] at ht ⊢
    obtain ⟨t, tl, he⟩ := splitNL_cons (checkbox k ++ " ".toList ++ trimEnd ss.flatten)
    rw [he] at ht ⊢
    refine ⟨_, .nest (by decide) ht hsne (tasks_first hsub) h1' h1, fun lvl => ?_⟩
    obtain ⟨es, h3, h4⟩ := h2 lvl
    obtain ⟨es', h3', h4'⟩ := h2' (lvl + 1)
    have hmd := tasks_at (lvl := lvl + 1) hl hlc hpl hsub h3' (some ((lvl + 1 : Nat) : Int)) rfl
    refine ⟨_, .cons ⟨fun _ => ⟨ks, ss, hc, hm, rfl⟩, fun e => (by rw [hk] at e; cases e)⟩
      (.cons ⟨fun e => (by rw [hl] at e; cases e), fun _ => hmd⟩ h3), ?_⟩
    have htne : es' ≠ [] := by
      rintro rfl
      cases hh : tasksOf kids with
      | nil => exact hne hh
      | cons => rw [hh] at h3'; cases h3'
    have hu : Str.splitNL (lines es') = places (4 * (lvl + 1)) S := by
      unfold lines
      rw [lines_eq, splitNL_join_flatMap htne, h4']
    have e : spaces (4 * lvl) ++ "- ".toList ++ checkbox k ++ " ".toList ++ trimEnd ss.flatten =
        spaces (4 * lvl) ++ (markerText none ++ (checkbox k ++ " ".toList ++ trimEnd ss.flatten)) := by
      simp [markerText]
    rw [List.flatMap_cons, List.flatMap_cons, h4, e, hu, splitNL_item he, places_cons, places_append, places_append,
      places_margin, places_lvl, List.cons_append, List.append_assoc]

end Verif
