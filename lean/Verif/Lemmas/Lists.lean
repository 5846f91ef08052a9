import Verif.Spec.Lists
import Verif.Lemmas.Blocks
import Verif.Lemmas.Lines
/-!
# Lists
-/

namespace Verif
open Spec

theorem rep_spaces (lvl : Nat) : indentOf (lvl : Int) = spaces (4 * lvl) := by
  unfold indentOf Str.rep spaces
  rw [Int.toNat_natCast]
  induction lvl with
  | zero => rfl
  | succ k ih =>
    rw [List.replicate_succ, List.flatten_cons, ih, show 4 * (k + 1) = 4 * k + 1 + 1 + 1 + 1 by omega]
    simp [List.replicate_succ]

theorem itemLines_join (marker t : Str) (rest : List Str) (h : rest ≠ []) :
    Str.join ['\n'] (itemLines marker t ++ rest) = marker ++ t ++ ['\n'] ++ Str.join ['\n'] rest := by
  unfold itemLines
  have hj := join_splitNL t
  cases hs : Str.splitNL t with
  | nil => exact absurd hs (splitNL_ne_nil t)
  | cons l ls =>
    rw [hs] at hj
    simp only
    rw [join_append _ (by simp) h]
    cases ls with
    | nil => simp only [Str.join] at hj ⊢; rw [← hj]
    | cons l' ls => rw [join_cons_cons] at hj ⊢; rw [← hj]; simp

theorem itemLines_ne_nil (marker t : Str) : itemLines marker t ≠ [] := by
  unfold itemLines; split <;> simp

theorem itemLines_join_self (marker t : Str) :
    Str.join ['\n'] (itemLines marker t) = marker ++ t := by
  unfold itemLines
  have hj := join_splitNL t
  cases hs : Str.splitNL t with
  | nil => exact absurd hs (splitNL_ne_nil t)
  | cons l ls =>
    rw [hs] at hj
    simp only
    cases ls with
    | nil => simp only [Str.join] at hj ⊢; rw [← hj]
    | cons l' ls => rw [join_cons_cons] at hj ⊢; rw [← hj]; simp

/-- Lines of several items = the items joined. -/
theorem itemLines_flatten_join (l : List (Str × Str)) :
    Str.join ['\n'] (l.flatMap fun p => itemLines p.1 p.2) =
      Str.join ['\n'] (l.map fun p => p.1 ++ p.2) := by
  induction l with
  | nil => rfl
  | cons p l ih =>
    cases l with
    | nil => simp only [List.flatMap_cons, List.flatMap_nil, List.append_nil, List.map_cons,
        List.map_nil, Str.join]; exact itemLines_join_self _ _
    | cons q l =>
      rw [List.flatMap_cons, itemLines_join, ih, List.map_cons, List.map_cons, List.map_cons,
        join_cons_cons]
      intro h
      rw [List.flatMap_cons] at h
      exact itemLines_ne_nil _ _ (List.append_eq_nil_iff.mp h).1

/-! ## one list item -/

theorem kidsOf_val (env : Env) (l : List Node) :
    kidsOf (slotItems env (.val l)) = .val (l.map fun k => (k.item env).toKid) := by
  rw [slotItems_val]; simp [kidsOf]

theorem cls_of_typeEnum {c d : NodeCls} (h : c.typeEnum = d.typeEnum) : c = d := by
  revert h; cases c <;> cases d <;> decide

theorem typeEnum_mem (c d : NodeCls) : c.typeEnum ∈ [d.typeEnum] ↔ c = d := by
  rw [List.mem_singleton]
  exact ⟨cls_of_typeEnum, fun h => by rw [h]⟩

/-- One child of a list item, for a node. -/
def partOf (env : Env) (kind : NodeCls) (lvl : Nat) (k : Node) : Except PyErr Val :=
  listItemChild lvl (decide (k.cls = kind)) (k.item env).toKid

theorem partOf_ok {env : Env} {kind : NodeCls} (hl : kind.takesLevel = true) {lvl : Nat} {k : Node}
    {v : Val} : partOf env kind lvl k = .ok v ↔ ∃ p, v = .str p ∧ Part env kind lvl k p := by
  unfold partOf listItemChild Part
  by_cases hk : k.cls = kind
  · simp only [hk, decide_true, if_true, ne_eq, not_true_eq_false, false_implies, and_true, true_implies]
    have hr : (k.item env).toKid.render (some ((lvl : Int) + 1)) false =
        k.toMarkdownAt env (some (lvl + 1 : Nat)) false := by
      rw [Int.natCast_add]; rfl
    rw [hr]
    constructor
    · intro h
      obtain ⟨s, rfl⟩ := toMarkdownAt_str env k (by
        intro ht; rw [hk] at ht; rw [ht] at hl; exact absurd hl (by decide)) _ _ _ h
      exact ⟨s, rfl, h⟩
    · rintro ⟨p, rfl, h⟩; exact h
  · simp only [hk, decide_false, Bool.false_eq_true, if_false, ne_eq, not_false_eq_true, true_implies,
      false_implies, true_and]
    have hr : (k.item env).toKid.render none false = k.toMarkdown env false := rfl
    rw [hr]
    constructor
    · intro h
      cases hm : k.toMarkdown env false with
      | error e => rw [hm] at h; simp at h
      | ok u =>
        rw [hm] at h
        cases u <;> simp [rstripVal] at h
        next s => exact ⟨_, h.symm, s, hm, rstrip_eq s⟩
    · rintro ⟨p, rfl, s, hm, rfl⟩
      unfold Md at hm
      rw [hm, ← rstrip_eq]; rfl

theorem listItemContent_eq (env : Env) (kind : NodeCls) (lvl : Nat) (ig : Bool) (item : Node)
    (ks : List Node) (hc : item.content = .val ks) (hk : ∀ k ∈ ks, HasType k) :
    listItemContent kind.typeEnum lvl ig (item.item env) =
      match collect ig (partOf env kind lvl) ks with
      | .error e => .error e
      | .ok lst => strJoin ['\n'] lst := by
  unfold listItemContent
  rw [item_content, hc, kidsOf_val]
  simp only [iterSlot]
  rw [collectPre_eq ig _ (fun kd => match kd.isTypeOf [kind.typeEnum] with | .ok b => b | .error _ => false)]
  · rw [collect_map]
    congr 1
    apply collect_congr
    intro k hkm
    rw [item_isTypeOf env (hk k hkm)]
    unfold partOf
    simp only [typeEnum_mem]
  · intro kd hkd
    obtain ⟨k, hkm, rfl⟩ := List.mem_map.mp hkd
    rw [item_isTypeOf env (hk k hkm)]

theorem listItemContent_ok {env : Env} {kind : NodeCls} (hl : kind.takesLevel = true) {lvl : Nat}
    {item : Node} (hp : Proper item) {t : Str} :
    listItemContent kind.typeEnum lvl false (item.item env) = .ok t ↔ ItemText env kind lvl item t := by
  obtain ⟨hraw, hk⟩ := hp
  cases hc : item.content with
  | absent =>
    unfold listItemContent ItemText
    rw [item_content, hc]
    simp [kidsOf, iterSlot]
  | opt =>
    unfold listItemContent ItemText
    rw [item_content, hc]
    simp [kidsOf, iterSlot]
  | raw v => exact absurd hc (hraw v)
  | val ks =>
  have hk := hk ks hc
  rw [listItemContent_eq env kind lvl false item ks hc hk]
  unfold ItemText
  constructor
  · intro h
    cases hcl : collect false (partOf env kind lvl) ks with
    | error e => rw [hcl] at h; simp at h
    | ok l =>
      rw [hcl] at h
      obtain ⟨ps, rfl, rfl⟩ := strJoin_ok h
      refine ⟨ks, ps, hc, ?_, join_eq _ _⟩
      have := forall2_map_str.mp ((collect_false _ _ _).mp hcl)
      refine List.Forall₂.imp ?_ this
      intro a b hab
      obtain ⟨p, hp, h2⟩ := (partOf_ok hl).mp hab
      cases hp; exact h2
  · rintro ⟨ks', ps, hc', hf, rfl⟩
    rw [hc] at hc'
    cases hc'
    have : List.Forall₂ (fun a b => partOf env kind lvl a = .ok (.str b)) ks ps :=
      List.Forall₂.imp (fun a b hab => (partOf_ok hl).mpr ⟨b, rfl, hab⟩) hf
    rw [(collect_false _ _ _).mpr (forall2_map_str.mpr this)]
    exact (strJoin_str _ _).trans (by rw [join_eq]; rfl)

/-- Hypothesis on a list: its children have types, its list items are proper. -/
def ListOk (kids : List Node) : Prop :=
  ∀ k ∈ kids, HasType k ∧ (k.cls = .listItem → Proper k)

theorem listOk_cons {k : Node} {kids : List Node} (h : ListOk (k :: kids)) :
    (HasType k ∧ (k.cls = .listItem → Proper k)) ∧ ListOk kids :=
  ⟨h k (by simp), fun x hx => h x (by simp [hx])⟩

/-! ## bullet lists -/

theorem bulletLines_ok (env : Env) (lvl : Nat) (kids : List Node) (hk : ListOk kids) (ls : List Str) :
    bulletLines lvl false (kids.map (Node.item env)) = .ok ls ↔
      ∃ ts, List.Forall₂ (ItemText env .bulletList lvl) (itemsOf kids) ts ∧
        ls = ts.flatMap (fun t => itemLines (spaces (4 * lvl) ++ ['-', ' ']) t) := by
  induction kids generalizing ls with
  | nil =>
    simp only [List.map_nil, bulletLines, itemsOf, List.filter_nil]
    constructor
    · intro h; cases h; exact ⟨[], .nil, rfl⟩
    · rintro ⟨ts, h, rfl⟩; cases h; rfl
  | cons k kids ih =>
    obtain ⟨⟨ht, hkk⟩, hrest⟩ := listOk_cons hk
    have ih := ih hrest
    rw [List.map_cons, bulletLines, item_isTypeOf env ht]
    rw [show [TypeEnum.listItem] = [NodeCls.listItem.typeEnum] from rfl]
    by_cases hc : k.cls = .listItem
    · have hd : decide (k.cls.typeEnum ∈ [NodeCls.listItem.typeEnum]) = true :=
        decide_eq_true ((typeEnum_mem _ _).mpr hc)
      have hpr := hkk hc
      have hio : itemsOf (k :: kids) = k :: itemsOf kids := by
        unfold itemsOf; rw [List.filter_cons_of_pos (by simp [hc])]
      rw [hd, hio]
      simp only
      constructor
      · intro h
        cases hi : listItemContent .bulletList lvl false (k.item env) with
        | error e => rw [hi] at h; simp at h
        | ok t =>
          rw [hi] at h
          simp only at h
          cases hb : bulletLines lvl false (kids.map (Node.item env)) with
          | error e => rw [hb] at h; simp at h
          | ok rest =>
            rw [hb] at h
            obtain ⟨ts, hts, rfl⟩ := (ih rest).mp hb
            refine ⟨t :: ts, .cons ((listItemContent_ok (kind := .bulletList) rfl hpr).mp hi) hts, ?_⟩
            rw [← Except.ok.inj h, rep_spaces]; rfl
      · rintro ⟨ts, h, rfl⟩
        cases h with
        | cons h1 h2 =>
          have hi := (listItemContent_ok (kind := .bulletList) rfl hpr).mpr h1
          rw [show NodeCls.bulletList.typeEnum = TypeEnum.bulletList from rfl] at hi
          rw [hi, (ih _).mpr ⟨_, h2, rfl⟩, rep_spaces]
          rfl
    · have hd : decide (k.cls.typeEnum ∈ [NodeCls.listItem.typeEnum]) = false :=
        decide_eq_false (fun h => hc ((typeEnum_mem _ _).mp h))
      have hio : itemsOf (k :: kids) = itemsOf kids := by
        unfold itemsOf; rw [List.filter_cons_of_neg (by simp [hc])]
      rw [hd, hio]
      exact ih ls

/-! ## ordered lists -/

theorem pyStr_int (env : Env) (i : Int) : (Val.int i).pyStr env = Str.ofInt i := rfl

theorem orderedLines_ok (env : Env) (lvl : Nat) (kids : List Node) (hk : ListOk kids) (i : Int)
    (ls : List Str) :
    orderedLines env lvl false (.int i) (kids.map (Node.item env)) = .ok ls ↔
      ∃ ts, List.Forall₂ (ItemText env .orderedList lvl) (itemsOf kids) ts ∧
        ls = (List.zipWith (fun j t => itemLines (spaces (4 * lvl) ++ Str.ofInt (i + (j : Nat)) ++ ['.', ' ']) t)
          (List.range ts.length) ts).flatten := by
  induction kids generalizing ls i with
  | nil =>
    simp only [List.map_nil, orderedLines, itemsOf, List.filter_nil]
    constructor
    · intro h; cases h; exact ⟨[], .nil, rfl⟩
    · rintro ⟨ts, h, rfl⟩; cases h; rfl
  | cons k kids ih =>
    obtain ⟨⟨ht, hkk⟩, hrest⟩ := listOk_cons hk
    have ih := ih hrest
    have hshift : ∀ t (ts : List Str), (List.zipWith (fun j t => itemLines (spaces (4 * lvl) ++ Str.ofInt (i + (j : Nat)) ++ ['.', ' ']) t)
          (List.range (t :: ts).length) (t :: ts)).flatten =
        itemLines (spaces (4 * lvl) ++ Str.ofInt i ++ ['.', ' ']) t ++
        (List.zipWith (fun j t => itemLines (spaces (4 * lvl) ++ Str.ofInt (i + 1 + (j : Nat)) ++ ['.', ' ']) t)
          (List.range ts.length) ts).flatten := by
      intro t ts
      rw [List.length_cons, List.range_succ_eq_map, List.zipWith_cons_cons, List.flatten_cons,
        List.zipWith_map_left]
      simp only [Nat.succ_eq_add_one, Int.natCast_add, Int.cast_ofNat_Int, Int.add_zero]
      congr 2
      congr 1
      funext j t
      rw [show i + ((j : Int) + 1) = i + 1 + (j : Int) by omega]
    rw [List.map_cons, orderedLines, item_isTypeOf env ht]
    rw [show [TypeEnum.listItem] = [NodeCls.listItem.typeEnum] from rfl]
    by_cases hc : k.cls = .listItem
    · have hd : decide (k.cls.typeEnum ∈ [NodeCls.listItem.typeEnum]) = true :=
        decide_eq_true ((typeEnum_mem _ _).mpr hc)
      have hpr := hkk hc
      have hio : itemsOf (k :: kids) = k :: itemsOf kids := by
        unfold itemsOf; rw [List.filter_cons_of_pos (by simp [hc])]
      have hnext : nextNum (.int i) = .int (i + 1) := rfl
      rw [hd, hio, hnext]
      simp only
      constructor
      · intro h
        cases hi : listItemContent .orderedList lvl false (k.item env) with
        | error e => rw [hi] at h; simp at h
        | ok t =>
          rw [hi] at h
          simp only at h
          cases hb : orderedLines env lvl false (.int (i + 1)) (kids.map (Node.item env)) with
          | error e => rw [hb] at h; simp at h
          | ok rest =>
            rw [hb] at h
            obtain ⟨ts, hts, rfl⟩ := (ih (i + 1) rest).mp hb
            refine ⟨t :: ts, .cons ((listItemContent_ok (kind := .orderedList) rfl hpr).mp hi) hts, ?_⟩
            rw [← Except.ok.inj h, rep_spaces, hshift, pyStr_int]
      · rintro ⟨ts, h, rfl⟩
        cases h with
        | cons h1 h2 =>
          have hi := (listItemContent_ok (kind := .orderedList) rfl hpr).mpr h1
          rw [show NodeCls.orderedList.typeEnum = TypeEnum.orderedList from rfl] at hi
          rw [hi, (ih (i + 1) _).mpr ⟨_, h2, rfl⟩, rep_spaces, hshift, pyStr_int]
    · have hd : decide (k.cls.typeEnum ∈ [NodeCls.listItem.typeEnum]) = false :=
        decide_eq_false (fun h => hc ((typeEnum_mem _ _).mp h))
      have hio : itemsOf (k :: kids) = itemsOf kids := by
        unfold itemsOf; rw [List.filter_cons_of_neg (by simp [hc])]
      rw [hd, hio]
      exact ih i ls

theorem numbered_eq (lvl : Nat) (i : Int) (ts : List Str) :
    Str.join ['\n'] (List.zipWith (fun j t => itemLines (spaces (4 * lvl) ++ Str.ofInt (i + (j : Nat)) ++ ['.', ' ']) t)
          (List.range ts.length) ts).flatten = lines (numbered lvl i ts) := by
  have h1 : ∀ (i : Int) (ts : List Str), (List.zipWith (fun j t => itemLines (spaces (4 * lvl) ++ Str.ofInt (i + (j : Nat)) ++ ['.', ' ']) t)
          (List.range ts.length) ts).flatten =
      (List.zipWith (fun (j : Nat) (t : Str) => (spaces (4 * lvl) ++ Str.ofInt (i + (j : Nat)) ++ ['.', ' '], t))
          (List.range ts.length) ts).flatMap (fun p => itemLines p.1 p.2) := by
    intro i ts
    rw [List.flatMap_def, List.map_zipWith]
  rw [h1, itemLines_flatten_join]
  unfold lines
  simp only [lines_eq]
  congr 1
  rw [List.map_zipWith]
  induction ts generalizing i with
  | nil => rfl
  | cons t ts ih =>
    rw [List.length_cons, List.range_succ_eq_map, List.zipWith_cons_cons, List.zipWith_map_left, numbered,
      ← ih]
    simp only [Nat.succ_eq_add_one, Int.natCast_add, Int.cast_ofNat_Int, Int.add_zero, ofInt_eq]
    congr 2
    funext j t
    rw [show i + ((j : Int) + 1) = i + 1 + (j : Int) by omega]

end Verif
