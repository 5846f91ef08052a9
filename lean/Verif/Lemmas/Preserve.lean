import Verif.Spec.Preserve
import Verif.Lemmas.Tables
import Verif.Props.Tables
import Verif.Props.Tasks
/-!
# Lemmas about visible characters
-/

namespace Verif.Spec
open Verif Verif.Props

theorem ink_append (a b : Str) : ink (a ++ b) = ink a ++ ink b := List.filter_append ..

theorem ink_nil_iff (s : Str) : ink s = [] ↔ ∀ c ∈ s, blank c = true := by
  unfold ink; simp

theorem ink_mono {a b : Str} (h : a.Sublist b) : (ink a).Sublist (ink b) := h.filter _

theorem ink_flatten (l : List Str) : ink l.flatten = (l.map ink).flatten := by
  induction l with
  | nil => rfl
  | cons a l ih => rw [List.flatten_cons, ink_append, ih]; rfl

theorem join_sub (sep : Str) (l : List Str) : l.flatten.Sublist (Str.join sep l) := by
  induction l with
  | nil => exact .slnil
  | cons a l ih =>
    cases l with
    | nil => simp [Str.join]
    | cons b l =>
      rw [join_cons_cons, List.flatten_cons, List.append_assoc]
      exact (List.Sublist.refl a).append (ih.trans (List.sublist_append_right _ _))

theorem ink_join_blank {sep : Str} (hs : ink sep = []) (l : List Str) :
    ink (Str.join sep l) = ink l.flatten := by
  induction l with
  | nil => rfl
  | cons a l ih =>
    cases l with
    | nil => simp [Str.join]
    | cons b l => rw [join_cons_cons, ink_append, ink_append, hs, ih, List.append_nil, ← ink_append]; rfl

theorem ink_splitNL (s : Str) : ink (Str.splitNL s).flatten = ink s := by
  rw [← ink_join_blank (sep := ['\n']) (by decide), join_splitNL]

theorem ink_rstrip (s : Str) : ink (Str.rstrip s) = ink s := by
  obtain ⟨w, h, hw⟩ := (rstrip_spec s).1
  conv_rhs => rw [h]
  rw [ink_append, (ink_nil_iff w).mpr hw, List.append_nil]

theorem ink_cleaned (m : Nat) (s : Str) : ink (cleaned m s) = ink s := by
  unfold cleaned
  rw [← strip_eq]
  exact strip_filter m _ (by decide) s

theorem ink_indent (pre s : Str) : (ink s).Sublist (ink (Str.indentAll pre s)) := by
  apply ink_mono
  unfold Str.indentAll
  conv_lhs => rw [← splitKeep_flatten s]
  generalize Str.splitLinesKeep s = ls
  induction ls with
  | nil => exact .slnil
  | cons a l ih =>
    rw [List.map_cons, List.flatten_cons, List.flatten_cons]
    exact (List.sublist_append_right _ _).append ih

theorem textOf_eq (n : Node) : textOf n = ownText n.hd ++ slotText n.content := by
  cases n; rfl

theorem listText_eq (l : List Node) : listText l = (l.map textOf).flatten := by
  induction l with
  | nil => rfl
  | cons a l ih => rw [listText, ih]; rfl

theorem textOf_container {n : Node} {kids : List Node} (hn : n.cls ≠ .text) (hc : n.content = .val kids) :
    textOf n = listText kids := by
  rw [textOf_eq, hc]
  have : ownText n.hd = [] := by
    unfold ownText
    split
    · next h _ => exact absurd h hn
    · rfl
  rw [this]; rfl

theorem listText_nil {l : List Node} (h : listText l = []) : ∀ k ∈ l, textOf k = [] := by
  induction l with
  | nil => simp
  | cons a l ih =>
    rw [listText, List.append_eq_nil_iff] at h
    intro k hk
    rcases List.mem_cons.mp hk with rfl | hk
    · exact h.1
    · exact ih h.2 k hk

theorem listText_filter {p : Node → Bool} {l : List Node} (h : ∀ k ∈ l, p k = true ∨ textOf k = []) :
    listText (l.filter p) = listText l := by
  induction l with
  | nil => rfl
  | cons a l ih =>
    have ih := ih (fun k hk => h k (by simp [hk]))
    cases hp : p a with
    | true => rw [List.filter_cons_of_pos hp, listText, listText, ih]
    | false =>
      rw [List.filter_cons_of_neg (by simp [hp]), ih, listText]
      rcases h a (by simp) with h | h
      · rw [hp] at h; cases h
      · rw [h]; rfl

/-- The text of each node survives in the corresponding string. -/
def Kept (k : Node) (s : Str) : Prop := (ink (textOf k)).Sublist (ink s)

theorem kept_flatten {kids : List Node} {ss : List Str} (h : List.Forall₂ Kept kids ss) :
    (ink (listText kids)).Sublist (ink ss.flatten) := by
  induction h with
  | nil => exact .slnil
  | cons h _ ih => rw [listText, List.flatten_cons, ink_append, ink_append]; exact h.append ih

theorem kept_join {kids : List Node} {ss : List Str} (h : List.Forall₂ Kept kids ss) (sep : Str) :
    (ink (listText kids)).Sublist (ink (Str.join sep ss)) :=
  (kept_flatten h).trans (ink_mono (join_sub sep ss))

theorem forall2_imp_mem {α β : Type} {R S : α → β → Prop} {l : List α} {l' : List β}
    (h : List.Forall₂ R l l') (hs : ∀ a ∈ l, ∀ b, R a b → S a b) : List.Forall₂ S l l' := by
  induction h with
  | nil => exact .nil
  | cons h _ ih => exact .cons (hs _ (by simp) _ h) (ih fun a ha => hs a (by simp [ha]))

/-! ## Marks -/

theorem wrap_kept {pre post s s' : Str} (h : wrapNonBlank pre post (.str s) = .ok (.str s')) :
    (ink s).Sublist (ink s') := by
  unfold wrapNonBlank at h
  simp only at h
  split at h
  · cases h; exact List.Sublist.refl _
  · cases h
    rw [ink_append, ink_append]
    exact (List.sublist_append_right _ _).trans (List.sublist_append_left _ _)

theorem mark_kept (env : Env) {m : Mark} (hm : KeepsText m) {s s' : Str}
    (h : m.toMarkdown env (.str s) = .ok (.str s')) : (ink s).Sublist (ink s') := by
  unfold Mark.toMarkdown at h
  split at h
  · exact wrap_kept h
  · exact wrap_kept h
  · exact wrap_kept h
  · split at h
    · cases h
    · cases h
    · exact wrap_kept h
  · next hc =>
    cases ht : getAttr m.attrs "title" with
    | error e => rw [ht] at h; cases h
    | ok title =>
      rw [ht] at h
      simp only at h
      cases hh : getAttr m.attrs "href" with
      | error e => rw [hh] at h; cases h
      | ok href =>
        rw [hh] at h
        simp only at h
        have hnone : title.asStr? = none := by
          unfold getAttr at ht
          split at ht
          · next a ha =>
            split at ht
            · next v hv =>
              cases ht
              have := hm.2 hc a
              cases title <;> try rfl
              next t => exact absurd hv (this t ha)
            · cases ht
          · cases ht
        rw [hnone] at h
        have e := Val.str.inj (Except.ok.inj h)
        rw [← e]
        simp only [Option.getD_none, Val.pyStr]
        simp only [ink_append, List.append_assoc]
        exact (List.sublist_append_left _ _).trans (List.sublist_append_right _ _)
  · next hc => exact absurd hc hm.1
  · cases h; exact List.Sublist.refl _

theorem applyMarks_kept (env : Env) {ms : List Mark} (hm : ∀ m ∈ ms, KeepsText m) {s s' : Str}
    (h : applyMarks env (.str s) ms = .ok (.str s')) : (ink s).Sublist (ink s') := by
  induction ms generalizing s with
  | nil => simp [applyMarks] at h; rw [h]
  | cons m ms ih =>
    rw [applyMarks] at h
    split at h
    · next md' h1 =>
      obtain ⟨t, rfl⟩ := markMd_str env m s _ h1
      exact (mark_kept env (hm m (by simp)) h1).trans (ih (fun x hx => hm x (by simp [hx])) h)
    · cases h; exact List.Sublist.refl _
    · cases h

theorem addStyle_kept (env : Env) {marks : Slot (List Mark)}
    (hm : ∀ ms, marks = .val ms → ∀ m ∈ ms, KeepsText m) {s s' : Str}
    (h : addStyle env (.str s) marks = .ok (.str s')) : (ink s).Sublist (ink s') := by
  unfold addStyle at h
  split at h
  · next ms => exact applyMarks_kept env (hm ms rfl) h
  · cases h; exact List.Sublist.refl _

/-! ## Containers -/

/-- What is claimed of a node: at any level, its conversion keeps its text. -/
def Keeps (env : Env) (n : Node) : Prop :=
  ∀ (l : Option Int) (s : Str), 0 ≤ l.getD 0 → n.toMarkdownAt env l false = .ok (.str s) → Kept n s

theorem keeps_md {env : Env} {kids : List Node} (hk : ∀ k ∈ kids, Keeps env k) {ss : List Str}
    (h : MdAll env kids ss) : List.Forall₂ Kept kids ss :=
  forall2_imp_mem h fun a ha b hb => hk a ha none b (by simp) hb

theorem content_kept {env : Env} {kids : List Node} (hk : ∀ k ∈ kids, Keeps env k) {s : Str}
    (h : contentToMarkdown [] false (slotItems env (.val kids)) = .ok s) :
    (ink (listText kids)).Sublist (ink s) := by
  obtain ⟨ss, h1, rfl⟩ := (content_iff env [] kids s).mp h
  exact kept_join (keeps_md hk h1) []

theorem padded_kept {k : Node} {s : Str} (h : Kept k s) : Kept k (padded k s) := by
  unfold padded
  split <;> first
    | (refine List.Sublist.trans h (ink_mono ?_)
       exact (List.sublist_append_right _ _).trans (List.sublist_append_left _ _))
    | exact h

theorem doc_kept {env : Env} {kids : List Node} (hk : ∀ k ∈ kids, Keeps env k)
    (ht : ∀ k ∈ kids, HasType k) {s : Str}
    (h : docContentToMarkdown false (slotItems env (.val kids)) = .ok s) :
    (ink (listText kids)).Sublist (ink s) := by
  obtain ⟨ss, h1, rfl⟩ := (docContent_iff env kids ht s).mp h
  unfold docText blocks lines
  simp only [lines_eq]
  rw [ink_cleaned]
  refine kept_join ?_ _
  have := keeps_md hk h1
  clear h h1
  induction this with
  | nil => exact .nil
  | cons h _ ih =>
    exact .cons (padded_kept h) (ih (fun k hk' => hk k (by simp [hk'])) (fun k hk' => ht k (by simp [hk'])))

theorem decisionLoop_kept (n : Nat) (b : Bool) (ls : List Str) :
    (ink ls.flatten).Sublist (ink (decisionLoop n b ls).flatten) := by
  induction ls generalizing n b with
  | nil => exact .slnil
  | cons r ls ih =>
    rw [decisionLoop]
    by_cases he : (Str.rstrip r).isEmpty = true
    · have hr : ink r = [] := by
        rw [← ink_rstrip, List.isEmpty_iff.mp he]; rfl
      rw [List.flatten_cons, ink_append, hr, List.nil_append, if_pos he]
      split
      · exact ih _ _
      · rw [List.flatten_cons, ink_append]
        exact (ih _ _).trans (List.sublist_append_right _ _)
    · rw [if_neg he, List.flatten_cons, List.flatten_cons, ink_append, ink_append, ink_append, ink_rstrip]
      exact (List.sublist_append_right _ _).append (ih _ _)

theorem escape_kept (s : Str) : s.Sublist (escapePipes s) := by
  unfold escapePipes
  induction s with
  | nil => exact .slnil
  | cons c s ih =>
    rw [List.flatMap_cons]
    have : (c :: s) = [c] ++ s := rfl
    rw [this]
    refine List.Sublist.append ?_ ih
    split
    · next h => subst h; decide
    · exact List.Sublist.refl _

theorem cellLine_kept {l out : Str} (h : CellLine l out) : (ink l).Sublist (ink out) := by
  obtain ⟨k, rest, rfl, _, rfl⟩ := h
  have h1 : ink (spaces k) = [] := by
    rw [ink_nil_iff]; intro c hc; rw [(List.mem_replicate.mp hc).2]; decide
  rw [ink_append, ink_append, h1, List.nil_append]
  exact (ink_mono (escape_kept rest)).trans (List.sublist_append_right _ _)

theorem cell_kept {md : Str} {outs : List Str} (h : List.Forall₂ CellLine (Str.splitNL md) outs) :
    (ink md).Sublist (ink (Str.join "<br>".toList outs)) := by
  rw [← ink_splitNL]
  refine List.Sublist.trans ?_ (ink_mono (join_sub _ _))
  generalize Str.splitNL md = ls at h
  induction h with
  | nil => exact .slnil
  | cons h _ ih =>
    rw [List.flatten_cons, List.flatten_cons, ink_append, ink_append]
    exact (cellLine_kept h).append ih

/-- The children of the node keep their text. -/
def KidsKeep (env : Env) (n : Node) : Prop := ∀ ks, n.content = .val ks → ∀ k ∈ ks, Keeps env k

theorem part_kept {env : Env} {kind : NodeCls} {lvl : Nat} {k : Node} {p : Str} (hk : Keeps env k)
    (h : Part env kind lvl k p) : Kept k p := by
  by_cases hc : k.cls = kind
  · exact hk _ _ (by simp; omega) (h.1 hc)
  · obtain ⟨s, hs, rfl⟩ := h.2 hc
    unfold Kept
    rw [← rstrip_eq, ink_rstrip]
    exact hk none s (by simp) hs

theorem itemText_kept {env : Env} {kind : NodeCls} {lvl : Nat} {k : Node} {t : Str}
    (hn : k.cls ≠ .text) (hk : KidsKeep env k) (h : ItemText env kind lvl k t) : Kept k t := by
  obtain ⟨ks, ps, hc, h1, rfl⟩ := h
  unfold Kept
  rw [textOf_container hn hc]
  unfold lines
  rw [lines_eq]
  exact kept_join (forall2_imp_mem h1 fun a ha b hb => part_kept (hk ks hc a ha) hb) _

theorem itemLines_kept (marker t : Str) : (ink t).Sublist (ink (itemLines marker t).flatten) := by
  rw [← ink_join_blank (sep := ['\n']) (by decide), itemLines_join_self, ink_append]
  exact List.sublist_append_right _ _

/-- Both list loops, on any numbering. -/
theorem orderedLines_kept (env : Env) (lvl : Nat) (kids : List Node) (hk : ListOk kids)
    (hkk : ∀ k ∈ kids, KidsKeep env k) (num : Val) (ls : List Str)
    (h : orderedLines env lvl false num (kids.map (Node.item env)) = .ok ls) :
    (ink (listText (itemsOf kids))).Sublist (ink ls.flatten) := by
  induction kids generalizing ls num with
  | nil => exact List.nil_sublist _
  | cons k kids ih =>
    obtain ⟨⟨ht, hp⟩, hrest⟩ := listOk_cons hk
    have ih := ih hrest (fun x hx => hkk x (by simp [hx]))
    rw [List.map_cons, orderedLines, item_isTypeOf env ht,
      show [TypeEnum.listItem] = [NodeCls.listItem.typeEnum] from rfl] at h
    simp only [typeEnum_mem] at h
    by_cases hc : k.cls = .listItem
    · have hio : itemsOf (k :: kids) = k :: itemsOf kids := by
        unfold itemsOf; rw [List.filter_cons_of_pos (by simp [hc])]
      simp only [hc, decide_true] at h
      cases hi : listItemContent .orderedList lvl false (k.item env) with
      | error e => rw [hi] at h; simp at h
      | ok t =>
        rw [hi] at h
        simp only at h
        cases hb : orderedLines env lvl false (nextNum num) (kids.map (Node.item env)) with
        | error e => rw [hb] at h; simp at h
        | ok rest =>
          rw [hb] at h
          rw [← Except.ok.inj h, hio, listText, ink_append, List.flatten_append, ink_append]
          have h1 := (listItemContent_ok (kind := .orderedList) rfl (hp hc)).mp hi
          exact List.Sublist.append
            ((itemText_kept (by rw [hc]; decide) (hkk k (by simp)) h1).trans (itemLines_kept _ _))
            (ih _ _ hb)
    · have hio : itemsOf (k :: kids) = itemsOf kids := by
        unfold itemsOf; rw [List.filter_cons_of_neg (by simp [hc])]
      simp only [hc, decide_false] at h
      rw [hio]
      exact ih _ _ h

/-- A task list that converts has a state on every task. -/
theorem taskLines_state (env : Env) (lvl : Int) (kids : List Node) (ht : ∀ k ∈ kids, HasType k)
    (vs : List Val) (h : taskLines lvl false (kids.map (Node.item env)) = .ok vs) :
    ∀ k ∈ kids, k.cls = .taskItem → ∃ st, attr k "state" = some st := by
  induction kids generalizing vs with
  | nil => simp
  | cons k kids ih =>
    have ih := ih (fun x hx => ht x (by simp [hx]))
    rw [List.map_cons, taskLines, item_isTypeOf env (ht k (by simp)), item_isTypeOf env (ht k (by simp)),
      show [TypeEnum.taskItem] = [NodeCls.taskItem.typeEnum] from rfl,
      show [TypeEnum.taskList] = [NodeCls.taskList.typeEnum] from rfl] at h
    simp only [typeEnum_mem] at h
    have hrest : ∃ vs', taskLines lvl false (kids.map (Node.item env)) = .ok vs' := by
      cases hb : taskLines lvl false (kids.map (Node.item env)) with
      | ok vs' => exact ⟨vs', rfl⟩
      | error e =>
        rw [hb] at h
        exfalso
        split at h
        · cases h
        · split at h <;> cases h
        · split at h
          · cases h
          · cases h
          · split at h
            · cases h
            · cases h
    obtain ⟨vs', hb⟩ := hrest
    intro x hx hcls
    rcases List.mem_cons.mp hx with rfl | hx
    · simp only [hcls, decide_true] at h
      cases hi : taskItemLine lvl false (x.item env) with
      | error e => rw [hi] at h; cases h
      | ok line =>
        unfold taskItemLine at hi
        split at hi
        · cases hi
        · split at hi
          · cases hi
          · split at hi
            · cases hi
            · split at hi
              · cases hi
              · next st hst =>
                rw [item_attrs] at hst
                unfold getAttr at hst
                unfold attr
                split at hst
                · next a ha =>
                  rw [ha]
                  split at hst
                  · next v hv => exact ⟨v, hv⟩
                  · cases hst
                · cases hst
    · exact ih vs' hb x hx hcls

theorem taskEntry_kept {env : Env} {lvl : Nat} {k : Node} {e : Str} (hk : Keeps env k)
    (hkk : KidsKeep env k) (hcls : k.cls = .taskItem ∨ k.cls = .taskList)
    (h : TaskEntry env lvl k e) : Kept k e := by
  rcases hcls with hc | hc
  · obtain ⟨ks, ss, hcont, h1, rfl⟩ := h.1 hc
    unfold Kept
    rw [textOf_container (by rw [hc]; decide) hcont]
    rw [ink_append, ← rstrip_eq, ink_rstrip]
    exact (kept_flatten (keeps_md (hkk ks hcont) h1)).trans (List.sublist_append_right _ _)
  · exact hk _ _ (by simp; omega) (h.2 hc)

end Verif.Spec
