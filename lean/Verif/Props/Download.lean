import Verif.Lemmas.FileText
import Verif.Spec.Download
import Verif.Spec.Json
/-!
# C95, C96: downloading pages
-/

namespace Verif.Props.Download
open Verif Verif.Download Verif.Spec.Download
open Verif.FileCache (Bytes)

variable {served : Int → Str → Val → Prop} {encode : Str → Option Bytes} {tmp : Path}

/-! ## Where a page is written -/

theorem json_end (t : Str) : fileName t ≠ "..".toList ∧ fileName t ≠ ['.'] ∧ fileName t ≠ [] := by
  have h : (".json".toList).length ≤ (fileName t).length := by simp [fileName]
  have h5 : (".json".toList).length = 5 := by decide
  refine ⟨?_, ?_, ?_⟩ <;> intro he <;> rw [he, h5] at h <;> revert h <;> decide

theorem target_plain {t : Str} (ht : '/' ∉ t) : target tmp t = (tmp, [fileName t]) := by
  have hs : '/' ∉ fileName t := by
    intro h'
    rcases List.mem_append.mp h' with h' | h'
    · exact ht h'
    · revert h'; decide
  have h1 : parts (fileName t) = [fileName t] := by
    unfold parts
    rw [List.splitOn_eq_singleton hs]
    have hb : (!(fileName t).isEmpty && fileName t != ['.']) = true := by
      rw [Bool.and_eq_true, Bool.not_eq_true', bne_iff_ne]
      refine ⟨?_, (json_end t).2.1⟩
      rw [Bool.eq_false_iff, ne_eq, List.isEmpty_iff]
      exact (json_end t).2.2
    rw [List.filter_cons_of_pos (p := fun c : Str => !c.isEmpty && c != ['.']) hb]
    rfl
  have h2 : (fileName t).head? ≠ some '/' := by
    intro h'
    exact hs (List.mem_of_head? h')
  unfold target
  rw [h1, if_neg h2]

/-- A title without `/` names a file in the directory. -/
theorem walk_plain {fs : Fs} {t : Str} (ht : '/' ∉ t) {p : Path}
    (h : walk fs (target tmp t).1 (target tmp t).2 = some p) : p = tmp ++ [t ++ ".json".toList] := by
  rw [target_plain ht] at h
  simp only [walk] at h
  split at h
  · rw [if_neg (json_end t).1] at h
    cases h
    rfl
  · cases h

theorem parts_slash {a b : Str} (ha : '/' ∉ a) :
    parts (a ++ '/' :: b) = if (!a.isEmpty && a != ['.']) = true then a :: parts b else parts b := by
  unfold parts
  rw [List.splitOn_append_cons_self_of_not_mem ha, List.filter_cons]

/-- The last part of the path is there. -/
theorem parts_json_ne (n : Nat) : ∀ b : Str, b.length = n → parts (fileName b) ≠ [] := by
  induction n using Nat.strongRecOn with
  | _ n ih =>
    intro b hn
    by_cases h : '/' ∈ b
    · obtain ⟨x, y, rfl⟩ := List.append_of_mem h
      have e : fileName (x ++ '/' :: y) = x ++ '/' :: fileName y := by unfold fileName; simp
      have e2 : parts (x ++ '/' :: fileName y) = parts x ++ parts (fileName y) := by
        unfold parts
        rw [List.splitOn_append_cons_self, List.filter_append]
      rw [e, e2]
      intro h0
      exact ih y.length (by rw [← hn]; simp; omega) y rfl (List.append_eq_nil_iff.mp h0).2
    · have := congrArg Prod.snd (target_plain (tmp := []) h)
      rw [show parts (fileName b) = [fileName b] from this]
      simp

/-- A path that does not go up stays below the directory where it starts. -/
theorem walk_below {fs : Fs} {cs : List Str} (hc : "..".toList ∉ cs) {p q : Path} (h : walk fs p cs = some q) :
    p <+: q := by
  induction cs generalizing p with
  | nil => cases h; exact List.prefix_rfl
  | cons c cs ih =>
    simp only [walk] at h
    split at h
    · rw [if_neg (fun e => hc (by rw [e]; exact List.mem_cons_self))] at h
      exact (List.prefix_append p [c]).trans (ih (fun h' => hc (List.mem_cons_of_mem _ h')) h)
    · cases h

/-! ## C96: only below the directory -/

theorem set_other {fs : Fs} {p q : Path} {e : Option Entry} (h : q ≠ p) : fs.set p e q = fs q := if_neg h

theorem set_self {fs : Fs} {p : Path} {e : Option Entry} : fs.set p e p = e := if_pos rfl

/-- The file being written is below the directory. -/
def InTmp (tmp : Path) : Stage → Prop
  | .got title _ _ => StaysBelow title
  | .opened p _ _ => tmp <+: p
  | .writing p _ _ => tmp <+: p
  | _ => True

theorem below_inv {ids : List Int} {fs : Fs} {tr : List Event} {s : Sys} (hex : Exec served encode tmp ids fs tr s)
    (ht : ∀ a ∈ answers tr, StaysBelow a.2.1) :
    InTmp tmp s.stage ∧ ∀ p, ¬ tmp <+: p → s.fs p = fs p := by
  induction hex with
  | nil => exact ⟨trivial, fun _ _ => rfl⟩
  | @snoc tr s s' e _ hst ih =>
    have hsub : ∀ a ∈ answers tr, StaysBelow a.2.1 := by
      intro a ha
      refine ht a ?_
      unfold answers at ha ⊢
      rw [List.filterMap_append]
      exact List.mem_append_left _ ha
    obtain ⟨h1, h2⟩ := ih hsub
    cases hst with
    | there | notThere => exact ⟨trivial, h2⟩
    | @remove fs' ids' p hp hb hne hemp =>
      refine ⟨trivial, fun q hq => ?_⟩
      rw [← h2 q hq]
      exact set_other (by rintro rfl; exact hq hb)
    | rmdir | mkdir =>
      refine ⟨trivial, fun q hq => ?_⟩
      rw [← h2 q hq]
      exact set_other (by rintro rfl; exact hq List.prefix_rfl)
    | @answer fs' id ids' title body hs =>
      refine ⟨ht (id, title, body) ?_, h2⟩
      unfold answers
      rw [List.filterMap_append]
      exact List.mem_append_right _ (by simp)
    | @opens fs' ids' title text body p hd hw hn =>
      have hb : StaysBelow title := h1
      have hp : tmp <+: p := by
        have e1 : (target tmp title).1 = tmp := if_neg hb.1
        have e2 : "..".toList ∉ (target tmp title).2 := fun h => hb.2 (List.mem_filter.mp h).1
        rw [← e1]
        exact walk_below e2 hw
      refine ⟨hp, fun q hq => ?_⟩
      rw [← h2 q hq]
      exact set_other (by rintro rfl; exact hq hp)
    | encode => exact ⟨h1, h2⟩
    | write n hf hn =>
      refine ⟨h1, fun q hq => ?_⟩
      rw [← h2 q hq]
      exact set_other (by rintro rfl; exact hq h1)
    | close | returns | raises | kill => exact ⟨trivial, h2⟩

/-- C96 for titles that, as paths, neither start at the root nor go up: nothing outside the directory changes, whenever the
run is looked at, killed or failing or not. -/
theorem C96_partial {ids : List Int} {fs : Fs} {tr : List Event} {s : Sys} (hex : Exec served encode tmp ids fs tr s)
    (ht : ∀ a ∈ answers tr, StaysBelow a.2.1) (p : Path) (hp : ¬ tmp <+: p) : s.fs p = fs p :=
  (below_inv hex ht).2 p hp

/-! ## C95 -/

/-- The titles and bodies. -/
def pages (as : List (Int × Str × Val)) : List (Str × Val) := as.map (·.2)

theorem saved_more {ps : List (Str × Val)} {t : Str} {v : Val} {q : Path} {e : Option Entry}
    (h : Saved encode tmp ps q e) (hq : q ≠ tmp ++ [t ++ ".json".toList]) : Saved encode tmp (ps ++ [(t, v)]) q e := by
  cases h with
  | dir => exact .dir
  | @page before after title body b h1 h2 h3 =>
    refine .page (before := before) (after := after ++ [(t, v)]) (by rw [h1]; simp) ?_ h3
    intro x hx
    rcases List.mem_append.mp hx with hx | hx
    · exact h2 x hx
    · simp only [List.mem_singleton] at hx
      subst hx
      rintro rfl
      exact hq rfl
  | nothing h1 h2 h3 =>
    refine .nothing h1 h2 ?_
    intro x hx
    rcases List.mem_append.mp hx with hx | hx
    · exact h3 x hx
    · simp only [List.mem_singleton] at hx
      subst hx
      exact hq

theorem saved_last {ps : List (Str × Val)} {t : Str} {v : Val} {b : Bytes} (hb : BodyBytes encode v b) :
    Saved encode tmp (ps ++ [(t, v)]) (tmp ++ [t ++ ".json".toList]) (some (.file b)) :=
  .page (after := []) rfl (by simp) hb

/-- What is left in the directory at any moment: before it is made, some of what was there; then the pages saved so far,
and perhaps a beginning of the one answered last. -/
def Left (encode : Str → Option Bytes) (tmp : Path) (before : Fs) (as : List (Int × Str × Val)) (fs : Fs) : Prop :=
  (as = [] ∧ ∀ p, tmp <+: p → fs p = before p ∨ fs p = none) ∨
  (∀ p, tmp <+: p → Saved encode tmp (pages as) p (fs p)) ∨
  ∃ done i t v, as = done ++ [(i, t, v)] ∧ ∀ p, tmp <+: p → Saved encode tmp (pages done) p (fs p) ∨
    (p = tmp ++ [t ++ ".json".toList] ∧ ∃ b, fs p = some (.file b) ∧ (b = [] ∨ ∃ all, BodyBytes encode v all ∧ b <+: all))

/-- The invariant. -/
def Inv (encode : Str → Option Bytes) (tmp : Path) (before : Fs) (ids₀ : List Int) (as : List (Int × Str × Val))
    (s : Sys) : Prop :=
  match s.stage with
  | .start ids => as = [] ∧ ids = ids₀ ∧ s.fs = before
  | .removing ids => as = [] ∧ ids = ids₀ ∧ ∀ p, tmp <+: p → s.fs p = before p ∨ s.fs p = none
  | .cleared ids => as = [] ∧ ids = ids₀ ∧ ∀ p, tmp <+: p → s.fs p = none
  | .next ids => as.map (·.1) ++ ids = ids₀ ∧ ∀ p, tmp <+: p → Saved encode tmp (pages as) p (s.fs p)
  | .got t v ids => as.map (·.1) ++ ids = ids₀ ∧ ∃ done i, as = done ++ [(i, t, v)] ∧
      ∀ p, tmp <+: p → Saved encode tmp (pages done) p (s.fs p)
  | .opened p text ids => as.map (·.1) ++ ids = ids₀ ∧ ∃ done i t v, as = done ++ [(i, t, v)] ∧
      p = tmp ++ [t ++ ".json".toList] ∧ Json.dumps (some 2) v = some text ∧ s.fs p = some (.file []) ∧
      ∀ q, tmp <+: q → q ≠ p → Saved encode tmp (pages done) q (s.fs q)
  | .writing p rest ids => as.map (·.1) ++ ids = ids₀ ∧ ∃ done i t v b, as = done ++ [(i, t, v)] ∧
      p = tmp ++ [t ++ ".json".toList] ∧ BodyBytes encode v (b ++ rest) ∧ s.fs p = some (.file b) ∧
      ∀ q, tmp <+: q → q ≠ p → Saved encode tmp (pages done) q (s.fs q)
  | .returned => as.map (·.1) = ids₀ ∧ ∀ p, tmp <+: p → Saved encode tmp (pages as) p (s.fs p)
  | .raised => Left encode tmp before as s.fs
  | .killed => Left encode tmp before as s.fs

theorem left_of_inv {before : Fs} {ids₀ : List Int} {as : List (Int × Str × Val)} {s : Sys}
    (h : Inv encode tmp before ids₀ as s) : Left encode tmp before as s.fs := by
  obtain ⟨fs, stage⟩ := s
  cases stage with
  | start ids => obtain ⟨h1, _, h2⟩ := h; exact .inl ⟨h1, fun p _ => .inl (by rw [show fs = before from h2])⟩
  | removing ids => exact .inl ⟨h.1, h.2.2⟩
  | cleared ids => exact .inl ⟨h.1, fun p hp => .inr (h.2.2 p hp)⟩
  | next ids => exact .inr (.inl h.2)
  | got t v ids =>
    obtain ⟨_, done, i, h1, h2⟩ := h
    exact .inr (.inr ⟨done, i, t, v, h1, fun p hp => .inl (h2 p hp)⟩)
  | opened p text ids =>
    obtain ⟨_, done, i, t, v, h1, h2, h3, h4, h5⟩ := h
    refine .inr (.inr ⟨done, i, t, v, h1, fun q hq => ?_⟩)
    by_cases e : q = p
    · subst e; exact .inr ⟨h2, [], h4, .inl rfl⟩
    · exact .inl (h5 q hq e)
  | writing p rest ids =>
    obtain ⟨_, done, i, t, v, b, h1, h2, h3, h4, h5⟩ := h
    refine .inr (.inr ⟨done, i, t, v, h1, fun q hq => ?_⟩)
    by_cases e : q = p
    · subst e; exact .inr ⟨h2, b, h4, .inr ⟨_, h3, List.prefix_append _ _⟩⟩
    · exact .inl (h5 q hq e)
  | returned => exact .inr (.inl h.2)
  | raised => exact h
  | killed => exact h

theorem tree_none {fs : Fs} (ht : Tree fs) {p q : Path} (hp : fs p = none) (h : p <+: q) : fs q = none := by
  obtain ⟨r, rfl⟩ := h
  generalize hn : r.length = n
  induction n generalizing r with
  | zero => rw [List.length_eq_zero_iff.mp hn, List.append_nil]; exact hp
  | succ n ih =>
    rcases List.eq_nil_or_concat r with rfl | ⟨r', c, rfl⟩
    · cases hn
    · rw [List.concat_eq_append] at hn ⊢
      cases hq : fs (p ++ (r' ++ [c])) with
      | none => rfl
      | some e =>
        have := ht (p ++ r') c (by rw [List.append_assoc, hq]; exact fun h => by cases h)
        rw [ih r' (by simpa using hn)] at this
        cases this

theorem inv_exec {ids : List Int} {fs : Fs} {tr : List Event} {s : Sys} (htree : Tree fs)
    (hex : Exec served encode tmp ids fs tr s) (ht : ∀ a ∈ answers tr, '/' ∉ a.2.1) :
    Inv encode tmp fs ids (answers tr) s := by
  induction hex with
  | nil => exact ⟨rfl, rfl, rfl⟩
  | @snoc tr s s' e _ hst ih =>
    have happ : answers (tr ++ [e]) = answers tr ++ answers [e] := by unfold answers; rw [List.filterMap_append]
    have hsub : ∀ a ∈ answers tr, '/' ∉ a.2.1 := fun a ha => ht a (by rw [happ]; exact List.mem_append_left _ ha)
    have ih := ih hsub
    rw [happ]
    cases hst with
    | there hs =>
      obtain ⟨h1, h2, h3⟩ := ih
      rw [show answers [Event.silent] = [] from rfl, List.append_nil]
      exact ⟨h1, h2, fun p _ => .inl (by show _ = fs p; rw [← h3])⟩
    | notThere hs =>
      obtain ⟨h1, h2, h3⟩ := ih
      simp only at h3
      subst h3
      rw [show answers [Event.silent] = [] from rfl, List.append_nil]
      exact ⟨h1, h2, fun p hp => tree_none htree hs hp⟩
    | @remove fs' ids' p hp hb hne hemp =>
      obtain ⟨h1, h2, h3⟩ := ih
      rw [show answers [Event.silent] = [] from rfl, List.append_nil]
      refine ⟨h1, h2, fun q hq => ?_⟩
      by_cases e : q = p
      · subst e; exact .inr set_self
      · show fs'.set p none q = _ ∨ fs'.set p none q = _
        rw [set_other e]; exact h3 q hq
    | @rmdir fs' ids' hd hemp =>
      obtain ⟨h1, h2, h3⟩ := ih
      rw [show answers [Event.silent] = [] from rfl, List.append_nil]
      refine ⟨h1, h2, fun q hq => ?_⟩
      by_cases e : q = tmp
      · subst e; exact set_self
      · exact (set_other e).trans (hemp q hq e)
    | @mkdir fs' ids' hn =>
      obtain ⟨h1, h2, h3⟩ := ih
      rw [show answers [Event.silent] = [] from rfl, List.append_nil, h1]
      refine ⟨h2, fun q hq => ?_⟩
      by_cases e : q = tmp
      · subst e
        show Saved encode q _ q (fs'.set q (some .dir) q)
        rw [set_self]; exact .dir
      · show Saved encode tmp _ q (fs'.set tmp (some .dir) q)
        rw [set_other e, show fs' q = none from h3 q hq]
        exact .nothing hq e (by simp [pages])
    | @answer fs' id ids' title body hs =>
      obtain ⟨h1, h2⟩ := ih
      rw [show answers [Event.answer id title body] = [(id, title, body)] from rfl]
      refine ⟨?_, answers tr, id, rfl, h2⟩
      rw [List.map_append, List.append_assoc]
      exact h1
    | @opens fs' ids' title text body p hd hw hn =>
      obtain ⟨h1, done, i, h2, h3⟩ := ih
      rw [show answers [Event.silent] = [] from rfl, List.append_nil]
      have hp := walk_plain (hsub (i, title, body) (by rw [h2]; simp)) hw
      refine ⟨h1, done, i, title, body, h2, hp, hd, set_self, fun q hq e => ?_⟩
      show Saved encode tmp _ q (fs'.set p (some (.file [])) q)
      rw [set_other e]
      exact h3 q hq
    | encode he =>
      obtain ⟨h1, done, i, t, v, h2, h3, h4, h5, h6⟩ := ih
      rw [show answers [Event.silent] = [] from rfl, List.append_nil]
      exact ⟨h1, done, i, t, v, [], h2, h3, ⟨_, h4, he⟩, h5, h6⟩
    | @write fs' ids' p b0 rest n hf hn =>
      obtain ⟨h1, done, i, t, v, b, h2, h3, h4, h5, h6⟩ := ih
      rw [show answers [Event.silent] = [] from rfl, List.append_nil]
      have e : b0 = b := by
        rw [show fs' p = some (.file b) from h5] at hf
        cases hf; rfl
      subst e
      refine ⟨h1, done, i, t, v, b0 ++ rest.take n, h2, h3, ?_, set_self, fun q hq e => ?_⟩
      · rw [List.append_assoc, List.take_append_drop]; exact h4
      · show Saved encode tmp _ q (fs'.set p _ q)
        rw [set_other e]; exact h6 q hq e
    | @close fs' ids' p =>
      obtain ⟨h1, done, i, t, v, b, h2, h3, h4, h5, h6⟩ := ih
      rw [show answers [Event.silent] = [] from rfl, List.append_nil]
      refine ⟨h1, fun q hq => ?_⟩
      have hpg : pages (answers tr) = pages done ++ [(t, v)] := by rw [h2]; simp [pages]
      rw [hpg]
      by_cases e : q = p
      · subst e
        show Saved encode tmp _ q (fs' q)
        rw [show fs' q = some (.file b) from h5, h3]
        rw [List.append_nil] at h4
        exact saved_last h4
      · exact saved_more (h6 q hq e) (by rw [← h3]; exact e)
    | returns =>
      obtain ⟨h1, h2⟩ := ih
      rw [show answers [Event.returns] = [] from rfl, List.append_nil]
      exact ⟨by simpa using h1, h2⟩
    | raises =>
      rw [show answers [Event.raises] = [] from rfl, List.append_nil]
      exact (left_of_inv ih : Left encode tmp fs (answers tr) s.fs)
    | kill =>
      rw [show answers [Event.kill] = [] from rfl, List.append_nil]
      exact (left_of_inv ih : Left encode tmp fs (answers tr) s.fs)

/-- C95: when `main` has returned, every page was asked for, in order, and in the directory there are exactly the pages the
server answered, whatever was there before. -/
theorem C95_complete {ids : List Int} {fs : Fs} {tr : List Event} {s : Sys} (htree : Tree fs)
    (hex : Exec served encode tmp ids fs tr s) (ht : ∀ a ∈ answers tr, '/' ∉ a.2.1) (hr : s.stage = .returned) :
    (answers tr).map (·.1) = ids ∧ ∀ p, tmp <+: p → Saved encode tmp ((answers tr).map (·.2)) p (s.fs p) := by
  have h := inv_exec htree hex ht
  obtain ⟨fs', stage⟩ := s
  cases hr
  exact h

/-- C95: at every moment, in particular when it is killed or raises, a run has removed some of what was in the directory, or
saved all the pages answered so far, or all but the last one, of which there may be a beginning. -/
theorem C95_interrupted {ids : List Int} {fs : Fs} {tr : List Event} {s : Sys} (htree : Tree fs)
    (hex : Exec served encode tmp ids fs tr s) (ht : ∀ a ∈ answers tr, '/' ∉ a.2.1) :
    (answers tr = [] ∧ ∀ p, tmp <+: p → s.fs p = fs p ∨ s.fs p = none) ∨
    (∀ p, tmp <+: p → Saved encode tmp ((answers tr).map (·.2)) p (s.fs p)) ∨
    ∃ done i t v, answers tr = done ++ [(i, t, v)] ∧ ∀ p, tmp <+: p → Saved encode tmp (done.map (·.2)) p (s.fs p) ∨
      (p = tmp ++ [t ++ ".json".toList] ∧
        ∃ b, s.fs p = some (.file b) ∧ (b = [] ∨ ∃ all, BodyBytes encode v all ∧ b <+: all)) :=
  left_of_inv (inv_exec htree hex ht)

theorem saved_cases {ps : List (Str × Val)} {p : Path} {e : Option Entry} (h : Saved encode tmp ps p e) :
    (p = tmp ∧ e = some .dir) ∨
    (∃ before after title body b, p = tmp ++ [title ++ ".json".toList] ∧ e = some (.file b) ∧
      ps = before ++ (title, body) :: after ∧ (∀ x ∈ after, x.1 ≠ title) ∧ BodyBytes encode body b) ∨
    (p ≠ tmp ∧ (∀ x ∈ ps, p ≠ tmp ++ [x.1 ++ ".json".toList]) ∧ e = none) := by
  cases h with
  | dir => exact .inl ⟨rfl, rfl⟩
  | page h1 h2 h3 => exact .inr (.inl ⟨_, _, _, _, _, rfl, rfl, h1, h2, h3⟩)
  | nothing _ h2 h3 => exact .inr (.inr ⟨h2, h3, rfl⟩)

/-- There is one thing at every place. -/
theorem C95_unique {ps : List (Str × Val)} {p : Path} {e e' : Option Entry} (h : Saved encode tmp ps p e)
    (h' : Saved encode tmp ps p e') : e = e' := by
  have hne : ∀ f : Str, tmp ++ [f] ≠ tmp := fun f h => by
    have := congrArg List.length h; simp at this
  rcases saved_cases h with ⟨rfl, rfl⟩ | ⟨before, after, title, body, b, rfl, rfl, h1, h2, h3⟩ | ⟨h1, h2, rfl⟩ <;>
    rcases saved_cases h' with ⟨hq, rfl⟩ | ⟨before', after', title', body', b', hq, rfl, g1, g2, g3⟩ | ⟨g1, g2, rfl⟩
  · rfl
  · exact absurd hq.symm (hne _)
  · exact absurd rfl g1
  · exact absurd hq (hne _)
  · have ht : title = title' := by
      have := List.append_cancel_left hq
      simp only [List.cons.injEq, and_true] at this
      exact List.append_cancel_right this
    subst ht
    have hb : body = body' := by
      have key : ∀ (a a' r r' : List (Str × Val)), a ++ (title, body) :: r = a' ++ (title, body') :: r' →
          (∀ x ∈ r, x.1 ≠ title) → (∀ x ∈ r', x.1 ≠ title) → body = body' := by
        intro a
        induction a with
        | nil =>
          intro a' r r' e h _
          cases a' with
          | nil => cases e; rfl
          | cons y a' =>
            simp only [List.nil_append, List.cons_append, List.cons.injEq] at e
            exact absurd rfl (h (title, body') (by rw [e.2]; simp))
        | cons y a ih =>
          intro a' r r' e h h'
          cases a' with
          | nil =>
            simp only [List.nil_append, List.cons_append, List.cons.injEq] at e
            exact absurd rfl (h' (title, body) (by rw [← e.2]; simp))
          | cons y' a' =>
            simp only [List.cons_append, List.cons.injEq] at e
            exact ih a' r r' e.2 h h'
      exact key before before' after after' (h1 ▸ g1) h2 g2
    subst hb
    obtain ⟨x, e1, e2⟩ := h3
    obtain ⟨y, f1, f2⟩ := g3
    rw [e1] at f1
    cases f1
    rw [e2] at f2
    cases f2
    rfl
  · exact absurd rfl (g2 (title, body) (by rw [h1]; simp))
  · exact absurd hq h1
  · exact absurd hq (h2 (title', body') (by rw [g1]; simp))
  · rfl

/-! ### The files can be read back -/

/-- C95: on a system whose locale is UTF-8, the file of a page, read and parsed, is the body the server answered (the last
one with this title). -/
theorem C95_readable (cfg : FileCache.Cfg) (hi : cfg.indent = 2) {ids : List Int} {fs : Fs} {tr : List Event} {s : Sys}
    (htree : Tree fs)
    (hex : Exec served (fun x => some (FileCache.utf8 (FileCache.toNative cfg.crlf x))) tmp ids fs tr s)
    (ht : ∀ a ∈ answers tr, '/' ∉ a.2.1) (hr : s.stage = .returned) (before after : List (Int × Str × Val)) (id : Int)
    (title : Str) (body : Val) (ha : answers tr = before ++ (id, title, body) :: after) (hl : ∀ a ∈ after, a.2.1 ≠ title)
    (hd : Spec.Data cfg.readFloat body) :
    ∃ b, s.fs (tmp ++ [title ++ ".json".toList]) = some (.file b) ∧ FileCache.decode cfg b = some body := by
  have h := (C95_complete htree hex ht hr).2 (tmp ++ [title ++ ".json".toList]) (List.prefix_append _ _)
  obtain ⟨b, hb⟩ := content_some (cfg := cfg) hd
  refine ⟨b, ?_, decode_content hd hb⟩
  refine C95_unique h (.page (before := before.map (·.2)) (after := after.map (·.2)) (body := body) ?_ ?_ ?_)
  · rw [ha]; simp
  · intro x hx
    obtain ⟨a, ha', rfl⟩ := List.mem_map.mp hx
    exact hl a ha'
  · unfold FileCache.content at hb
    rw [hi] at hb
    cases hdump : Json.dumps (some 2) body with
    | none => rw [hdump] at hb; cases hb
    | some x =>
      rw [hdump] at hb
      exact ⟨x, hdump, hb⟩

/-! ### A complete run is possible -/

theorem exists_longest : ∀ l : List Path, l ≠ [] → ∃ p ∈ l, ∀ q ∈ l, q.length ≤ p.length
  | [], h => absurd rfl h
  | [p], _ => ⟨p, by simp, by simp⟩
  | p :: q :: l, _ => by
    obtain ⟨r, hr, hm⟩ := exists_longest (q :: l) (by simp)
    by_cases h : r.length ≤ p.length
    · refine ⟨p, List.mem_cons_self, fun x hx => ?_⟩
      rcases List.mem_cons.mp hx with rfl | hx
      · exact Nat.le_refl _
      · exact Nat.le_trans (hm x hx) h
    · refine ⟨r, List.mem_cons_of_mem _ hr, fun x hx => ?_⟩
      rcases List.mem_cons.mp hx with rfl | hx
      · omega
      · exact hm x hx

/-- `rmtree` can remove everything. -/
theorem can_remove {ids : List Int} {fs₀ : Fs} (n : Nat) : ∀ (l : List Path) (tr : List Event) (fs : Fs), l.length = n →
    (∀ p, tmp <+: p → p ≠ tmp → fs p ≠ none → p ∈ l) → Exec served encode tmp ids fs₀ tr ⟨fs, .removing ids⟩ →
    ∃ tr' fs', Exec served encode tmp ids fs₀ tr' ⟨fs', .removing ids⟩ ∧ answers tr' = answers tr ∧ fs' tmp = fs tmp ∧
      ∀ p, tmp <+: p → p ≠ tmp → fs' p = none := by
  induction n with
  | zero =>
    intro l tr fs hl hm hex
    rw [List.length_eq_zero_iff.mp hl] at hm
    refine ⟨tr, fs, hex, rfl, rfl, fun p h1 h2 => ?_⟩
    cases hp : fs p with
    | none => rfl
    | some e => exact absurd (hm p h1 h2 (by rw [hp]; exact fun h => by cases h)) (by simp)
  | succ n ih =>
    intro l tr fs hl hm hex
    obtain ⟨p, hp, hmax⟩ := exists_longest l (by rintro rfl; cases hl)
    have hlen : (l.erase p).length = n := by rw [List.length_erase_of_mem hp, hl]; rfl
    by_cases hc : tmp <+: p ∧ p ≠ tmp ∧ fs p ≠ none
    · have hstep : Step served encode tmp ⟨fs, .removing ids⟩ .silent ⟨fs.set p none, .removing ids⟩ := by
        refine .remove hc.2.2 hc.1 hc.2.1 fun q hq hne => ?_
        cases hq' : fs q with
        | none => rfl
        | some e =>
          have hle := hq.length_le
          have hqt : q ≠ tmp := by
            rintro rfl
            have := hc.1.length_le
            exact hne (hq.eq_of_length (by omega)).symm
          have := hmax q (hm q (hc.1.trans hq) hqt (by rw [hq']; exact fun h => by cases h))
          exact absurd (hq.eq_of_length (by omega)).symm hne
      obtain ⟨tr', fs', h1, h2, h3, h4⟩ := ih (l.erase p) (tr ++ [.silent]) (fs.set p none) hlen (by
        intro q hq hne hn
        have hqp : q ≠ p := by rintro rfl; exact hn set_self
        rw [set_other hqp] at hn
        exact (List.mem_erase_of_ne hqp).mpr (hm q hq hne hn)) (.snoc hex hstep)
      refine ⟨tr', fs', h1, ?_, ?_, h4⟩
      · rw [h2]; unfold answers; rw [List.filterMap_append]; simp
      · rw [h3]; exact set_other hc.2.1.symm
    · refine ih (l.erase p) tr fs hlen (fun q hq hne hn => ?_) hex
      have hqp : q ≠ p := by rintro rfl; exact hc ⟨hq, hne, hn⟩
      exact (List.mem_erase_of_ne hqp).mpr (hm q hq hne hn)

theorem answers_snoc_silent (tr : List Event) : answers (tr ++ [.silent]) = answers tr := by
  unfold answers; rw [List.filterMap_append]; simp

theorem walk_to {fs : Fs} (hd : fs tmp = some .dir) {t : Str} (ht : '/' ∉ t) :
    walk fs (target tmp t).1 (target tmp t).2 = some (tmp ++ [t ++ ".json".toList]) := by
  have h := target_plain (tmp := tmp) ht
  rw [h]
  simp only [walk]
  rw [if_pos hd, if_neg (json_end t).1]
  rfl

/-- The pages can be saved one after the other. -/
theorem can_save {page : Int → Str × Val} {ids : List Int} {fs₀ : Fs} (htree : Tree fs₀) (rest : List Int) :
    ∀ (done : List Int) (tr : List Event) (fs : Fs), ids = done ++ rest →
    (∀ i ∈ ids, served i (page i).1 (page i).2 ∧ '/' ∉ (page i).1 ∧ ∃ b, BodyBytes encode (page i).2 b) →
    answers tr = done.map (fun i => (i, page i)) → Exec served encode tmp ids fs₀ tr ⟨fs, .next rest⟩ →
    ∃ tr' fs', Exec served encode tmp ids fs₀ tr' ⟨fs', .returned⟩ ∧ answers tr' = ids.map fun i => (i, page i) := by
  induction rest with
  | nil =>
    intro done tr fs hi _ ha hex
    refine ⟨_, fs, .snoc hex .returns, ?_⟩
    rw [show ids = done by simpa using hi, ← ha]
    unfold answers; rw [List.filterMap_append]; simp
  | cons i rest ih =>
    intro done tr fs hi hp ha hex
    obtain ⟨hs, hsl, b, text, hdump, henc⟩ := hp i (by rw [hi]; simp)
    have hslash : ∀ a ∈ answers tr, '/' ∉ a.2.1 := by
      rw [ha]
      intro a h
      obtain ⟨j, hj, rfl⟩ := List.mem_map.mp h
      exact (hp j (by rw [hi]; exact List.mem_append_left _ hj)).2.1
    have hinv := (inv_exec htree hex hslash).2
    have hd : fs tmp = some .dir := C95_unique (hinv tmp List.prefix_rfl) .dir
    have hnd : fs (tmp ++ [(page i).1 ++ ".json".toList]) ≠ some .dir := by
      rcases saved_cases (hinv (tmp ++ [(page i).1 ++ ".json".toList]) (List.prefix_append _ _)) with
        h | ⟨_, _, _, _, _, _, h, _⟩ | h
      · exact absurd (congrArg List.length h.1) (by simp)
      · rw [show fs _ = _ from h]; exact fun h => by cases h
      · rw [show fs _ = _ from h.2.2]; exact fun h => by cases h
    have e1 := Exec.snoc hex (.answer hs)
    have e2 := Exec.snoc e1 (.opens hdump (walk_to hd hsl) hnd)
    have e3 := Exec.snoc e2 (.encode henc)
    have e4 := Exec.snoc e3 (.write b.length set_self (Nat.le_refl _))
    rw [List.drop_length] at e4
    have e5 := Exec.snoc e4 .close
    refine ih (done ++ [i]) _ _ (by rw [hi]; simp) hp ?_ e5
    rw [answers_snoc_silent, answers_snoc_silent, answers_snoc_silent, answers_snoc_silent]
    rw [List.map_append, ← ha]
    unfold answers; rw [List.filterMap_append]; rfl

/-- C95: a complete run is possible, if the directory is not there or is a directory with finitely many things in it, and
the server answers every page with a title without `/` and a body that can be written. -/
theorem C95_possible (page : Int → Str × Val) (ids : List Int) (fs : Fs) (htree : Tree fs) (below : List Path)
    (hfin : ∀ p, tmp <+: p → fs p ≠ none → p ∈ below) (hdir : fs tmp = none ∨ fs tmp = some .dir)
    (hp : ∀ i ∈ ids, served i (page i).1 (page i).2 ∧ '/' ∉ (page i).1 ∧ ∃ b, BodyBytes encode (page i).2 b) :
    ∃ tr s, Exec served encode tmp ids fs tr s ∧ s.stage = .returned ∧ answers tr = ids.map fun i => (i, page i) := by
  have hcl : ∃ tr fs', Exec served encode tmp ids fs tr ⟨fs', .cleared ids⟩ ∧ answers tr = [] ∧ fs' tmp = none := by
    rcases hdir with h | h
    · exact ⟨_, fs, .snoc .nil (.notThere h), rfl, h⟩
    · have e1 : Exec served encode tmp ids fs [.silent] ⟨fs, .removing ids⟩ :=
        .snoc .nil (.there (by rw [h]; exact fun h => by cases h))
      obtain ⟨tr', fs', h1, h2, h3, h4⟩ := can_remove below.length below _ fs rfl (fun p hp _ hn => hfin p hp hn) e1
      exact ⟨_, _, .snoc h1 (.rmdir (by rw [h3, h]) h4), by rw [answers_snoc_silent, h2]; rfl, set_self⟩
  obtain ⟨tr, fs', h1, h2, h3⟩ := hcl
  obtain ⟨tr', fs'', g1, g2⟩ := can_save (page := page) htree ids [] _ _ rfl hp (by rw [answers_snoc_silent, h2]; rfl)
    (.snoc h1 (.mkdir h3))
  exact ⟨tr', _, g1, rfl, g2⟩

/-! ### A title with `/` -/

/-- No directories in the directory. -/
def Flat (tmp : Path) (s : Sys) : Prop :=
  match s.stage with
  | .start _ | .removing _ => True
  | .cleared _ => ∀ p, tmp <+: p → s.fs p = none
  | .raised | .killed => True
  | _ => s.fs tmp = some .dir ∧ ∀ p, tmp <+: p → p ≠ tmp → s.fs p ≠ some .dir

theorem flat_set {fs : Fs} {p : Path} {b : Bytes} (h : fs tmp = some .dir ∧ ∀ q, tmp <+: q → q ≠ tmp → fs q ≠ some .dir)
    (hp : p ≠ tmp) :
    fs.set p (some (.file b)) tmp = some .dir ∧ ∀ q, tmp <+: q → q ≠ tmp → fs.set p (some (.file b)) q ≠ some .dir := by
  refine ⟨by rw [set_other hp.symm]; exact h.1, fun q hq hne => ?_⟩
  by_cases e : q = p
  · subst e; rw [set_self]; exact fun h => by cases h
  · rw [set_other e]; exact h.2 q hq hne

theorem flat_inv {ids : List Int} {fs : Fs} {tr : List Event} {s : Sys} (htree : Tree fs)
    (hex : Exec served encode tmp ids fs tr s) : Flat tmp s := by
  induction hex with
  | nil => trivial
  | @snoc tr s s' e hpre hst ih =>
    cases hst with
    | there | remove => trivial
    | notThere hs =>
      cases hpre with
      | nil => exact fun p hp => tree_none htree hs hp
      | snoc h h' => cases h'
    | @rmdir fs' ids' hd hemp =>
      intro q hq
      by_cases e : q = tmp
      · subst e; exact set_self
      · exact (set_other e).trans (hemp q hq e)
    | @mkdir fs' ids' hn =>
      refine ⟨set_self, fun q hq e => ?_⟩
      show fs'.set tmp (some .dir) q ≠ _
      rw [set_other e, show fs' q = none from ih q hq]
      exact fun h => by cases h
    | answer | encode | close | returns => exact ih
    | @opens fs' ids' title text body p hd hw hn =>
      refine flat_set ih ?_
      rintro rfl
      exact hn ih.1
    | @write fs' ids' p b0 rest n hf hn =>
      refine flat_set ih ?_
      rintro rfl
      rw [show fs' p = _ from ih.1] at hf
      cases hf
    | raises | kill => trivial

/-- C95: a page titled `a/b` ends the run: `tmp/a` does not exist. -/
theorem C95_slash {ids rest : List Int} {fs : Fs} {tr : List Event} {s s' : Sys} {a b : Str} {body : Val} {e : Event}
    (htree : Tree fs) (hex : Exec served encode tmp ids fs tr s) (hs : s.stage = .got (a ++ '/' :: b) body rest)
    (ha : '/' ∉ a) (ha' : a ∉ [[], ".".toList, "..".toList]) (hst : Step served encode tmp s e s') :
    e = .raises ∨ e = .kill := by
  have hflat := flat_inv htree hex
  obtain ⟨fs', stage⟩ := s
  cases hs
  cases hst with
  | raises => exact .inl rfl
  | kill => exact .inr rfl
  | @opens _ _ _ text _ p hd hw hn =>
    exfalso
    obtain ⟨h1, h2⟩ := hflat
    have hfn : fileName (a ++ '/' :: b) = a ++ '/' :: fileName b := by unfold fileName; simp
    have hhead : (fileName (a ++ '/' :: b)).head? ≠ some '/' := by
      rw [hfn]
      cases a with
      | nil => exact absurd (by simp) ha'
      | cons c a =>
        intro h
        simp only [List.cons_append, List.head?_cons, Option.some.injEq] at h
        subst h
        exact ha List.mem_cons_self
    have hparts : ∃ c cs, parts (fileName b) = c :: cs := by
      cases h : parts (fileName b) with
      | cons c cs => exact ⟨c, cs, rfl⟩
      | nil =>
        exfalso
        exact parts_json_ne b.length b rfl h
    obtain ⟨c, cs, hc⟩ := hparts
    have hp : parts (fileName (a ++ '/' :: b)) = a :: c :: cs := by
      rw [hfn, parts_slash ha, hc, if_pos]
      simp only [List.mem_cons, List.not_mem_nil, or_false, not_or] at ha'
      rw [Bool.and_eq_true, Bool.not_eq_true', bne_iff_ne, Bool.eq_false_iff, ne_eq, List.isEmpty_iff]
      exact ⟨ha'.1, ha'.2.1⟩
    unfold target at hw
    rw [if_neg hhead, hp] at hw
    simp only [walk] at hw
    have hna : a ≠ "..".toList := by
      rintro rfl; exact ha' (by simp)
    rw [if_pos h1, if_neg hna, if_neg (h2 (tmp ++ [a]) (List.prefix_append _ _) (by simp))] at hw
    cases hw

/-! ## Witnesses -/

def dirs0 : List Path :=
  [[], ["w".toList], ["w".toList, "tmp".toList], ["w".toList, "tmp".toList, "d".toList]]

def files0 : List Path := [["w".toList, "x.json".toList], ["w".toList, "tmp".toList, "d".toList, "old".toList]]

/-- A file system with a file `x.json` beside the directory, and in the directory an old file in a directory. -/
def fs0 : Fs := fun p => if p ∈ dirs0 then some .dir else if p ∈ files0 then some (.file [1]) else none

def tmp0 : Path := ["w".toList, "tmp".toList]

theorem fs0_mem {p : Path} (h : fs0 p ≠ none) : p ∈ dirs0 ++ files0 := by
  unfold fs0 at h
  split at h
  · exact List.mem_append_left _ ‹_›
  · split at h
    · exact List.mem_append_right _ ‹_›
    · exact absurd rfl h

theorem tree_fs0 : Tree fs0 := by
  intro p c h
  have key : ∀ q ∈ dirs0 ++ files0, fs0 q.dropLast = some .dir := by decide +kernel
  have := key _ (fs0_mem h)
  rwa [List.dropLast_concat] at this

def pageDoc (i : Int) : Str × Val := (if i = 3 then "A".toList else "B".toList, .dict [("version", .int i)])

/-- A server with three pages, two of the same title. -/
def served0 : Int → Str → Val → Prop := fun i t v => (i = 1 ∨ i = 2 ∨ i = 3) ∧ (t, v) = pageDoc i

theorem run0 : ∃ tr s, Exec served0 (fun x => some (FileCache.utf8 (FileCache.toNative false x))) tmp0 [1, 2, 3] fs0 tr s ∧
    s.stage = .returned ∧ answers tr = [1, 2, 3].map fun i => (i, pageDoc i) := by
  refine C95_possible pageDoc [1, 2, 3] fs0 tree_fs0 (dirs0 ++ files0) (fun p _ h => fs0_mem h) (.inr (by decide +kernel)) ?_
  intro i hi
  refine ⟨⟨by simpa using hi, rfl⟩, ?_, ?_⟩
  · have : ∀ i ∈ [(1 : Int), 2, 3], '/' ∉ (pageDoc i).1 := by decide +kernel
    exact this i hi
  · have : ∀ i ∈ [(1 : Int), 2, 3], (Json.dumps (some 2) (pageDoc i).2).isSome := by decide +kernel
    obtain ⟨x, hx⟩ := Option.isSome_iff_exists.mp (this i hi)
    exact ⟨_, x, hx, rfl⟩

/-- The run leaves the directory with `A.json` (page 3) and `B.json` (page 2), and nothing of what was there. -/
example : ∃ tr s, Exec served0 (fun x => some (FileCache.utf8 (FileCache.toNative false x))) tmp0 [1, 2, 3] fs0 tr s ∧
    s.stage = .returned ∧ s.fs (tmp0 ++ ["d".toList]) = none ∧ s.fs ["w".toList, "x.json".toList] = some (.file [1]) ∧
    s.fs (tmp0 ++ ["B.json".toList]) = some (.file (FileCache.utf8 "{\n  \"version\": 2\n}".toList)) := by
  obtain ⟨tr, s, hex, hr, ha⟩ := run0
  have hs : ∀ a ∈ answers tr, '/' ∉ a.2.1 := by rw [ha]; decide +kernel
  have h := (C95_complete tree_fs0 hex hs hr).2
  refine ⟨tr, s, hex, hr, ?_, ?_, ?_⟩
  · refine C95_unique (h _ (List.prefix_append _ _)) (.nothing (List.prefix_append _ _) (by decide) ?_)
    rw [ha]; decide +kernel
  · rw [C96_partial hex (by
      rw [ha]
      unfold StaysBelow
      decide +kernel) _ (by decide)]
    decide +kernel
  · refine C95_unique (h _ (List.prefix_append _ _)) ?_
    rw [show tmp0 ++ ["B.json".toList] = tmp0 ++ ["B".toList ++ ".json".toList] by decide]
    refine .page (before := [pageDoc 1]) (after := [pageDoc 3]) (body := (pageDoc 2).2) ?_ ?_ ⟨_, rfl, ?_⟩
    · rw [ha]; rfl
    · decide +kernel
    · decide +kernel

/-- C96 in full: whatever the titles are. -/
def OnlyBelow : Prop :=
  ∀ (served : Int → Str → Val → Prop) (encode : Str → Option Bytes) (tmp : Path) (ids : List Int) (fs : Fs)
    (tr : List Event) (s : Sys), Tree fs → Exec served encode tmp ids fs tr s → ∀ p, ¬ tmp <+: p → s.fs p = fs p

theorem tree_empty (tmp : Path) : Tree fun p => if p <+: tmp then some .dir else none := by
  intro p c h
  by_cases hp : p ++ [c] <+: tmp
  · exact if_pos ((List.prefix_append p [c]).trans hp)
  · exact absurd (if_neg hp) h

/-- C96 in full is false: a page titled `../x` is written beside the directory. -/
theorem C96_false : ¬ OnlyBelow := by
  intro h
  let fs : Fs := fun p => if p <+: tmp0 then some .dir else none
  have e1 : Exec (fun _ t v => t = "../x".toList ∧ v = .dict []) (fun _ => some []) tmp0 [7] fs [] ⟨fs, .start [7]⟩ := .nil
  have e2 := Exec.snoc e1 (.there (by decide))
  have e3 := Exec.snoc e2 (.rmdir (by decide) (by
    intro q hq hne
    refine if_neg fun hp => hne ?_
    exact (hq.eq_of_length (Nat.le_antisymm hq.length_le hp.length_le)).symm))
  have e4 := Exec.snoc e3 (.mkdir (by decide))
  have e5 := Exec.snoc e4 (.answer ⟨rfl, rfl⟩)
  have e6 := Exec.snoc e5 (.opens (text := "{}".toList) (p := ["w".toList, "x.json".toList]) (by decide +kernel)
    (by decide +kernel) (by decide +kernel))
  have := h _ _ _ _ fs _ _ (tree_empty tmp0) e6 ["w".toList, "x.json".toList] (by decide)
  revert this
  decide +kernel

end Verif.Props.Download
