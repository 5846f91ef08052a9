import Verif.Props.NodeGenParse
import Verif.Model.NodeGenMain
import Mathlib.Data.List.Induction
/-!
# C79, C80: running the node generator

Histories are arbitrary interleavings of any number of runs of `main` of scripts/s02-nodes-code-gen/s1_gen_code.py, any of
which can be killed or fail at any moment, and of changes other people make to the files.
-/

namespace Verif.Props
open Verif Verif.NodeGen Verif.Spec.NodeGen Verif.NodeGenMain
open Verif.FileCache (Bytes writeAt)

theorem ng_set_self (s : Sys) (p : Nat) (q : Stage) : (s.set p q).procs p = q := by simp [Sys.set]
theorem ng_set_other (s : Sys) {p i : Nat} (q : Stage) (h : i ≠ p) : (s.set p q).procs i = s.procs i := by simp [Sys.set, h]
theorem ng_set_files (s : Sys) (p : Nat) (q : Stage) : (s.set p q).files = s.files := rfl
theorem ng_put_procs (s : Sys) (x : Dir × Str) (b : Option Bytes) : (s.put x b).procs = s.procs := rfl
theorem ng_put_self (s : Sys) (x : Dir × Str) (b : Option Bytes) : (s.put x b).files x = b := by simp [Sys.put]
theorem ng_put_other (s : Sys) {x y : Dir × Str} (b : Option Bytes) (h : y ≠ x) : (s.put x b).files y = s.files y := by
  simp [Sys.put, h]

theorem ng_append {env : Env} {encode : Str → Option Bytes} {dirs : Dir → Bool} {s₀ s : Sys} {tr tr' : List Event}
    (hex : Exec env encode dirs s₀ (tr ++ tr') s) : ∃ s1, Exec env encode dirs s₀ tr s1 ∧ Exec env encode dirs s1 tr' s := by
  induction tr' using List.reverseRecOn generalizing s with
  | nil => exact ⟨s, by simpa using hex, .nil⟩
  | append_singleton l e ih =>
    rw [← List.append_assoc] at hex
    generalize htt : tr ++ l ++ [e] = t at hex
    cases hex with
    | nil => simp at htt
    | snoc h hst =>
      have := List.append_inj_left' htt (by simp)
      have e2 := List.append_inj_right' htt (by simp)
      subst this
      simp only [List.cons.injEq, and_true] at e2
      subst e2
      obtain ⟨s1, h1, h2⟩ := ih h
      exact ⟨s1, h1, h2.snoc hst⟩

theorem ng_cons {env : Env} {encode : Str → Option Bytes} {dirs : Dir → Bool} {s₀ s : Sys} {e : Event} {tr : List Event}
    (hex : Exec env encode dirs s₀ (e :: tr) s) : ∃ s1, Step env encode dirs s₀ e s1 ∧ Exec env encode dirs s1 tr s := by
  obtain ⟨s1, h1, h2⟩ := ng_append (tr := [e]) (tr' := tr) hex
  generalize htt : [e] = t at h1
  cases h1 with
  | nil => simp at htt
  | @snoc t' s' _ _ h hst =>
    cases t' with
    | nil =>
      simp only [List.nil_append, List.cons.injEq, and_true] at htt
      subst htt
      generalize hn : ([] : List Event) = n at h
      cases h with
      | nil => exact ⟨s1, hst, h2⟩
      | snoc _ _ => simp at hn
    | cons a t' => simp at htt

/-- A process that has not started `main`, or has finished it, is idle. -/
theorem idle_of {env : Env} {encode : Str → Option Bytes} {dirs : Dir → Bool} {files : Files} {tr : List Event} {s : Sys}
    (hex : Exec env encode dirs (Sys.start files) tr s) (p : Nat) (h : ¬ Running p tr) : s.procs p = .idle := by
  induction hex with
  | nil => rfl
  | @snoc tr s1 s2 e _ hst ih =>
    -- whoever goes on was running before
    have before : e ≠ .returns p → e ≠ .raises p → e ≠ .crash p → (∀ d, e ≠ .start p d) → s1.procs p = .idle := by
      intro h1 h2 h3 h4
      refine ih fun hr => h ?_
      obtain ⟨l, d, r, rfl, r1, r2, r3⟩ := hr
      exact ⟨l, d, r ++ [e], by simp, by simp [r1, Ne.symm h1], by simp [r2, Ne.symm h2], by simp [r3, Ne.symm h3]⟩
    have other : ∀ (s1' : Sys) q st, s1'.procs = s1.procs → q ≠ p → e ≠ .returns p → e ≠ .raises p → e ≠ .crash p →
        (∀ d, e ≠ .start p d) → (s1'.set q st).procs p = .idle := by
      intro s1' q st h0 hq h1 h2 h3 h4
      rw [ng_set_other _ _ (Ne.symm hq), h0]
      exact before h1 h2 h3 h4
    have silent : ∀ (s1' : Sys) q st, s1'.procs = s1.procs → e = .silent q → s1.procs q ≠ .idle →
        (s1'.set q st).procs p = .idle := by
      rintro s1' q st h0 rfl hq
      have hb := before (by simp) (by simp) (by simp) (by simp)
      have : q ≠ p := by rintro rfl; exact hq hb
      exact other s1' q st h0 this (by simp) (by simp) (by simp) (by simp)
    have stops : ∀ q, (e = .returns q ∨ e = .raises q ∨ e = .crash q) → (s1.set q .idle).procs p = .idle := by
      intro q he
      by_cases hq : q = p
      · subst hq; exact ng_set_self _ _ _
      · rcases he with rfl | rfl | rfl <;>
          exact other s1 q _ rfl hq (by simp [hq]) (by simp [hq]) (by simp [hq]) (by simp)
    cases hst with
    | start q defs hq =>
      by_cases hqp : q = p
      · subst hqp
        exact absurd ⟨tr, defs, [], rfl, by simp, by simp, by simp⟩ h
      · exact other s1 q _ rfl hqp (by simp) (by simp) (by simp) (by simp [hqp])
    | openNode q hq hd => exact silent (s1.put _ _) q _ rfl rfl (by simp [hq])
    | openNodeFail q hq => exact stops q (by simp)
    | skip q hq hx => exact silent s1 q _ rfl rfl (by simp [hq])
    | absent q hq hx => exact silent s1 q _ rfl rfl (by simp [hq])
    | absentFail q hq hx => exact stops q (by simp)
    | openMixin q hq hd => exact silent (s1.put _ _) q _ rfl rfl (by simp [hq])
    | openMixinFail q hq => exact stops q (by simp)
    | encode q hq hc => exact silent s1 q _ rfl rfl (by simp [hq])
    | encodeFail q hq hc => exact stops q (by simp)
    | write q n hq hn => exact silent (s1.put _ _) q _ rfl rfl (by simp [hq])
    | writeFail q hq => exact stops q (by simp)
    | close q hq => exact silent s1 q _ rfl rfl (by simp [hq])
    | returns q hq => exact stops q (by simp)
    | raises q hq => exact stops q (by simp)
    | crash q => exact stops q (by simp)
    | edit path b => exact before (by simp) (by simp) (by simp) (by simp)

/-! ## C79: mixins are kept -/

/-- The mixin exists and nobody is about to write it. -/
def Kept (f : Str) (b : Bytes) (s : Sys) : Prop :=
  s.files (.mixins, f) = some b ∧ ∀ p, (∀ c todo err, s.procs p ≠ .absent f c todo err) ∧
    (∀ c todo err, s.procs p ≠ .opened (.mixins, f) c todo err) ∧
    ∀ pos rest todo err, s.procs p ≠ .writing (.mixins, f) pos rest todo err

theorem kept_set {f : Str} {b : Bytes} {s s' : Sys} (h : Kept f b s) (hp : s'.procs = s.procs)
    (hf : s'.files (.mixins, f) = some b) {q : Nat} {st : Stage} (h1 : ∀ c todo err, st ≠ .absent f c todo err)
    (h2 : ∀ c todo err, st ≠ .opened (.mixins, f) c todo err) (h3 : ∀ pos rest todo err, st ≠ .writing (.mixins, f) pos rest todo err) :
    Kept f b (s'.set q st) := by
  refine ⟨hf, fun p => ?_⟩
  by_cases hpq : p = q
  · subst hpq; rw [ng_set_self]; exact ⟨h1, h2, h3⟩
  · rw [ng_set_other _ _ hpq, hp]; exact h.2 p

theorem mixinKept_step {env : Env} {encode : Str → Option Bytes} {dirs : Dir → Bool} {f : Str} {b : Bytes} {s s' : Sys} {e : Event}
    (h : Kept f b s) (hst : Step env encode dirs s e s') (he : ∀ x, e ≠ .edit (.mixins, f) x) : Kept f b s' := by
  have other : ∀ (q : Nat) {path : Dir × Str} (x : Option Bytes), path ≠ (.mixins, f) → (s.put path x).files (.mixins, f) = some b := by
    intro q path x hne
    rw [ng_put_other _ _ (Ne.symm hne)]; exact h.1
  cases hst with
  | start q defs hq => exact kept_set h rfl h.1 (by simp) (by simp) (by simp)
  | openNode q hq hd => exact kept_set (s' := s.put _ _) h rfl (other q _ (by simp)) (by simp) (by simp) (by simp)
  | openNodeFail q hq => exact kept_set h rfl h.1 (by simp) (by simp) (by simp)
  | skip q hq hx => exact kept_set h rfl h.1 (by simp) (by simp) (by simp)
  | @absent q f' c todo err hq hx =>
    have hne : f' ≠ f := by
      rintro rfl
      rw [h.1] at hx; cases hx
    exact kept_set h rfl h.1 (by simp [hne]) (by simp) (by simp)
  | absentFail q hq hx => exact kept_set h rfl h.1 (by simp) (by simp) (by simp)
  | @openMixin q f' c todo err hq hd =>
    have hne : f' ≠ f := by rintro rfl; exact (h.2 q).1 _ _ _ hq
    exact kept_set (s' := s.put _ _) h rfl (other q _ (by simp [hne])) (by simp) (by simp [hne]) (by simp)
  | openMixinFail q hq => exact kept_set h rfl h.1 (by simp) (by simp) (by simp)
  | @encode q path c b' todo err hq hc =>
    have hne : path ≠ (.mixins, f) := by rintro rfl; exact (h.2 q).2.1 _ _ _ hq
    exact kept_set h rfl h.1 (by simp) (by simp) (by simp [hne])
  | encodeFail q hq hc => exact kept_set h rfl h.1 (by simp) (by simp) (by simp)
  | @write q n path pos rest todo err hq hn =>
    have hne : path ≠ (.mixins, f) := by rintro rfl; exact (h.2 q).2.2 _ _ _ _ hq
    exact kept_set (s' := s.put _ _) h rfl (other q _ hne) (by simp) (by simp) (by simp [hne])
  | writeFail q hq => exact kept_set h rfl h.1 (by simp) (by simp) (by simp)
  | close q hq => exact kept_set h rfl h.1 (by simp) (by simp) (by simp)
  | returns q hq => exact kept_set h rfl h.1 (by simp) (by simp) (by simp)
  | raises q hq => exact kept_set h rfl h.1 (by simp) (by simp) (by simp)
  | crash q => exact kept_set h rfl h.1 (by simp) (by simp) (by simp)
  | edit path x =>
    have hne : path ≠ (.mixins, f) := by rintro rfl; exact he x rfl
    exact ⟨other 0 _ hne, h.2⟩

theorem kept_exec {env : Env} {encode : Str → Option Bytes} {dirs : Dir → Bool} {f : Str} {b : Bytes} {s₀ s : Sys} {tr : List Event}
    (h : Kept f b s₀) (hex : Exec env encode dirs s₀ tr s) (he : ∀ x, .edit (.mixins, f) x ∉ tr) : Kept f b s := by
  induction hex with
  | nil => exact h
  | snoc _ hst ih => exact mixinKept_step (ih fun x hx => he x (by simp [hx])) hst fun x hx => he x (by simp [hx])

/-- A mixin that was there at the beginning is never changed by the generator, whoever runs it, is killed or fails. -/
theorem C79_initial {env : Env} {encode : Str → Option Bytes} {dirs : Dir → Bool} {files : Files} {tr : List Event} {s : Sys}
    (hex : Exec env encode dirs (Sys.start files) tr s) {f : Str} {b : Bytes} (hf : files (.mixins, f) = some b)
    (he : ∀ x, .edit (.mixins, f) x ∉ tr) : s.files (.mixins, f) = some b :=
  (kept_exec ⟨hf, fun p => by simp [Sys.start]⟩ hex he).1

/-- What holds of C79: what somebody writes into a mixin while nobody runs the generator stays there until somebody edits it
again, whoever runs the generator afterwards, is killed or fails. -/
theorem C79_partial {env : Env} {encode : Str → Option Bytes} {dirs : Dir → Bool} {files : Files} {tr tr' : List Event} {s : Sys}
    {f : Str} {b : Bytes} (hex : Exec env encode dirs (Sys.start files) (tr ++ .edit (.mixins, f) (some b) :: tr') s)
    (hr : ∀ p, ¬ Running p tr) (he : ∀ x, .edit (.mixins, f) x ∉ tr') : s.files (.mixins, f) = some b := by
  obtain ⟨s1, h1, h2⟩ := ng_append hex
  obtain ⟨s2, h3, h4⟩ := ng_cons h2
  cases h3 with
  | edit _ _ =>
    refine (kept_exec ⟨ng_put_self _ _ _, fun p => ?_⟩ h4 he).1
    rw [ng_put_procs, idle_of h1 p (hr p)]
    simp

/-- The generator touches no file but the modules, parse.py and the stubs of the definitions it was given: hand-written modules
such as nodes/base.py stay as they are. -/
theorem C79_others {env : Env} {encode : Str → Option Bytes} {dirs : Dir → Bool} {files : Files} {tr : List Event} {s : Sys}
    (hex : Exec env encode dirs (Sys.start files) tr s) {path : Dir × Str}
    (hn : ∀ p defs, .start p defs ∈ tr → ¬ Spec.NodeGen.Names (plan env defs).1 path) (he : ∀ x, .edit path x ∉ tr) :
    s.files path = files path := by
  suffices h : s.files path = files path ∧ ∀ p, match s.procs p with
      | .idle => True
      | .running todo _ => ¬ Spec.NodeGen.Names todo path
      | .absent f _ todo _ => path ≠ (.mixins, f) ∧ ¬ Spec.NodeGen.Names todo path
      | .opened x _ todo _ => path ≠ x ∧ ¬ Spec.NodeGen.Names todo path
      | .writing x _ _ todo _ => path ≠ x ∧ ¬ Spec.NodeGen.Names todo path from h.1
  have tail : ∀ {a : Act} {todo : List Act}, ¬ Spec.NodeGen.Names (a :: todo) path → ¬ Spec.NodeGen.Names todo path := by
    intro a todo h hx
    obtain ⟨d, f⟩ := path
    cases d <;> (obtain ⟨c, hc⟩ := hx; exact h ⟨c, .tail _ hc⟩)
  have headW : ∀ {f c : Str} {todo : List Act}, ¬ Spec.NodeGen.Names (.write f c :: todo) path → path ≠ (.nodes, f) := by
    rintro f c todo h rfl
    exact h ⟨c, .head _⟩
  have headS : ∀ {f : Str} {c : Except PyErr Str} {todo : List Act}, ¬ Spec.NodeGen.Names (.stub f c :: todo) path →
      path ≠ (.mixins, f) := by
    rintro f c todo h rfl
    exact h ⟨c, .head _⟩
  induction hex with
  | nil => exact ⟨rfl, fun p => trivial⟩
  | @snoc tr s1 s2 e _ hst ih =>
    obtain ⟨i1, i2⟩ := ih (fun p d hd => hn p d (by simp [hd])) (fun x hx => he x (by simp [hx]))
    have set : ∀ (s' : Sys) (q : Nat) (st : Stage), s'.procs = s1.procs → s'.files path = files path → (match st with
        | .idle => True
        | .running todo _ => ¬ Spec.NodeGen.Names todo path
        | .absent f _ todo _ => path ≠ (.mixins, f) ∧ ¬ Spec.NodeGen.Names todo path
        | .opened x _ todo _ => path ≠ x ∧ ¬ Spec.NodeGen.Names todo path
        | .writing x _ _ todo _ => path ≠ x ∧ ¬ Spec.NodeGen.Names todo path) →
        (s'.set q st).files path = files path ∧ ∀ p, match (s'.set q st).procs p with
        | .idle => True
        | .running todo _ => ¬ Spec.NodeGen.Names todo path
        | .absent f _ todo _ => path ≠ (.mixins, f) ∧ ¬ Spec.NodeGen.Names todo path
        | .opened x _ todo _ => path ≠ x ∧ ¬ Spec.NodeGen.Names todo path
        | .writing x _ _ todo _ => path ≠ x ∧ ¬ Spec.NodeGen.Names todo path := by
      intro s' q st hp hf h
      refine ⟨hf, fun p => ?_⟩
      by_cases hpq : p = q
      · subst hpq; rw [ng_set_self]; exact h
      · rw [ng_set_other _ _ hpq, hp]; exact i2 p
    have get : ∀ {q : Nat} {st : Stage}, s1.procs q = st → (match st with
        | .idle => True
        | .running todo _ => ¬ Spec.NodeGen.Names todo path
        | .absent f _ todo _ => path ≠ (.mixins, f) ∧ ¬ Spec.NodeGen.Names todo path
        | .opened x _ todo _ => path ≠ x ∧ ¬ Spec.NodeGen.Names todo path
        | .writing x _ _ todo _ => path ≠ x ∧ ¬ Spec.NodeGen.Names todo path) := by
      rintro q st rfl; exact i2 q
    have put : ∀ {x : Dir × Str} (b : Option Bytes), path ≠ x → (s1.put x b).files path = files path := by
      intro x b hx
      rw [ng_put_other _ _ hx]; exact i1
    cases hst with
    | start q defs hq => exact set s1 q _ rfl i1 (hn q defs (by simp))
    | openNode q hq hd => have g := get hq; exact set (s1.put _ _) q _ rfl (put _ (headW g)) ⟨headW g, tail g⟩
    | openNodeFail q hq => exact set s1 q _ rfl i1 trivial
    | skip q hq hx => exact set s1 q _ rfl i1 (tail (get hq))
    | absent q hq hx => have g := get hq; exact set s1 q _ rfl i1 ⟨headS g, tail g⟩
    | absentFail q hq hx => exact set s1 q _ rfl i1 trivial
    | openMixin q hq hd => have g := get hq; exact set (s1.put _ _) q _ rfl (put _ g.1) g
    | openMixinFail q hq => exact set s1 q _ rfl i1 trivial
    | encode q hq hc => exact set s1 q _ rfl i1 (get hq)
    | encodeFail q hq hc => exact set s1 q _ rfl i1 trivial
    | write q n hq hn' => have g := get hq; exact set (s1.put _ _) q _ rfl (put _ g.1) g
    | writeFail q hq => exact set s1 q _ rfl i1 trivial
    | close q hq => exact set s1 q _ rfl i1 (get hq).2
    | returns q hq => exact set s1 q _ rfl i1 trivial
    | raises q hq => exact set s1 q _ rfl i1 trivial
    | crash q => exact set s1 q _ rfl i1 trivial
    | edit x b => exact ⟨put b (fun hx => he b (by simp [hx])), i2⟩

/-! ## C80: a complete run -/

theorem step_files_setProcs {s : Sys} {p : Nat} {q : Stage} : (s.set p q).files = s.files := rfl

/-- The files with one of them replaced. -/
def upd (fs : Files) (path : Dir × Str) (b : Option Bytes) : Files := fun x => if x = path then b else fs x

theorem upd_self (fs : Files) (path : Dir × Str) (b : Option Bytes) : upd fs path b path = b := by simp [upd]
theorem upd_other (fs : Files) {path x : Dir × Str} (b : Option Bytes) (h : x ≠ path) : upd fs path b x = fs x := by simp [upd, h]
theorem upd_upd (fs : Files) (path : Dir × Str) (b c : Option Bytes) : upd (upd fs path b) path c = upd fs path c := by
  funext x; simp only [upd]; split <;> rfl
theorem put_files (s : Sys) (path : Dir × Str) (b : Option Bytes) : (s.put path b).files = upd s.files path b := rfl

/-- What doing all of `acts` makes of the files; `none`: an exception. -/
def doAll (encode : Str → Option Bytes) : List Act → Files → Option Files
  | [], fs => some fs
  | .write f c :: r, fs => (encode c).bind fun b => doAll encode r (upd fs (.nodes, f) (some b))
  | .stub f c :: r, fs =>
    if (fs (.mixins, f)).isSome then doAll encode r fs
    else match c with
      | .error _ => none
      | .ok c => (encode c).bind fun b => doAll encode r (upd fs (.mixins, f) (some b))

theorem doAll_stub (encode : Str → Option Bytes) (f : Str) (c : Except PyErr Str) (r : List Act) (fs : Files) :
    doAll encode (.stub f c :: r) fs = if (fs (.mixins, f)).isSome then doAll encode r fs
      else match c with
        | .error _ => none
        | .ok c => (encode c).bind fun b => doAll encode r (upd fs (.mixins, f) (some b)) := by
  cases c <;> simp only [doAll]

/-- What the files will be if a process in this stage goes on alone. -/
def willBe (encode : Str → Option Bytes) (fs : Files) : Stage → Option Files
  | .idle => none
  | .running todo _ => doAll encode todo fs
  | .absent f c todo _ => (encode c).bind fun b => doAll encode todo (upd fs (.mixins, f) (some b))
  | .opened path c todo _ => (encode c).bind fun b => doAll encode todo (upd fs path (some b))
  | .writing path _ rest todo _ => doAll encode todo (upd fs path (some ((fs path).getD [] ++ rest)))

/-- What a process that writes alone has written so far. -/
def Sound (fs : Files) : Stage → Prop
  | .opened path _ _ _ => fs path = some []
  | .writing path pos _ _ _ => ∃ a, fs path = some a ∧ a.length = pos
  | _ => True

theorem writeAt_end (a x : Bytes) : writeAt a a.length x = a ++ x := by
  simp [writeAt]

theorem alone_step {env : Env} {encode : Str → Option Bytes} {dirs : Dir → Bool} {s s' : Sys} {p : Nat}
    (hst : Step env encode dirs s (.silent p) s') (hs : Sound s.files (s.procs p)) :
    Sound s'.files (s'.procs p) ∧ willBe encode s'.files (s'.procs p) = willBe encode s.files (s.procs p) := by
  cases hst with
  | openNode q hq hd =>
    rw [ng_set_self, ng_set_files, put_files, hq]
    refine ⟨by simp [Sound, upd], ?_⟩
    simp only [willBe, doAll, upd_upd]
  | skip q hq hx =>
    rw [ng_set_self, ng_set_files, hq]
    refine ⟨trivial, ?_⟩
    simp only [willBe, doAll]
    rw [if_pos hx]
  | absent q hq hx =>
    rw [ng_set_self, ng_set_files, hq]
    refine ⟨trivial, ?_⟩
    simp only [willBe, doAll, hx, Option.isSome_none, Bool.false_eq_true, if_false]
  | openMixin q hq hd =>
    rw [ng_set_self, ng_set_files, put_files, hq]
    refine ⟨by simp [Sound, upd], ?_⟩
    simp only [willBe, upd_upd]
  | encode q hq hc =>
    rw [hq] at hs
    simp only [Sound] at hs
    rw [ng_set_self, ng_set_files, hq]
    refine ⟨⟨[], hs, rfl⟩, ?_⟩
    simp only [willBe, hs, hc, Option.getD_some, List.nil_append, Option.bind_some]
  | write q n hq hn =>
    rw [hq] at hs
    obtain ⟨a, ha, rfl⟩ := hs
    rw [ng_set_self, ng_set_files, put_files, hq, ha, Option.getD_some, writeAt_end]
    refine ⟨⟨_, upd_self _ _ _, by simp [Nat.min_eq_left hn]⟩, ?_⟩
    simp only [willBe, upd_upd, upd_self, Option.getD_some, List.append_assoc, List.take_append_drop, ha]
  | close q hq =>
    rw [hq] at hs
    obtain ⟨a, ha, rfl⟩ := hs
    rw [ng_set_self, ng_set_files, hq]
    refine ⟨trivial, ?_⟩
    simp only [willBe, ha, Option.getD_some, List.append_nil]
    congr 1
    funext x
    simp only [upd]
    split
    · rename_i h; rw [h, ha]
    · rfl

theorem alone_exec {env : Env} {encode : Str → Option Bytes} {dirs : Dir → Bool} {s s' : Sys} {p : Nat} {tr : List Event}
    (hex : Exec env encode dirs s tr s') (ht : ∀ e ∈ tr, e = .silent p) (hs : Sound s.files (s.procs p)) :
    Sound s'.files (s'.procs p) ∧ willBe encode s'.files (s'.procs p) = willBe encode s.files (s.procs p) := by
  induction hex with
  | nil => exact ⟨hs, rfl⟩
  | @snoc tr s1 s2 e _ hst ih =>
    obtain ⟨i1, i2⟩ := ih fun e he => ht e (by simp [he])
    obtain rfl := ht e (by simp)
    obtain ⟨j1, j2⟩ := alone_step hst i1
    exact ⟨j1, j2.trans i2⟩

theorem doAll_leaves {encode : Str → Option Bytes} {acts : List Act} {fs fs' : Files} (h : doAll encode acts fs = some fs')
    (path : Dir × Str) : Leaves encode acts (fs path) path (fs' path) := by
  induction acts generalizing fs with
  | nil =>
    cases h
    obtain ⟨d, f⟩ := path
    cases d
    · exact .inr ⟨by simp, rfl⟩
    · exact .inr (.inr ⟨by simp, rfl⟩)
  | cons a r ih =>
    cases a with
    | write f' c =>
      rw [doAll] at h
      obtain ⟨b, hb, h⟩ := Option.bind_eq_some_iff.1 h
      have i := ih h
      obtain ⟨d, f⟩ := path
      cases d with
      | nodes =>
        rcases i with ⟨l, r', c', b', rfl, h2, h3, h4⟩ | ⟨h1, h2⟩
        · exact .inl ⟨_ :: l, r', c', b', rfl, h2, h3, h4⟩
        · by_cases hf : f = f'
          · subst hf
            rw [upd_self] at h2
            exact .inl ⟨[], r, c, b, rfl, h1, hb, h2⟩
          · rw [upd_other _ _ (by simp [hf])] at h2
            refine .inr ⟨fun c' hc => ?_, h2⟩
            rcases List.mem_cons.1 hc with hc | hc
            · cases hc; exact hf rfl
            · exact h1 c' hc
      | mixins =>
        rw [upd_other _ _ (by simp)] at i
        rcases i with i | ⟨h0, l, r', c', b', rfl, h2, h3, h4⟩ | ⟨h1, h2⟩
        · exact .inl i
        · exact .inr (.inl ⟨h0, .write f' c :: l, r', c', b', rfl, by simpa using h2, h3, h4⟩)
        · exact .inr (.inr ⟨by simpa using h1, h2⟩)
    | stub f' c =>
      rw [doAll_stub] at h
      have nodesCase : ∀ {old new : Option Bytes} {f : Str}, Leaves encode r old (.nodes, f) new →
          Leaves encode (.stub f' c :: r) old (.nodes, f) new := by
        intro old new f i
        rcases i with ⟨l, r', c', b', rfl, h2, h3, h4⟩ | ⟨h1, h2⟩
        · exact .inl ⟨.stub f' c :: l, r', c', b', rfl, h2, h3, h4⟩
        · exact .inr ⟨by simpa using h1, h2⟩
      have otherCase : ∀ {old new : Option Bytes} {f : Str}, f ≠ f' → Leaves encode r old (.mixins, f) new →
          Leaves encode (.stub f' c :: r) old (.mixins, f) new := by
        intro old new f hf i
        rcases i with i | ⟨h0, l, r', c', b', rfl, h2, h3, h4⟩ | ⟨h1, h2⟩
        · exact .inl i
        · refine .inr (.inl ⟨h0, .stub f' c :: l, r', c', b', rfl, fun c'' hc => ?_, h3, h4⟩)
          rcases List.mem_cons.1 hc with hc | hc
          · cases hc; exact hf rfl
          · exact h2 c'' hc
        · refine .inr (.inr ⟨fun c'' hc => ?_, h2⟩)
          rcases List.mem_cons.1 hc with hc | hc
          · cases hc; exact hf rfl
          · exact h1 c'' hc
      have keepCase : ∀ {r : List Act} {b : Bytes} {new : Option Bytes} {f : Str}, Leaves encode r (some b) (.mixins, f) new →
          new = some b := by
        intro r b new f i
        rcases i with i | ⟨h0, -⟩ | ⟨-, h2⟩
        · exact i.2
        · cases h0
        · exact h2
      obtain ⟨d, f⟩ := path
      split at h
      · rename_i hx
        have i := ih h
        cases d with
        | nodes => exact nodesCase i
        | mixins =>
          by_cases hf : f = f'
          · subst hf
            obtain ⟨b, hb⟩ := Option.isSome_iff_exists.1 hx
            rw [hb] at i ⊢
            exact .inl ⟨by simp, keepCase i⟩
          · exact otherCase hf i
      · rename_i hx
        have hnone : fs (.mixins, f') = none := by
          cases hy : fs (.mixins, f') with
          | none => rfl
          | some b => rw [hy] at hx; exact absurd rfl hx
        cases c with
        | error e => cases h
        | ok c =>
          obtain ⟨b, hb, h⟩ := Option.bind_eq_some_iff.1 h
          have i := ih h
          cases d with
          | nodes => rw [upd_other _ _ (by simp)] at i; exact nodesCase i
          | mixins =>
            by_cases hf : f = f'
            · subst hf
              rw [upd_self] at i
              exact .inr (.inl ⟨hnone, [], r, c, b, rfl, by simp, hb, keepCase i⟩)
            · rw [upd_other _ _ (by simp [hf])] at i
              exact otherCase hf i

/-- A run that nobody disturbs and that returns, from any state (whatever happened before: other runs, killed or unfinished, and edits):
what it leaves in each file. -/
theorem C80_run {env : Env} {encode : Str → Option Bytes} {dirs : Dir → Bool} {mid : List Event} {p : Nat} {defs : Defs}
    {s1 s : Sys} (hex : Exec env encode dirs s1 (.start p defs :: (mid ++ [.returns p])) s) (hm : ∀ e ∈ mid, e = .silent p) :
    (plan env defs).2 = none ∧ ∀ path, Leaves encode (plan env defs).1 (s1.files path) path (s.files path) := by
  obtain ⟨s2, h3, h4⟩ := ng_cons hex
  obtain ⟨s3, h5, h6⟩ := ng_append h4
  obtain ⟨s4, h7, h8⟩ := ng_cons h6
  have e4 : s4 = s := by
    generalize hn : ([] : List Event) = n at h8
    cases h8 with
    | nil => rfl
    | snoc _ _ => simp at hn
  subst e4
  cases h3 with
  | start _ _ hp =>
    cases h7 with
    | returns _ hq =>
      obtain ⟨-, hw⟩ := alone_exec h5 hm (by rw [ng_set_self]; trivial)
      rw [hq, ng_set_self, ng_set_files] at hw
      have herr : ∀ {a b : Sys} {tr' : List Event}, Exec env encode dirs a tr' b → (∀ e ∈ tr', e = .silent p) → ∀ err,
          (∃ todo, a.procs p = .running todo err) → (match b.procs p with
            | .idle => False
            | .running _ e | .absent _ _ _ e | .opened _ _ _ e | .writing _ _ _ _ e => e = err) := by
        intro a b tr' hex
        induction hex with
        | nil => rintro _ err ⟨todo, h⟩; rw [h]
        | @snoc tr' s1 s2 e _ hst ih =>
          intro hs err ha
          have i := ih (fun e he => hs e (by simp [he])) err ha
          obtain rfl := hs e (by simp)
          cases hst with
          | openNode q hq hd => rw [hq] at i; rw [ng_set_self]; exact i
          | skip q hq hd => rw [hq] at i; rw [ng_set_self]; exact i
          | absent q hq hd => rw [hq] at i; rw [ng_set_self]; exact i
          | openMixin q hq hd => rw [hq] at i; rw [ng_set_self]; exact i
          | encode q hq hd => rw [hq] at i; rw [ng_set_self]; exact i
          | write q n hq hd => rw [hq] at i; rw [ng_set_self]; exact i
          | close q hq => rw [hq] at i; rw [ng_set_self]; exact i
      have he := herr h5 hm _ ⟨_, ng_set_self _ _ _⟩
      rw [hq] at he
      refine ⟨he.symm, fun path => ?_⟩
      exact doAll_leaves hw.symm path

end Verif.Props
