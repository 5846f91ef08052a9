import Verif.Model.FieldsProg
import Verif.Props.Cache
import Verif.Lemmas.HeapMdSafe
import Verif.Lemmas.HeapProgSafe
/-! # Programs with the class-field cache, and without it -/

namespace Verif.FieldsProg
open Verif
open FProg (lift)

variable {α β : Type} (user : Nat → List Field) (b : Bool)

/-- The same program with the fields at hand, where the setting is always `b`. -/
def FProg.erase : FProg α → Prog α
  | .ret a => .ret a
  | .fail e => .fail e
  | .look a k => .look a fun o => (k o).erase
  | .make o k => .make o fun a => (k a).erase
  | .add a e k => .add a e fun b => (k b).erase
  | .put a o k => .put a o k.erase
  | .warn ws k => .warn ws k.erase
  | .fields c k => (k (c.fields user)).erase
  | .skipped w k => .warn (if b then [w] else []) k.erase

theorem erase_lift (x : Prog α) : (lift x).erase user b = x := by
  induction x with
  | ret a => rfl
  | fail e => rfl
  | look a k ih => exact congrArg _ (funext ih)
  | make o k ih => exact congrArg _ (funext ih)
  | add a e k ih => exact congrArg _ (funext ih)
  | put a o k ih => exact congrArg _ ih
  | warn ws k ih => exact congrArg _ ih

theorem erase_try (x : FProg α) (f : α → FProg β) (g : HErr → FProg β) :
    (x.tryElse f g).erase user b = (x.erase user b).tryElse (fun a => (f a).erase user b) fun e => (g e).erase user b := by
  induction x with
  | ret a => rfl
  | fail e => rfl
  | look a k ih => exact congrArg _ (funext ih)
  | make o k ih => exact congrArg _ (funext ih)
  | add a e k ih => exact congrArg _ (funext ih)
  | put a o k ih => exact congrArg _ ih
  | warn ws k ih => exact congrArg _ ih
  | fields c k ih => exact ih _
  | skipped w k ih => exact congrArg _ ih

theorem erase_bind (x : FProg α) (f : α → FProg β) : (x.bind f).erase user b = (x.erase user b).bind fun a => (f a).erase user b :=
  erase_try user b x f .fail

theorem bind_congr {x x' : Prog α} {f f' : α → Prog β} (h : x = x') (hf : ∀ a, f a = f' a) : x.bind f = x'.bind f' := by
  rw [h, funext hf]

theorem erase_base (c : Cls) (t : Tag) (v : HV) : (baseFromDict c t v).erase user b = HeapProg.baseFromDict t (c.fields user) v :=
  erase_lift user b _

theorem erase_attrsStep (c : Cls) (afs : Option (List Field)) (a : Cls) (ha : ∀ fs, afs = some fs → a.fields user = fs)
    (hc : afs.isSome = true → ((c.fields user).any fun f => f.name == "attrs") = true) (x : Nat) :
    (attrsStep c (afs.map fun _ => a) x).erase user b = HeapProg.attrsStep afs x := by
  unfold attrsStep HeapProg.attrsStep
  rw [erase_bind, erase_lift]
  refine bind_congr rfl fun o => ?_
  cases itemGet o.items "attrs" with
  | none => rfl
  | some v =>
    show FProg.erase user b (if _ then _ else _) = _
    cases afs with
    | none => split <;> rfl
    | some fs =>
      rw [if_pos (hc rfl)]
      show FProg.erase user b ((baseFromDict a .attrs v).bind _) = _
      rw [erase_bind, erase_base, ha fs rfl]
      exact bind_congr rfl fun i => erase_lift user b _

theorem mark_attrs (c : MarkCls) (h : c.attrsFields.isSome = true) : (c.fields.any fun f => f.name == "attrs") = true := by
  cases c <;> first | rfl | cases h

theorem node_attrs (c : NodeCls) (h : c.attrsFields.isSome = true) : (c.fields.any fun f => f.name == "attrs") = true := by
  revert h
  cases c <;> decide

theorem erase_markFromDict (fuel : Nat) (c : MarkCls) (v : HV) : (markFromDict fuel c v).erase user b = HeapProg.markFromDict fuel c v := by
  unfold markFromDict HeapProg.markFromDict
  rw [erase_bind, erase_lift]
  refine bind_congr rfl fun x => ?_
  rw [erase_bind, erase_attrsStep user b (.mark c) c.attrsFields (.markAttrs c) (fun fs h => by show c.attrsFields.getD [] = fs; rw [h]; rfl) (mark_attrs c)]
  exact bind_congr rfl fun _ => erase_base user b _ _ _

theorem erase_parseMark (fuel : Nat) (v : HV) : (parseMark fuel v).erase user b = HeapProg.parseMark fuel v := by
  unfold parseMark HeapProg.parseMark
  rw [erase_bind, erase_lift]
  exact bind_congr rfl fun c => erase_markFromDict user b fuel c v

theorem erase_skip (m : FProg HV) : (skip m).erase user b = HeapProg.skip b (m.erase user b) := by
  unfold skip HeapProg.skip
  rw [erase_try]
  congr 1
  funext e
  cases e with
  | py e => cases e <;> rfl
  | _ => rfl

theorem erase_loop {f : HV → FProg HV} {g : HV → Prog HV} (h : ∀ v, (f v).erase user b = g v) (l : List (String × HV)) :
    (loop f l).erase user b = HeapProg.loop b g l := by
  induction l with
  | nil => rfl
  | cons e rest ih =>
    unfold loop HeapProg.loop
    rw [erase_bind, erase_skip, h]
    refine bind_congr rfl fun o => ?_
    rw [erase_bind, ih]
    rfl

theorem erase_listStep (key : String) {f : HV → FProg HV} {g : HV → Prog HV} (h : ∀ v, (f v).erase user b = g v) (x : Nat) :
    (listStep key f x).erase user b = HeapProg.listStep b key g x := by
  unfold listStep HeapProg.listStep
  rw [erase_bind, erase_lift]
  refine bind_congr rfl fun o => ?_
  cases itemGet o.items key with
  | none => rfl
  | some v =>
    cases v with
    | imm i => rfl
    | ref l =>
      simp only
      rw [erase_bind, erase_lift]
      refine bind_congr rfl fun lo => ?_
      cases lo.kind with
      | list =>
        simp only
        rw [erase_bind, erase_loop user b h]
        refine bind_congr rfl fun vs => ?_
        rw [erase_bind, erase_lift]
        exact bind_congr rfl fun n => erase_lift user b _
      | _ => rfl

theorem erase_nodeFromDict (fuel : Nat) {f : HV → FProg HV} {g : HV → Prog HV} (h : ∀ v, (f v).erase user b = g v) (c : NodeCls) (v : HV) :
    (nodeFromDict fuel f c v).erase user b = HeapProg.nodeFromDict fuel b g c v := by
  unfold nodeFromDict HeapProg.nodeFromDict
  rw [erase_bind, erase_lift]
  refine bind_congr rfl fun x => ?_
  rw [erase_bind, erase_attrsStep user b (.node c) c.attrsFields (.nodeAttrs c) (fun fs h => by show c.attrsFields.getD [] = fs; rw [h]; rfl) (node_attrs c)]
  refine bind_congr rfl fun _ => ?_
  rw [erase_bind, erase_listStep user b _ h]
  refine bind_congr rfl fun _ => ?_
  rw [erase_bind, erase_listStep user b _ (erase_parseMark user b fuel)]
  exact bind_congr rfl fun _ => erase_base user b _ _ _

theorem erase_parseNode (fuel : Nat) (v : HV) : (parseNode fuel v).erase user b = HeapProg.parseNode fuel b v := by
  induction fuel generalizing v with
  | zero => rfl
  | succ fuel ih =>
    unfold parseNode HeapProg.parseNode
    rw [erase_bind, erase_lift]
    exact bind_congr rfl fun c => erase_nodeFromDict user b _ ih c v

theorem erase_prog (env : Env) (fuel : Nat) (call : Call) : (call.prog env fuel).erase user b = (call.const b).prog env fuel := by
  cases call with
  | markdown x level ig => exact erase_lift user b _
  | parse v => exact erase_parseNode user b fuel v
  | parseMark v => exact erase_parseMark user b fuel v
  | node c v => exact erase_nodeFromDict user b fuel (erase_parseNode user b fuel) c v
  | mark c v => exact erase_markFromDict user b fuel c v
  | toDict x => exact erase_lift user b _

/-! ## Only skipped children are logged -/

def FProg.Quiet : FProg α → Prop
  | .ret _ => True
  | .fail _ => True
  | .look _ k => ∀ o, (k o).Quiet
  | .make _ k => ∀ a, (k a).Quiet
  | .add _ _ k => ∀ x, (k x).Quiet
  | .put _ _ k => k.Quiet
  | .warn _ _ => False
  | .fields _ k => ∀ fs, (k fs).Quiet
  | .skipped _ k => k.Quiet

theorem quiet_lift {x : Prog α} : ∀ {own : Nat → Prop}, x.Writes False own → (lift x).Quiet := by
  induction x with
  | ret a => exact fun _ => trivial
  | fail e => exact fun _ => trivial
  | look a k ih => exact fun h o => ih o (h o)
  | make o k ih => exact fun h a => ih a (h a)
  | add a e k ih => exact fun h x => ih x (h.2 x)
  | put a o k ih => exact fun h => ih h.2
  | warn ws k ih => exact fun h => h.1

theorem quiet_keep {x : Prog α} (h : HeapMd.Keep False (fun _ => True) x) : (lift x).Quiet := quiet_lift (h (fun _ => True) fun _ h => h)

theorem quiet_try {x : FProg α} {f : α → FProg β} {g : HErr → FProg β} (h : x.Quiet) (hf : ∀ a, (f a).Quiet) (hg : ∀ e, (g e).Quiet) :
    (x.tryElse f g).Quiet := by
  induction x with
  | ret a => exact hf a
  | fail e => exact hg e
  | look a k ih => exact fun o => ih o (h o)
  | make o k ih => exact fun a => ih a (h a)
  | add a e k ih => exact fun x => ih x (h x)
  | put a o k ih => exact ih h
  | warn ws k ih => exact h.elim
  | fields c k ih => exact fun fs => ih fs (h fs)
  | skipped w k ih => exact ih h

theorem quiet_bind {x : FProg α} {f : α → FProg β} (h : x.Quiet) (hf : ∀ a, (f a).Quiet) : (x.bind f).Quiet := quiet_try h hf fun _ => trivial

theorem quiet_read (a : Nat) : (lift (Prog.read a)).Quiet := quiet_keep (HeapMd.keep_read a)

theorem quiet_set (a : Nat) (k : String) (v : HV) : (lift (HeapProg.setItem a k v)).Quiet := quiet_keep (HeapProg.keep_set trivial k v)

theorem quiet_base (c : Cls) (t : Tag) (v : HV) : (baseFromDict c t v).Quiet := fun _ => quiet_keep (HeapProg.keep_baseFromDict _ _ _)

theorem bind_ret (x : Prog α) : x.bind .ret = x := by
  show x.tryElse .ret .fail = x
  induction x with
  | ret a => rfl
  | fail e => rfl
  | look a k ih => exact congrArg _ (funext ih)
  | make o k ih => exact congrArg _ (funext ih)
  | add a e k ih => exact congrArg _ (funext ih)
  | put a o k ih => exact congrArg _ ih
  | warn ws k ih => exact congrArg _ ih

theorem quiet_copy (fuel : Nat) (v : HV) : (lift (HeapProg.copyDict fuel v)).Quiet := by
  have h := HeapProg.keep_copyDict (α := Nat) (loud := False) (w := fun _ => True) fuel v (f := .ret) fun _ => HeapMd.keep_pure _
  rw [bind_ret] at h
  exact quiet_keep h

theorem quiet_attrsStep (c : Cls) (a : Option Cls) (x : Nat) : (attrsStep c a x).Quiet := by
  refine quiet_bind (quiet_read x) fun o => ?_
  split
  · trivial
  · intro fs
    show FProg.Quiet (if _ then _ else _)
    split
    · cases a with
      | none => trivial
      | some a => exact quiet_bind (quiet_base _ _ _) fun _ => quiet_set _ _ _
    · trivial

theorem quiet_markFromDict (fuel : Nat) (c : MarkCls) (v : HV) : (markFromDict fuel c v).Quiet :=
  quiet_bind (quiet_copy fuel v) fun _ => quiet_bind (quiet_attrsStep _ _ _) fun _ => quiet_base _ _ _

theorem quiet_parseMark (fuel : Nat) (v : HV) : (parseMark fuel v).Quiet :=
  quiet_bind (quiet_keep (HeapProg.keep_registry _ _ _)) fun c => quiet_markFromDict fuel c v

theorem quiet_skip {m : FProg HV} (h : m.Quiet) : (skip m).Quiet := by
  refine quiet_try h (fun _ => trivial) fun e => ?_
  split <;> trivial

theorem quiet_loop {f : HV → FProg HV} (hf : ∀ v, (f v).Quiet) (l : List (String × HV)) : (loop f l).Quiet := by
  induction l with
  | nil => trivial
  | cons e rest ih => exact quiet_bind (quiet_skip (hf _)) fun _ => quiet_bind ih fun _ => trivial

theorem quiet_listStep (key : String) {f : HV → FProg HV} (hf : ∀ v, (f v).Quiet) (x : Nat) : (listStep key f x).Quiet := by
  refine quiet_bind (quiet_read x) fun o => ?_
  split
  · refine quiet_bind (quiet_read _) fun lo => ?_
    split
    · exact quiet_bind (quiet_loop hf _) fun _ => quiet_bind (fun _ => trivial) fun _ => quiet_set _ _ _
    · trivial
  · trivial

theorem quiet_nodeFromDict (fuel : Nat) {f : HV → FProg HV} (hf : ∀ v, (f v).Quiet) (c : NodeCls) (v : HV) : (nodeFromDict fuel f c v).Quiet :=
  quiet_bind (quiet_copy fuel v) fun _ => quiet_bind (quiet_attrsStep _ _ _) fun _ => quiet_bind (quiet_listStep _ hf _) fun _ =>
    quiet_bind (quiet_listStep _ (quiet_parseMark fuel) _) fun _ => quiet_base _ _ _

theorem quiet_parseNode : ∀ (fuel : Nat) (v : HV), (parseNode fuel v).Quiet
  | 0, _ => trivial
  | fuel + 1, v => quiet_bind (quiet_keep (HeapProg.keep_registry _ _ _)) fun c => quiet_nodeFromDict (fuel + 1) (quiet_parseNode fuel) c v

theorem quiet_prog (env : Env) (fuel : Nat) (call : Call) : (call.prog env fuel).Quiet := by
  cases call with
  | markdown x level ig => exact quiet_keep (HeapMd.keep_mono (HeapMd.keep_markdown env fuel x level ig))
  | parse v => exact quiet_parseNode fuel v
  | parseMark v => exact quiet_parseMark fuel v
  | node c v => exact quiet_nodeFromDict fuel (quiet_parseNode fuel) c v
  | mark c v => exact quiet_markFromDict fuel c v
  | toDict x => exact quiet_keep (HeapProg.keep_toDict fuel x _)

/-! ## One step -/

abbrev MemOk (m : Mem) : Prop := Verif.Props.CacheOk (Cls.fields user) m

/-- How far the next operation is fits the program. -/
def PosOk (m : Mem) (p : FProg α) : At → Prop
  | .start => True
  | .fields (.start _) => False
  | .fields (.missed c) => ∃ k, p = .fields c k
  | .fields (.filled c) => (m.get c).isSome = true ∧ ∃ k, p = .fields c k
  | .fields (.done _ _) => False
  | .fields (.raised _) => False
  | .on => ∃ w k, p = .skipped w k

/-- The cache at a later moment. -/
def Later (m m' : Mem) : Prop := ∀ p, Verif.Props.PcOk (Cls.fields user) m p → Verif.Props.PcOk (Cls.fields user) m' p

theorem PosOk.later {m m' : Mem} {p : FProg α} {pos : At} (h : PosOk m p pos) (hl : Later user m m') : PosOk m' p pos := by
  cases pos with
  | start => trivial
  | on => exact h
  | fields pc =>
    cases pc with
    | filled c => exact ⟨hl (.filled c) h.1, h.2⟩
    | start c => exact h
    | missed c => exact h
    | done c o => exact h
    | raised c => exact h

/-- The children logged. -/
def logged (l : List (Warn × Bool)) : List Warn := (l.filter (·.2)).map (·.1)

/-- What is logged for skipped children where the setting is always `b`. -/
def wouldLog (l : List (Warn × Bool)) : List Warn := if b then l.map (·.1) else []

theorem logged_append (l m : List (Warn × Bool)) : logged (l ++ m) = logged l ++ logged m := by simp [logged]
theorem wouldLog_append (l m : List (Warn × Bool)) : wouldLog b (l ++ m) = wouldLog b l ++ wouldLog b m := by unfold wouldLog; split <;> simp
theorem wouldLog_nil : wouldLog b [] = [] := by unfold wouldLog; split <;> rfl

/-- What holds after a step. -/
structure StepOk (m : Mem) (h : Heap) (p : FProg α) (n : Now α) : Prop where
  mem : MemOk user n.mem
  later : Later user m n.mem
  pos : PosOk n.mem n.prog n.pos
  quiet : n.prog.Quiet
  log : n.log = logged n.skips
  /-- a step of the program without the cache where the setting does not change, or one that nobody sees -/
  same : ∀ b, (p.erase user b).next h = some (n.heap, n.prog.erase user b, n.new, wouldLog b n.skips) ∨
    n.heap = h ∧ n.new = [] ∧ n.skips = [] ∧ n.prog.erase user b = p.erase user b

theorem next_erase {m : Mem} {h : Heap} {p : FProg α} {pos : At} {warn : Bool} {n : Now α}
    (hm : MemOk user m) (ha : PosOk m p pos) (hq : p.Quiet) (hn : p.next (Cls.fields user) h m warn pos = some n) : StepOk user m h p n := by
  cases p with
  | ret a => cases hn
  | fail e => cases hn
  | look a k => cases hn; exact ⟨hm, fun _ h => h, trivial, hq _, rfl, fun b => .inl (by rw [wouldLog_nil]; rfl)⟩
  | make o k => cases hn; exact ⟨hm, fun _ h => h, trivial, hq _, rfl, fun b => .inl (by rw [wouldLog_nil]; rfl)⟩
  | put a o k => cases hn; exact ⟨hm, fun _ h => h, trivial, hq, rfl, fun b => .inl (by rw [wouldLog_nil]; rfl)⟩
  | warn ws k => exact hq.elim
  | add a e k =>
    simp only [FProg.next] at hn
    cases ho : h[a]? with
    | none =>
      rw [ho] at hn; cases hn
      refine ⟨hm, fun _ h => h, trivial, hq _, rfl, fun b => .inl ?_⟩
      simp only [FProg.erase, Prog.next, ho, wouldLog_nil]
    | some o =>
      rw [ho] at hn; cases hn
      refine ⟨hm, fun _ h => h, trivial, hq _, rfl, fun b => .inl ?_⟩
      simp only [FProg.erase, Prog.next, ho, wouldLog_nil]
  | skipped w k =>
    have start : (if warn then some (⟨h, m, .skipped w k, .on, [], [], []⟩ : Now α) else some ⟨h, m, k, .start, [], [], [(w, false)]⟩) = some n →
        StepOk user m h (.skipped w k) n := fun hn => by
      cases warn with
      | true => cases hn; exact ⟨hm, fun _ h => h, ⟨w, k, rfl⟩, hq, rfl, fun b => .inr ⟨rfl, rfl, rfl, rfl⟩⟩
      | false => cases hn; exact ⟨hm, fun _ h => h, trivial, hq, rfl, fun b => .inl (by cases b <;> rfl)⟩
    cases pos with
    | on => cases hn; exact ⟨hm, fun _ h => h, trivial, hq, rfl, fun b => .inl (by cases b <;> rfl)⟩
    | start => exact start hn
    | fields pc => exact start hn
  | fields c k =>
    have hpc : Verif.Props.PcOk (Cls.fields user) m (FProg.pcOf c pos) ∧
        (FProg.pcOf c pos = .start c ∨ FProg.pcOf c pos = .missed c ∨ FProg.pcOf c pos = .filled c) := by
      cases pos with
      | start => exact ⟨trivial, .inl rfl⟩
      | on => exact ⟨trivial, .inl rfl⟩
      | fields pc =>
        cases pc with
        | start _ => exact ha.elim
        | missed _ => obtain ⟨_, h⟩ := ha; cases h; exact ⟨trivial, .inr (.inl rfl)⟩
        | filled _ => obtain ⟨h0, _, h⟩ := ha; cases h; exact ⟨h0, .inr (.inr rfl)⟩
        | done _ _ => exact ha.elim
        | raised _ => exact ha.elim
    obtain ⟨hok, hcls⟩ := hpc
    obtain ⟨h1, h2, h3⟩ := Verif.Props.step_ok hm hok
    simp only [FProg.next] at hn
    have done : ∀ (m' : Mem) (o : Nat), Cache.step (Cls.fields user) m (FProg.pcOf c pos) = (m', .done c o) →
        (match m'.objs[o]? with
          | some fs => some (⟨h, m', k fs, .start, [], [], []⟩ : Now α)
          | none => some ⟨h, m', FProg.fail (.py .keyError), .start, [], [], []⟩) = some n →
        StepOk user m h (.fields c k) n := fun m' o hs hr => by
      rw [hs] at h1 h2 h3
      have h4 : m'.objs[o]? = some (c.fields user) := h2
      rw [h4] at hr
      cases hr
      exact ⟨h1, h3, trivial, hq _, rfl, fun b => .inr ⟨rfl, rfl, rfl, rfl⟩⟩
    rcases hcls with hs | hs | hs
    · rw [hs] at hn h1 h2 h3 done
      unfold Cache.step at hn h1 h2 h3 done
      cases hg : m.get c with
      | none =>
        simp only [hg] at hn
        cases hn
        exact ⟨hm, fun _ h => h, ⟨k, rfl⟩, hq, rfl, fun b => .inr ⟨rfl, rfl, rfl, rfl⟩⟩
      | some o =>
        simp only [hg] at hn done
        exact done m o rfl hn
    · rw [hs] at hn h1 h2 h3
      simp only [Cache.step] at hn h1 h2 h3
      cases hn
      exact ⟨h1, h3, ⟨h2, k, rfl⟩, hq, rfl, fun b => .inr ⟨rfl, rfl, rfl, rfl⟩⟩
    · rw [hs] at hn h1 h2 h3 done hok
      unfold Cache.step at hn h1 h2 h3 done
      cases hg : m.get c with
      | none =>
        have : (m.get c).isSome = true := hok
        rw [hg] at this
        cases this
      | some o =>
        simp only [hg] at hn done
        exact done m o rfl hn

/-! ## Histories -/

/-- The thread without the cache, where the setting is always `b`. -/
def Thread.erase (t : Thread) : Threads.Thread := ⟨t.fuel, t.call.const b, t.prog.erase user b, t.own, wouldLog b t.skips, t.seen, t.doc⟩

theorem over_erase {t : Thread} (h : t.Over) : (t.erase user b).Over := by
  rcases h with ⟨r, h⟩ | ⟨e, h⟩
  · exact .inl ⟨r, by simp only [Thread.erase, h, FProg.erase]⟩
  · exact .inr ⟨e, by simp only [Thread.erase, h, FProg.erase]⟩

def Config.erase (c : Config) : Threads.Config := ⟨c.heap, c.threads.map (Thread.erase user b)⟩

theorem map_eraseIdx {γ δ : Type _} (f : γ → δ) : ∀ (l : List γ) (i : Nat), (l.eraseIdx i).map f = (l.map f).eraseIdx i
  | [], _ => rfl
  | _ :: _, 0 => rfl
  | a :: l, i + 1 => congrArg (f a :: ·) (map_eraseIdx f l i)

/-- What holds of a thread in every configuration. -/
structure ThreadOk (m : Mem) (t : Thread) : Prop where
  pos : PosOk m t.prog t.pos
  quiet : t.prog.Quiet
  log : t.log = logged t.skips

structure FInv (env : Env) (c : Config) : Prop where
  mem : MemOk user c.mem
  thread : ∀ t ∈ c.threads, ThreadOk c.mem t
  asks : ∀ p ∈ c.asks, Verif.Props.PcOk (Cls.fields user) c.mem p
  same : ∀ b, Threads.Reach env (c.erase user b)

theorem reach_erase {env : Env} {c : Config} (h : Reach env user c) : FInv user env c := by
  induction h with
  | start h =>
    exact ⟨fun e he => (List.not_mem_nil he).elim, fun e he => (List.not_mem_nil he).elim, fun e he => (List.not_mem_nil he).elim, fun b => .start h⟩
  | @step c0 c1 hr hs ih =>
    obtain ⟨i1, i2, i3, i4⟩ := ih
    cases hs with
    | call fuel call doc hdoc =>
      refine ⟨i1, fun t ht => ?_, i3, fun b => ?_⟩
      · rcases List.mem_append.1 ht with ht | ht
        · exact i2 t ht
        · cases List.mem_singleton.1 ht; exact ⟨trivial, quiet_prog env fuel call, rfl⟩
      · have h1 := Threads.Called.mk (env := env) (c := c0.erase user b) fuel (call.const b) doc (fun t ht ho a ha => by
          obtain ⟨t0, h0, rfl⟩ := List.mem_map.1 ht
          exact hdoc t0 h0 (fun h => ho (over_erase user b h)) a ha)
        have h2 := Threads.Reach.call (i4 b) h1
        have h3 : (Config.erase user b { c0 with threads := c0.threads ++ [⟨fuel, call, call.prog env fuel, .start, [], [], [], c0.heap, doc⟩] }) =
            ⟨(c0.erase user b).heap, (c0.erase user b).threads ++ [⟨fuel, call.const b, (call.const b).prog env fuel, [], [], (c0.erase user b).heap, doc⟩]⟩ := by
          simp only [Config.erase, List.map_append, List.map_cons, List.map_nil, Thread.erase, erase_prog, wouldLog_nil]
        rw [h3]
        exact h2
    | step i t n ht hn =>
      have htm := List.mem_of_getElem? ht
      obtain ⟨p1, p2, p3⟩ := i2 t htm
      obtain ⟨n1, n2, n3, n4, n5, n6⟩ := next_erase user i1 p1 p2 hn
      refine ⟨n1, fun u hu => ?_, fun p hp => n2 p (i3 p hp), fun b => ?_⟩
      · rcases List.mem_or_eq_of_mem_set hu with hu | rfl
        · obtain ⟨u1, u2, u3⟩ := i2 u hu
          exact ⟨u1.later user n2, u2, u3⟩
        · exact ⟨n3, n4, by simp only [logged_append, p3, n5]⟩
      · have hte : (c0.erase user b).threads[i]? = some (t.erase user b) := by
          show (c0.threads.map _)[i]? = _
          rw [List.getElem?_map, ht]; rfl
        have he : Config.erase user b { c0 with heap := n.heap, mem := n.mem, threads := c0.threads.set i { t with prog := n.prog, pos := n.pos, own := t.own ++ n.new, log := t.log ++ n.log, skips := t.skips ++ n.skips } } =
            ⟨n.heap, (c0.erase user b).threads.set i { t.erase user b with prog := n.prog.erase user b, own := (t.erase user b).own ++ n.new, log := (t.erase user b).log ++ wouldLog b n.skips }⟩ := by
          simp only [Config.erase, List.map_set, Thread.erase, wouldLog_append]
        rw [he]
        rcases n6 b with n6 | ⟨e1, e2, e3, n6⟩
        · exact .step (i4 b) (.mk i (t.erase user b) n.heap _ n.new _ hte n6)
        · have hsame : ({ t.erase user b with prog := n.prog.erase user b, own := (t.erase user b).own ++ n.new, log := (t.erase user b).log ++ wouldLog b n.skips } : Threads.Thread) = t.erase user b := by
            simp only [Thread.erase, n6, e2, e3, wouldLog_nil, List.append_nil]
          rw [hsame, e1]
          obtain ⟨hlt, hget⟩ := List.getElem?_eq_some_iff.1 hte
          rw [← hget, List.set_getElem_self hlt]
          exact i4 b
    | other h' hl hk =>
      exact ⟨i1, i2, i3, fun b => .other (i4 b) (.mk h' hl fun t ht a ha hd => by
        obtain ⟨t0, h0, rfl⟩ := List.mem_map.1 ht
        exact hk t0 h0 a ha hd)⟩
    | left i t ht =>
      refine ⟨i1, fun u hu => i2 u (List.mem_of_mem_eraseIdx hu), i3, fun b => ?_⟩
      have he : Config.erase user b { c0 with threads := c0.threads.eraseIdx i } = ⟨(c0.erase user b).heap, (c0.erase user b).threads.eraseIdx i⟩ := by
        simp only [Config.erase, map_eraseIdx]
      rw [he]
      exact .left (i4 b) (.mk i (t.erase user b) (by show (c0.threads.map _)[i]? = _; rw [List.getElem?_map, ht]; rfl))
    | set w => exact ⟨i1, i2, i3, i4⟩
    | ask k =>
      refine ⟨i1, i2, fun p hp => ?_, i4⟩
      rcases List.mem_append.1 hp with hp | hp
      · exact i3 p hp
      · cases List.mem_singleton.1 hp; trivial
    | answer i p hp =>
      obtain ⟨n1, n2, n3⟩ := Verif.Props.step_ok i1 (i3 p (List.mem_of_getElem? hp))
      refine ⟨n1, fun u hu => ?_, fun q hq => ?_, i4⟩
      · obtain ⟨u1, u2, u3⟩ := i2 u hu
        exact ⟨u1.later user n3, u2, u3⟩
      · rcases List.mem_or_eq_of_mem_set hq with hq | rfl
        · exact n3 q (i3 q hq)
        · exact n2

end Verif.FieldsProg
