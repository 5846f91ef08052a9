import Verif.Lemmas.Prog
import Verif.Spec.Heap
/-!
# Programs that do not depend on where their objects are

`Par`: two programs do the same, operation by operation, if the objects one has created (left of the pairs) are read as those the other has created
(right) and the objects of `P` are the same for both.
-/

namespace Verif.Par
open Verif Verif.Spec

abbrev Pairs := List (Nat × Nat)

/-- The created objects correspond one to one, and are not of `P`. -/
structure Wf (P : Nat → Prop) (R : Pairs) : Prop where
  left : ∀ a b, (a, b) ∈ R → ¬ P a
  right : ∀ a b, (a, b) ∈ R → ¬ P b
  fun_ : ∀ a b c, (a, b) ∈ R → (a, c) ∈ R → b = c
  inj : ∀ a b c, (a, c) ∈ R → (b, c) ∈ R → a = b

inductive VRel (P : Nat → Prop) (R : Pairs) : HV → HV → Prop
  | imm (i : Imm) : VRel P R (.imm i) (.imm i)
  | own {a b : Nat} (h : (a, b) ∈ R) : VRel P R (.ref a) (.ref b)
  | doc {a : Nat} (h : P a) : VRel P R (.ref a) (.ref a)

/-- The same for a value that is no object of `P`. -/
inductive Own (R : Pairs) : HV → HV → Prop
  | imm (i : Imm) : Own R (.imm i) (.imm i)
  | own {a b : Nat} (h : (a, b) ∈ R) : Own R (.ref a) (.ref b)

def IRel (P : Nat → Prop) (R : Pairs) : List (String × HV) → List (String × HV) → Prop :=
  List.Forall₂ fun e f => e.1 = f.1 ∧ VRel P R e.2 f.2

structure ORel (P : Nat → Prop) (R : Pairs) (o o' : HObj) : Prop where
  kind : o.kind = o'.kind
  items : IRel P R o.items o'.items

inductive Par {α β : Type} (P : Nat → Prop) (Q : Pairs → α → β → Prop) : Pairs → Prog α → Prog β → Prop
  | ret {R : Pairs} {a : α} {b : β} (h : Q R a b) : Par P Q R (.ret a) (.ret b)
  | fail {R : Pairs} (e : HErr) : Par P Q R (.fail e) (.fail e)
  | look {R : Pairs} {a b : Nat} {k : Option HObj → Prog α} {k' : Option HObj → Prog β} (h : VRel P R (.ref a) (.ref b))
      (hk : ∀ o o', ORel P R o o' → Par P Q R (k (some o)) (k' (some o'))) : Par P Q R (.look a k) (.look b k')
  | make {R : Pairs} {o o' : HObj} {k : Nat → Prog α} {k' : Nat → Prog β} (h : ORel P R o o')
      (hk : ∀ a b, Wf P ((a, b) :: R) → Par P Q ((a, b) :: R) (k a) (k' b)) : Par P Q R (.make o k) (.make o' k')
  | add {R : Pairs} {a b : Nat} {s : String} {v w : HV} {k : Bool → Prog α} {k' : Bool → Prog β} (h : (a, b) ∈ R)
      (he : VRel P R v w) (hk : Par P Q R (k true) (k' true)) : Par P Q R (.add a (s, v) k) (.add b (s, w) k')
  | put {R : Pairs} {a b : Nat} {o o' : HObj} {k : Prog α} {k' : Prog β} (h : (a, b) ∈ R) (ho : ORel P R o o') (hk : Par P Q R k k') :
      Par P Q R (.put a o k) (.put b o' k')
  | warn {R : Pairs} (ws : List Warn) {k : Prog α} {k' : Prog β} (hk : Par P Q R k k') : Par P Q R (.warn ws k) (.warn ws k')

variable {α β γ δ : Type} {P : Nat → Prop} {R R' : Pairs}

/-- `R'` knows more. -/
abbrev Sub (R R' : Pairs) : Prop := ∀ p, p ∈ R → p ∈ R'

theorem VRel.mono {x y : HV} (h : VRel P R x y) (hs : Sub R R') : VRel P R' x y := by
  cases h with
  | imm i => exact .imm i
  | own h => exact .own (hs _ h)
  | doc h => exact .doc h

theorem Own.mono {x y : HV} (h : Own R x y) (hs : Sub R R') : Own R' x y := by
  cases h with
  | imm i => exact .imm i
  | own h => exact .own (hs _ h)

theorem Own.rel {x y : HV} (h : Own R x y) : VRel P R x y := by
  cases h with
  | imm i => exact .imm i
  | own h => exact .own h

theorem IRel.mono {l m : List (String × HV)} (h : IRel P R l m) (hs : Sub R R') : IRel P R' l m :=
  List.Forall₂.imp (fun _ _ h => ⟨h.1, h.2.mono hs⟩) h

theorem ORel.mono {o o' : HObj} (h : ORel P R o o') (hs : Sub R R') : ORel P R' o o' := ⟨h.kind, h.items.mono hs⟩

/-- Related objects are the same objects on both sides. -/
theorem VRel.same {a b c d : Nat} (w : Wf P R) (h : VRel P R (.ref a) (.ref b)) (h' : VRel P R (.ref c) (.ref d)) : a = c ↔ b = d := by
  cases h with
  | own h =>
    cases h' with
    | own h' => exact ⟨by rintro rfl; exact w.fun_ _ _ _ h h', by rintro rfl; exact w.inj _ _ _ h h'⟩
    | doc h' => exact ⟨by rintro rfl; exact absurd h' (w.left _ _ h), by rintro rfl; exact absurd h' (w.right _ _ h)⟩
  | doc h =>
    cases h' with
    | own h' => exact ⟨by rintro rfl; exact absurd h (w.left _ _ h'), by rintro rfl; exact absurd h (w.right _ _ h')⟩
    | doc h' => exact Iff.rfl

theorem par_try {Q : Pairs → α → β → Prop} {S : Pairs → γ → δ → Prop} {x : Prog α} {y : Prog β} {f : α → Prog γ} {f' : β → Prog δ}
    {g : HErr → Prog γ} {g' : HErr → Prog δ} (w : Wf P R) (h : Par P Q R x y)
    (hf : ∀ R' a b, Sub R R' → Wf P R' → Q R' a b → Par P S R' (f a) (f' b))
    (hg : ∀ R' e, Sub R R' → Wf P R' → Par P S R' (g e) (g' e)) : Par P S R (x.tryElse f g) (y.tryElse f' g') := by
  induction h with
  | ret h => exact hf _ _ _ (fun _ h => h) w h
  | fail e => exact hg _ e (fun _ h => h) w
  | look h _ ih => exact .look h fun o o' ho => ih o o' ho w hf hg
  | make h _ ih =>
    exact .make h fun a b w' => ih a b w' w' (fun R' _ _ hs => hf R' _ _ fun p hp => hs p (List.mem_cons_of_mem _ hp))
      fun R' e hs => hg R' e fun p hp => hs p (List.mem_cons_of_mem _ hp)
  | add h he _ ih => exact .add h he (ih w hf hg)
  | put h ho _ ih => exact .put h ho (ih w hf hg)
  | warn ws _ ih => exact .warn ws (ih w hf hg)

theorem par_bind {Q : Pairs → α → β → Prop} {S : Pairs → γ → δ → Prop} {x : Prog α} {y : Prog β} {f : α → Prog γ} {f' : β → Prog δ}
    (w : Wf P R) (h : Par P Q R x y) (hf : ∀ R' a b, Sub R R' → Wf P R' → Q R' a b → Par P S R' (f a) (f' b)) :
    Par P S R (x.bind f) (y.bind f') := par_try w h hf fun _ e _ _ => .fail e

theorem par_mono {Q S : Pairs → α → β → Prop} {x : Prog α} {y : Prog β} (h : Par P Q R x y) (hq : ∀ R' a b, Q R' a b → S R' a b) :
    Par P S R x y := by
  induction h with
  | ret h => exact .ret (hq _ _ _ h)
  | fail e => exact .fail e
  | look h _ ih => exact .look h ih
  | make h _ ih => exact .make h ih
  | add h he _ ih => exact .add h he ih
  | put h ho _ ih => exact .put h ho ih
  | warn ws _ ih => exact .warn ws ih

/-- Reading an object. -/
theorem par_read {a b : Nat} (h : VRel P R (.ref a) (.ref b)) : Par P (fun R' o o' => ORel P R' o o') R (Prog.read a) (Prog.read b) :=
  .look h fun _ _ ho => .ret ho

theorem par_alloc {o o' : HObj} (h : ORel P R o o') : Par P (fun R' a b => (a, b) ∈ R') R (Prog.alloc o) (Prog.alloc o') :=
  .make h fun _ _ _ => .ret List.mem_cons_self

/-- A new object is returned. -/
theorem par_new {o o' : HObj} (w : Wf P R) (h : ORel P R o o') :
    Par P (fun R' x y => Own R' x y) R ((Prog.alloc o).bind fun r => Prog.pure (.ref r)) ((Prog.alloc o').bind fun r => Prog.pure (.ref r)) :=
  par_bind w (par_alloc h) fun _ _ _ _ _ hab => .ret (.own hab)

theorem par_append {a b : Nat} {s : String} {v v' : HV} (h : (a, b) ∈ R) (hv : VRel P R v v') :
    Par P (fun _ (_ _ : Unit) => True) R (Prog.append a (s, v)) (Prog.append b (s, v')) := .add h hv (.ret trivial)

theorem par_of (x : Except PyErr α) : Par P (fun _ a b => a = b) R (Prog.ofExcept x) (Prog.ofExcept x) := by
  cases x with
  | ok a => exact .ret rfl
  | error e => exact .fail _

/-! ## What can be read from related objects -/

theorem itemGet_rel {l m : List (String × HV)} (h : IRel P R l m) (k : String) :
    (itemGet l k = none ∧ itemGet m k = none) ∨ ∃ v w, itemGet l k = some v ∧ itemGet m k = some w ∧ VRel P R v w := by
  induction h with
  | nil => exact .inl ⟨rfl, rfl⟩
  | @cons e f l m he _ ih =>
    obtain ⟨k1, v⟩ := e
    obtain ⟨k2, w⟩ := f
    cases (he.1 : k1 = k2)
    unfold itemGet
    by_cases hk : k1 = k
    · rw [if_pos hk, if_pos hk]
      exact .inr ⟨v, w, rfl, rfl, he.2⟩
    · rw [if_neg hk, if_neg hk]
      exact ih

theorem itemSet_rel {l m : List (String × HV)} (h : IRel P R l m) (k : String) {v w : HV} (hv : VRel P R v w) :
    IRel P R (itemSet l k v) (itemSet m k w) := by
  induction h with
  | nil => exact .nil
  | @cons e f l m he ht ih =>
    obtain ⟨k1, v1⟩ := e
    obtain ⟨k2, w1⟩ := f
    cases (he.1 : k1 = k2)
    unfold itemSet
    by_cases hk : k1 = k
    · rw [if_pos hk, if_pos hk]
      exact .cons ⟨rfl, hv⟩ ht
    · rw [if_neg hk, if_neg hk]
      exact .cons he ih

/-! ## Two heaps -/

/-- The heaps of a thread (`h`) and of the same call alone (`g`): the objects of `P` are as they were in `h0`, and the created ones correspond. -/
structure Two (P : Nat → Prop) (h0 : Heap) (R : Pairs) (h g : Heap) : Prop where
  wf : Wf P R
  lh : h0.length ≤ h.length
  lg : h0.length ≤ g.length
  doc : ∀ a o, P a → h0[a]? = some o → h[a]? = some o ∧ g[a]? = some o
  own : ∀ a b, (a, b) ∈ R → h0.length ≤ a ∧ h0.length ≤ b ∧ ∃ o o', h[a]? = some o ∧ g[b]? = some o' ∧ ORel P R o o'

/-- `P` contains only objects, and with each all it refers to. -/
structure Closed (P : Nat → Prop) (h0 : Heap) : Prop where
  mem : ∀ a, P a → ∃ o, h0[a]? = some o
  refs : ∀ a o e b, P a → h0[a]? = some o → e ∈ o.items → e.2 = .ref b → P b

theorem lt_of_get {h : Heap} {a : Nat} {o : HObj} (ho : h[a]? = some o) : a < h.length := (List.getElem?_eq_some_iff.1 ho).1

theorem orel_refl {h0 : Heap} (c : Closed P h0) {a : Nat} {o : HObj} (hp : P a) (ho : h0[a]? = some o) : ORel P R o o := by
  refine ⟨rfl, ?_⟩
  have h : ∀ l : List (String × HV), (∀ e ∈ l, e ∈ o.items) → IRel P R l l := fun l => by
    induction l with
    | nil => exact fun _ => .nil
    | cons e l ih =>
      refine fun hl => .cons ⟨rfl, ?_⟩ (ih fun e he => hl e (List.mem_cons_of_mem _ he))
      cases he : e.2 with
      | imm i => exact .imm i
      | ref b => exact .doc (c.refs a o e b hp ho (hl e List.mem_cons_self) he)
  exact h _ fun _ h => h

theorem two_get {h0 h g : Heap} (c : Closed P h0) (t : Two P h0 R h g) {a b : Nat} (hv : VRel P R (.ref a) (.ref b)) :
    ∃ o o', h[a]? = some o ∧ g[b]? = some o' ∧ ORel P R o o' := by
  cases hv with
  | own hm => exact (t.own a b hm).2.2
  | doc hp =>
    obtain ⟨o, ho⟩ := c.mem a hp
    exact ⟨o, o, (t.doc a o hp ho).1, (t.doc a o hp ho).2, orel_refl c hp ho⟩

/-- One object is changed on both sides. -/
theorem two_set {h0 h g : Heap} (t : Two P h0 R h g) {a b : Nat} (hm : (a, b) ∈ R) {o o' : HObj} (ho : ORel P R o o') :
    Two P h0 R (h.set a o) (g.set b o') := by
  have h1 := t.own a b hm
  obtain ⟨ha, hb, p, p', hp, hp', _⟩ := h1
  refine ⟨t.wf, by simpa using t.lh, by simpa using t.lg, fun c q hc hq => ?_, fun c d hcd => ?_⟩
  · have hlt := lt_of_get hq
    rw [List.getElem?_set_ne (by omega), List.getElem?_set_ne (by omega)]
    exact t.doc c q hc hq
  · obtain ⟨hc, hd, q, q', hq, hq', hqq⟩ := t.own c d hcd
    refine ⟨hc, hd, ?_⟩
    have hsame := VRel.same t.wf (.own hm : VRel P R (.ref a) (.ref b)) (.own hcd : VRel P R (.ref c) (.ref d))
    by_cases e : a = c
    · have e2 := hsame.1 e
      subst e
      subst e2
      exact ⟨o, o', by rw [List.getElem?_set_self (lt_of_get hp)], by rw [List.getElem?_set_self (lt_of_get hp')], ho⟩
    · have e2 : b ≠ d := fun e2 => e (hsame.2 e2)
      exact ⟨q, q', by rw [List.getElem?_set_ne e]; exact hq, by rw [List.getElem?_set_ne e2]; exact hq', hqq⟩

/-- One object is created on both sides. -/
theorem two_make {h0 h g : Heap} (c : Closed P h0) (t : Two P h0 R h g) {o o' : HObj} (ho : ORel P R o o') :
    Two P h0 ((h.length, g.length) :: R) (h ++ [o]) (g ++ [o']) := by
  have old : ∀ a b, (a, b) ∈ R → a < h.length ∧ b < g.length := fun a b hm => by
    obtain ⟨_, _, p, p', hp, hp', _⟩ := t.own a b hm
    exact ⟨lt_of_get hp, lt_of_get hp'⟩
  have hP : ∀ a, P a → a < h0.length := fun a ha => by
    obtain ⟨p, hp⟩ := c.mem a ha
    exact lt_of_get hp
  refine ⟨⟨fun a b hm ha => ?_, fun a b hm ha => ?_, fun a b d hm hn => ?_, fun a b d hm hn => ?_⟩, ?_, ?_, fun a p ha hp => ?_, fun a b hm => ?_⟩
  · rcases List.mem_cons.1 hm with e | hm
    · cases e; have := hP _ ha; have := t.lh; omega
    · exact t.wf.left a b hm ha
  · rcases List.mem_cons.1 hm with e | hm
    · cases e; have := hP _ ha; have := t.lg; omega
    · exact t.wf.right a b hm ha
  · rcases List.mem_cons.1 hm with e | hm
    · cases e
      rcases List.mem_cons.1 hn with e | hn
      · cases e; rfl
      · exact absurd (old _ _ hn).1 (Nat.lt_irrefl _)
    · rcases List.mem_cons.1 hn with e | hn
      · cases e; exact absurd (old _ _ hm).1 (Nat.lt_irrefl _)
      · exact t.wf.fun_ a b d hm hn
  · rcases List.mem_cons.1 hm with e | hm
    · cases e
      rcases List.mem_cons.1 hn with e | hn
      · cases e; rfl
      · exact absurd (old _ _ hn).2 (Nat.lt_irrefl _)
    · rcases List.mem_cons.1 hn with e | hn
      · cases e; exact absurd (old _ _ hm).2 (Nat.lt_irrefl _)
      · exact t.wf.inj a b d hm hn
  · have := t.lh; simp; omega
  · have := t.lg; simp; omega
  · have := t.doc a p ha hp
    rw [List.getElem?_append_left (lt_of_get this.1), List.getElem?_append_left (lt_of_get this.2)]
    exact this
  · rcases List.mem_cons.1 hm with e | hm
    · cases e
      exact ⟨t.lh, t.lg, o, o', by simp, by simp, ho.mono fun _ h => List.mem_cons_of_mem _ h⟩
    · obtain ⟨h1, h2, p, p', hp, hp', hpp⟩ := t.own a b hm
      refine ⟨h1, h2, p, p', ?_, ?_, hpp.mono fun _ h => List.mem_cons_of_mem _ h⟩
      · rw [List.getElem?_append_left (lt_of_get hp)]; exact hp
      · rw [List.getElem?_append_left (lt_of_get hp')]; exact hp'

/-- A step of one is a step of the other. -/
theorem par_next {h0 h g h' : Heap} {Q : Pairs → α → β → Prop} {x x' : Prog α} {y : Prog β} {new : List Nat} {ws : List Warn}
    (c : Closed P h0) (hp : Par P Q R x y) (t : Two P h0 R h g) (hn : x.next h = some (h', x', new, ws)) :
    ∃ R' g' y' new', y.next g = some (g', y', new', ws) ∧ Par P Q R' x' y' ∧ Two P h0 R' h' g' ∧ ∀ a b, (a, b) ∈ R' → (a, b) ∈ R ∨ a ∈ new := by
  cases hp with
  | ret h => cases hn
  | fail e => cases hn
  | look hv hk =>
    cases hn
    obtain ⟨o, o', ho, ho', hoo⟩ := two_get c t hv
    refine ⟨R, g, _, [], rfl, ?_, t, fun _ _ h => .inl h⟩
    rw [ho, ho']
    exact hk o o' hoo
  | make ho hk =>
    cases hn
    have ht := two_make c t ho
    refine ⟨_, _, _, _, rfl, hk _ _ ht.wf, ht, fun a b hm => ?_⟩
    rcases List.mem_cons.1 hm with e | hm
    · cases e; exact .inr (by simp)
    · exact .inl hm
  | @add _ a b s v w k k' hm he hk =>
    obtain ⟨_, _, o, o', ho, ho', hoo⟩ := t.own a b hm
    simp only [Prog.next, ho] at hn
    cases hn
    have hi : IRel P R (o.items ++ [(s, v)]) (o'.items ++ [(s, w)]) := List.rel_append hoo.items (.cons ⟨rfl, he⟩ .nil)
    have hset := two_set (o := { o with items := o.items ++ [(s, v)] }) (o' := { o' with items := o'.items ++ [(s, w)] }) t hm ⟨hoo.kind, hi⟩
    exact ⟨R, g.set b { o' with items := o'.items ++ [(s, w)] }, k' true, [], by simp only [Prog.next, ho'], hk, hset, fun _ _ h => .inl h⟩
  | put hm ho hk =>
    cases hn
    exact ⟨R, _, _, [], rfl, hk, two_set t hm ho, fun _ _ h => .inl h⟩
  | warn ws hk =>
    cases hn
    exact ⟨R, g, _, [], rfl, hk, t, fun _ _ h => .inl h⟩

/-- Steps of others. -/
theorem two_other {h0 h g h' : Heap} (t : Two P h0 R h g) (hl : h.length ≤ h'.length)
    (hk : ∀ a, a < h.length → (P a ∧ a < h0.length) ∨ (∃ b, (a, b) ∈ R) → h'[a]? = h[a]?) : Two P h0 R h' g where
  wf := t.wf
  lh := Nat.le_trans t.lh hl
  lg := t.lg
  doc a o hp ho := by
    have := t.doc a o hp ho
    rw [hk a (lt_of_get this.1) (.inl ⟨hp, lt_of_get ho⟩)]
    exact this
  own a b hm := by
    obtain ⟨h1, h2, o, o', ho, ho', hoo⟩ := t.own a b hm
    exact ⟨h1, h2, o, o', by rw [hk a (lt_of_get ho) (.inr ⟨b, hm⟩)]; exact ho, ho', hoo⟩

/-- Related values look the same. -/
theorem two_observe {h0 h g : Heap} (c : Closed P h0) (t : Two P h0 R h g) (n : Nat) : ∀ x y, VRel P R x y → observe n h x = observe n g y := by
  induction n with
  | zero => intro _ _ _; rfl
  | succ n ih =>
    intro x y hv
    cases x with
    | imm i => cases hv; rfl
    | ref a =>
      obtain ⟨b, rfl⟩ : ∃ b, y = .ref b := by cases hv <;> exact ⟨_, rfl⟩
      obtain ⟨o, o', ho, ho', hoo⟩ := two_get c t hv
      simp only [observe, ho, ho', hoo.kind]
      have : ∀ l m, IRel P R l m → (l.map fun e => (e.1, observe n h e.2)) = m.map fun e => (e.1, observe n g e.2) := fun l m hlm => by
        induction hlm with
        | nil => rfl
        | cons he _ ih' => simp only [List.map_cons, ih', he.1, ih _ _ he.2]
      exact congrArg _ (this _ _ hoo.items)

end Verif.Par
