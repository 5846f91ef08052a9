import Verif.Lemmas.HeapMdSafe
import Verif.Spec.Heap
/-! # `to_markdown` on the heap does what the value model says -/

namespace Verif.HeapMd
open Verif Verif.Spec

/-- The lists a thread has made, and what is in them. -/
abbrev Own := Nat → Option (List (String × HV))

/-- One of them is new or has changed. -/
def Own.upd (own : Own) (b : Nat) (l : List (String × HV)) : Own := fun a => if a = b then some l else own a

/-- The program gets what it needs from the objects of `P` as they are in `h0` and from the lists it made itself, makes only lists,
appends only to its own, logs nothing, and ends with `Q`: whatever else happens on the heap meanwhile. -/
def wp {α : Type} (P : Nat → Prop) (h0 : Heap) : Prog α → Own → (Except HErr α → Own → Prop) → Prop
  | .ret a, own, Q => Q (.ok a) own
  | .fail e, own, Q => Q (.error e) own
  | .look a k, own, Q => (∃ o, P a ∧ h0[a]? = some o ∧ wp P h0 (k (some o)) own Q) ∨
      ∃ l, own a = some l ∧ wp P h0 (k (some ⟨.list, l⟩)) own Q
  | .make o k, own, Q => o = ⟨.list, []⟩ ∧ ∀ b, h0.length ≤ b → own b = none → wp P h0 (k b) (own.upd b []) Q
  | .add a e k, own, Q => ∃ l, own a = some l ∧ wp P h0 (k true) (own.upd a (l ++ [e])) Q
  | .put _ _ _, _, _ => False
  | .warn _ _, _, _ => False

section
variable {α β : Type} {P : Nat → Prop} {h0 : Heap}

theorem wp_mono {x : Prog α} : ∀ {own : Own} {Q Q' : Except HErr α → Own → Prop}, (∀ r o, Q r o → Q' r o) → wp P h0 x own Q →
    wp P h0 x own Q' := by
  induction x with
  | ret a => exact fun h hx => h _ _ hx
  | fail e => exact fun h hx => h _ _ hx
  | look a k ih =>
    rintro own Q Q' h (⟨o, h1, h2, h3⟩ | ⟨l, h1, h2⟩)
    · exact .inl ⟨o, h1, h2, ih _ h h3⟩
    · exact .inr ⟨l, h1, ih _ h h2⟩
  | make o k ih => exact fun h hx => ⟨hx.1, fun b hb hn => ih b h (hx.2 b hb hn)⟩
  | add a e k ih =>
    rintro own Q Q' h ⟨l, h1, h2⟩
    exact ⟨l, h1, ih true h h2⟩
  | put a o k ih => exact fun _ hx => hx.elim
  | warn ws k ih => exact fun _ hx => hx.elim

theorem wp_try {x : Prog α} {f : α → Prog β} {g : HErr → Prog β} : ∀ {own : Own} {Q : Except HErr β → Own → Prop},
    wp P h0 x own (fun r own' => match r with | .ok a => wp P h0 (f a) own' Q | .error e => wp P h0 (g e) own' Q) →
    wp P h0 (x.tryElse f g) own Q := by
  induction x with
  | ret a => exact fun hx => hx
  | fail e => exact fun hx => hx
  | look a k ih =>
    rintro own Q (⟨o, h1, h2, h3⟩ | ⟨l, h1, h2⟩)
    · exact .inl ⟨o, h1, h2, ih _ h3⟩
    · exact .inr ⟨l, h1, ih _ h2⟩
  | make o k ih => exact fun hx => ⟨hx.1, fun b hb hn => ih b (hx.2 b hb hn)⟩
  | add a e k ih =>
    rintro own Q ⟨l, h1, h2⟩
    exact ⟨l, h1, ih true h2⟩
  | put a o k ih => exact fun hx => hx.elim
  | warn ws k ih => exact fun hx => hx.elim
end

/-- How the program ended: as the value model says. -/
def Out {α β : Type} (R : α → β → Prop) (res : Except HErr β) (r : Except PyErr α) : Prop :=
  match r with
  | .ok v => ∃ x, res = .ok x ∧ R v x
  | .error e => res = .error (.py e)

/-- Whatever else is on the heap: the program gives what the value model says, and leaves alone the lists that were made before. -/
def Sim {α β : Type} (P : Nat → Prop) (h0 : Heap) (R : α → β → Prop) (m : Prog β) (r : Except PyErr α) : Prop :=
  ∀ own : Own, wp P h0 m own fun res own' => (∀ a, own a ≠ none → own' a = own a) ∧ Out R res r

/-- The same for a loop that has appended to the list `lst`. -/
def LoopOut {α : Type} (R : α → HV → Prop) (lst : Nat) (acc : List (String × HV)) (res : Except HErr Unit) (own' : Own)
    (r : Except PyErr (List α)) : Prop :=
  match r with
  | .ok vs => res = .ok () ∧ ∃ items, own' lst = some (acc ++ items) ∧ List.Forall₂ (fun v (e : String × HV) => R v e.2) vs items
  | .error e => res = .error (.py e)

def LoopSim {α : Type} (P : Nat → Prop) (h0 : Heap) (R : α → HV → Prop) (lst : Nat) (m : Prog Unit) (r : Except PyErr (List α)) : Prop :=
  ∀ (own : Own) acc, own lst = some acc →
    wp P h0 m own fun res own' => (∀ a, own a ≠ none → a ≠ lst → own' a = own a) ∧ LoopOut R lst acc res own' r

variable {α β γ δ : Type} {P : Nat → Prop} {h0 : Heap} {R : α → β → Prop}

theorem get_lt {h : Heap} {a : Nat} {o : HObj} (ho : h[a]? = some o) : a < h.length := by
  rcases Nat.lt_or_ge a h.length with h1 | h1
  · exact h1
  · rw [List.getElem?_eq_none h1] at ho; cases ho

theorem sim_pure {v : α} {x : β} (h : R v x) : Sim P h0 R (Prog.pure x) (.ok v) := fun _ => ⟨fun _ _ => rfl, x, rfl, h⟩

theorem sim_throw (e : PyErr) : Sim P h0 R (Prog.throw (.py e)) (.error e) := fun _ => ⟨fun _ _ => rfl, rfl⟩

theorem sim_of (x : Except PyErr α) : Sim P h0 Eq (Prog.ofExcept x) x := by
  cases x with
  | error e => exact sim_throw e
  | ok a => exact sim_pure rfl

theorem sim_read {a : Nat} {o : HObj} (hp : P a) (ho : h0[a]? = some o) : Sim P h0 Eq (Prog.read a) (.ok o) := fun own =>
  .inl ⟨o, hp, ho, fun _ _ => rfl, o, rfl, rfl⟩

theorem sim_bind {S : γ → δ → Prop} {m : Prog β} {f : β → Prog δ} {r : Except PyErr α} {t : Except PyErr γ} (h : Sim P h0 R m r)
    (hf : match (generalizing := false) r with | .ok v => ∀ x, R v x → Sim P h0 S (f x) t | .error e => t = .error e) :
    Sim P h0 S (m.bind f) t := fun own => by
  refine wp_try (wp_mono ?_ (h own))
  rintro res own' ⟨h1, h2⟩
  cases r with
  | error e =>
    cases (h2 : res = _)
    simp only at hf
    subst hf
    exact ⟨h1, rfl⟩
  | ok v =>
    obtain ⟨x, rfl, h4⟩ := h2
    refine wp_mono ?_ (hf x h4 own')
    rintro res own'' ⟨h5, h6⟩
    exact ⟨fun a ha => (h5 a (by rw [h1 a ha]; exact ha)).trans (h1 a ha), h6⟩

/-- `sim_bind` after a program that cannot fail. -/
theorem sim_then {S : γ → δ → Prop} {m : Prog β} {f : β → Prog δ} {v : α} {t : Except PyErr γ} (h : Sim P h0 R m (.ok v))
    (hf : ∀ x, R v x → Sim P h0 S (f x) t) : Sim P h0 S (m.bind f) t := sim_bind h hf

theorem sim_eq {S : γ → δ → Prop} {m : Prog β} {f : β → Prog δ} {v : β} {t : Except PyErr γ} (h : Sim P h0 Eq m (.ok v))
    (hf : Sim P h0 S (f v) t) : Sim P h0 S (m.bind f) t := sim_bind h fun _ hx => hx ▸ hf

/-! ## Loops -/

variable {Q : α → HV → Prop} {lst : Nat}

theorem loop_done : LoopSim P h0 Q lst (Prog.pure ()) (.ok []) := fun own acc hl =>
  ⟨fun _ _ _ => rfl, rfl, [], by simpa using hl, .nil⟩

theorem loop_throw (e : PyErr) : LoopSim P h0 Q lst (Prog.throw (.py e)) (.error e) := fun own acc hl => ⟨fun _ _ _ => rfl, rfl⟩

theorem loop_try {S : γ → δ → Prop} {m : Prog δ} {f : δ → Prog Unit} {g : HErr → Prog Unit} {r : Except PyErr γ} {t : Except PyErr (List α)}
    (h : Sim P h0 S m r) (hf : match (generalizing := false) r with | .ok v => ∀ x, S v x → LoopSim P h0 Q lst (f x) t | .error e => LoopSim P h0 Q lst (g (.py e)) t) :
    LoopSim P h0 Q lst (m.tryElse f g) t := fun own acc hl => by
  refine wp_try (wp_mono ?_ (h own))
  rintro res own' ⟨h1, h2⟩
  have hl' : own' lst = some acc := (h1 lst (by rw [hl]; exact nofun)).trans hl
  have key : ∀ {k : Prog Unit}, LoopSim P h0 Q lst k t → wp P h0 k own' fun res own'' =>
      (∀ a, own a ≠ none → a ≠ lst → own'' a = own a) ∧ LoopOut Q lst acc res own'' t := fun {k} hk => by
    refine wp_mono ?_ (hk own' acc hl')
    rintro res own'' ⟨h5, h6⟩
    exact ⟨fun a ha hne => (h5 a (by rw [h1 a ha]; exact ha) hne).trans (h1 a ha), h6⟩
  cases r with
  | error e => cases (h2 : res = _); exact key hf
  | ok v => obtain ⟨x, rfl, h4⟩ := h2; exact key (hf x h4)

/-- A step that does not touch the list. -/
theorem loop_bind {S : γ → δ → Prop} {m : Prog δ} {f : δ → Prog Unit} {r : Except PyErr γ} {t : Except PyErr (List α)} (h : Sim P h0 S m r)
    (hf : match (generalizing := false) r with | .ok v => ∀ x, S v x → LoopSim P h0 Q lst (f x) t | .error e => t = .error e) : LoopSim P h0 Q lst (m.bind f) t := by
  refine loop_try h ?_
  cases r with
  | error e => simp only at hf ⊢; subst hf; exact loop_throw e
  | ok v => exact hf

/-- `lst.append(x)`, then the rest of the loop; an append does not fail. -/
theorem loop_pushTry {v : α} {x : HV} {k : Prog Unit} {g : HErr → Prog Unit} {t : Except PyErr (List α)}
    (hx : Q v x) (hk : LoopSim P h0 Q lst k t) : LoopSim P h0 Q lst ((push lst x).tryElse (fun _ => k) g) (t.map (v :: ·)) :=
  fun own acc hl => by
    refine ⟨acc, hl, wp_mono ?_ (hk (own.upd lst (acc ++ [("", x)])) (acc ++ [("", x)]) (by simp [Own.upd]))⟩
    rintro res own' ⟨h1, h2⟩
    refine ⟨fun a ha hne => ?_, ?_⟩
    · have e : own.upd lst (acc ++ [("", x)]) a = own a := if_neg hne
      exact (h1 a (by rw [e]; exact ha) hne).trans e
    · cases t with
      | error e => exact h2
      | ok vs =>
        obtain ⟨h3, items, h4, h5⟩ := h2
        exact ⟨h3, ("", x) :: items, by simpa using h4, .cons hx h5⟩

theorem loop_push {v : α} {x : HV} {k : Prog Unit} {t : Except PyErr (List α)} (hx : Q v x) (hk : LoopSim P h0 Q lst k t) :
    LoopSim P h0 Q lst ((push lst x).bind fun _ => k) (t.map (v :: ·)) := loop_pushTry hx hk

theorem loop_pushAll {f : Str → α} (hq : ∀ s, Q (f s) (.imm (.str s))) (l : List Str) {k : Prog Unit} {t : Except PyErr (List α)}
    (hk : LoopSim P h0 Q lst k t) : LoopSim P h0 Q lst ((pushAll lst l).bind fun _ => k) (t.map (l.map f ++ ·)) := by
  induction l with
  | nil =>
    have : t.map (([] : List Str).map f ++ ·) = t := by cases t <;> rfl
    rw [this]
    exact hk
  | cons a as ih =>
    have h := loop_push (hq a) ih
    have e2 : (t.map (as.map f ++ ·)).map (f a :: ·) = t.map ((a :: as).map f ++ ·) := by cases t <;> rfl
    rw [pushAll, Prog.bind_assoc, ← e2]
    exact h

theorem loop_cast {m : Prog Unit} {r r' : Except PyErr (List α)} (h : LoopSim P h0 Q lst m r) (e : r = r') : LoopSim P h0 Q lst m r' := e ▸ h

theorem sim_cast {m : Prog β} {r r' : Except PyErr α} (h : Sim P h0 R m r) (e : r = r') : Sim P h0 R m r' := e ▸ h

/-- JSON values as seen in `h0`. -/
abbrev IsJson (P : Nat → Prop) (h0 : Heap) (v : Val) (x : HV) : Prop := Json P h0 v x

theorem view_json {v : Val} {x : HV} (h : IsJson P h0 v x) : (strView x).asStr? = v.asStr? := by
  cases v with
  | list l => obtain ⟨a, _, rfl, _⟩ := h; rfl
  | dict d => obtain ⟨a, _, rfl, _⟩ := h; rfl
  | _ =>
    obtain ⟨i, rfl, hi⟩ := h
    show i.toVal.asStr? = _
    rw [hi]

theorem join_view (sep : Str) {vs : List Val} {items : List (String × HV)}
    (h : List.Forall₂ (fun v (e : String × HV) => IsJson P h0 v e.2) vs items) :
    strJoin sep (items.map fun e => strView e.2) = strJoin sep vs := by
  have h1 : (items.map fun e => strView e.2).all (fun v => v.asStr?.isSome) = vs.all fun v => v.asStr?.isSome := by
    induction h with
    | nil => rfl
    | cons h _ ih => simp only [List.map_cons, List.all_cons, ih, view_json h]
  have h2 : (items.map fun e => strView e.2).filterMap Val.asStr? = vs.filterMap Val.asStr? := by
    clear h1
    induction h with
    | nil => rfl
    | cons h _ ih => simp only [List.map_cons, List.filterMap_cons, view_json h, ih]
  unfold strJoin
  rw [h1, h2]

/-- A list is made, filled by a loop and joined. -/
theorem sim_list {m : Nat → Prog Unit} {r : Except PyErr (List Val)} {sep : Str}
    (h : ∀ lst, LoopSim P h0 (IsJson P h0) lst (m lst) r) :
    Sim P h0 Eq (newList.bind fun lst => (m lst).bind fun _ => joinH sep lst) (r.bind (strJoin sep)) := fun own => by
  refine ⟨rfl, fun b _ hn => ?_⟩
  show wp P h0 ((m b).tryElse (fun _ => joinH sep b) Prog.fail) (own.upd b []) _
  refine wp_try (wp_mono ?_ (h b (own.upd b []) [] (by simp [Own.upd])))
  rintro res own' ⟨h1, h2⟩
  have hold : ∀ a, own a ≠ none → own' a = own a := fun a ha => by
    have hne : a ≠ b := by rintro rfl; exact ha hn
    have e : own.upd b [] a = own a := if_neg hne
    exact (h1 a (by rw [e]; exact ha) hne).trans e
  cases r with
  | error e => cases (h2 : res = _); exact ⟨hold, rfl⟩
  | ok vs =>
    obtain ⟨rfl, items, h4, h5⟩ := h2
    refine .inr ⟨items, h4, ?_⟩
    show wp P h0 (Prog.ofExcept (strJoin sep (items.map fun e => strView e.2))) own' _
    rw [join_view sep h5]
    refine wp_mono ?_ (sim_of (P := P) (h0 := h0) (strJoin sep vs) own')
    rintro res own'' ⟨h6, h7⟩
    exact ⟨fun a ha => (h6 a (by rw [hold a ha]; exact ha)).trans (hold a ha), h7⟩

/-- The same with something in between that does not look at the list. -/
theorem sim_list_iter {S : γ → δ → Prop} {it : Prog δ} {m : δ → Nat → Prog Unit} {q : Except PyErr γ} {r : γ → Except PyErr (List Val)} {sep : Str}
    (hit : Sim P h0 S it q) (h : ∀ c x, S c x → ∀ lst, LoopSim P h0 (IsJson P h0) lst (m x lst) (r c)) :
    Sim P h0 Eq (newList.bind fun lst => it.bind fun x => (m x lst).bind fun _ => joinH sep lst) ((q.bind r).bind (strJoin sep)) := by
  have e : (newList.bind fun lst => it.bind fun x => (m x lst).bind fun _ => joinH sep lst) =
      newList.bind fun lst => (it.bind fun x => m x lst).bind fun _ => joinH sep lst := by
    simp only [Prog.bind_assoc]
  rw [e]
  refine sim_list fun lst => loop_bind hit ?_
  cases q with
  | error e => rfl
  | ok c => exact fun x hx => h c x hx lst

end Verif.HeapMd
