import Verif.Model.Prog
/-! # Programs -/

namespace Verif.Prog
open Verif

variable {α β γ : Type}

theorem try_try (x : Prog α) (f : α → Prog β) (g : HErr → Prog β) (f' : β → Prog γ) (g' : HErr → Prog γ) :
    (x.tryElse f g).tryElse f' g' = x.tryElse (fun a => (f a).tryElse f' g') fun e => (g e).tryElse f' g' := by
  induction x with
  | ret a => rfl
  | fail e => rfl
  | look a k ih => simp only [tryElse, ih]
  | make o k ih => simp only [tryElse, ih]
  | add a e k ih => simp only [tryElse, ih]
  | put a o k ih => simp only [tryElse, ih]
  | warn ws k ih => simp only [tryElse, ih]

theorem bind_try (x : Prog α) (f : α → Prog β) (f' : β → Prog γ) (g' : HErr → Prog γ) :
    (x.bind f).tryElse f' g' = x.tryElse (fun a => (f a).tryElse f' g') g' := try_try x f fail f' g'

theorem bind_assoc (x : Prog α) (f : α → Prog β) (f' : β → Prog γ) : (x.bind f).bind f' = x.bind fun a => (f a).bind f' :=
  try_try x f fail f' fail

/-- The program changes only objects of `own` and those it makes itself, whatever it sees; if not `loud`, it logs nothing. -/
def Writes (loud : Prop) : (Nat → Prop) → Prog α → Prop
  | _, ret _ => True
  | _, fail _ => True
  | own, look _ k => ∀ o, Writes loud own (k o)
  | own, make _ k => ∀ b, Writes loud (fun a => own a ∨ a = b) (k b)
  | own, add a _ k => own a ∧ ∀ b, Writes loud own (k b)
  | own, put a _ k => own a ∧ Writes loud own k
  | own, warn _ k => loud ∧ Writes loud own k

variable {loud : Prop}

theorem writes_mono {own own' : Nat → Prop} (h : ∀ a, own a → own' a) {x : Prog α} (hx : Writes loud own x) : Writes loud own' x := by
  induction x generalizing own own' with
  | ret a => trivial
  | fail e => trivial
  | look a k ih => exact fun o => ih o h (hx o)
  | make o k ih => exact fun b => ih b (fun a ha => ha.imp (h a) id) (hx b)
  | add a e k ih => exact ⟨h a hx.1, fun b => ih b h (hx.2 b)⟩
  | put a o k ih => exact ⟨h a hx.1, ih h hx.2⟩
  | warn ws k ih => exact ⟨hx.1, ih h hx.2⟩

theorem writes_try {own : Nat → Prop} {x : Prog α} {f : α → Prog β} {g : HErr → Prog β} (hx : Writes loud own x)
    (hf : ∀ own', (∀ a, own a → own' a) → ∀ a, Writes loud own' (f a)) (hg : ∀ own', (∀ a, own a → own' a) → ∀ e, Writes loud own' (g e)) :
    Writes loud own (x.tryElse f g) := by
  induction x generalizing own with
  | ret a => exact hf own (fun _ h => h) a
  | fail e => exact hg own (fun _ h => h) e
  | look a k ih => exact fun o => ih o (hx o) hf hg
  | make o k ih => exact fun b => ih b (hx b) (fun own' h => hf own' fun a ha => h a (.inl ha)) fun own' h => hg own' fun a ha => h a (.inl ha)
  | add a e k ih => exact ⟨hx.1, fun b => ih b (hx.2 b) hf hg⟩
  | put a o k ih => exact ⟨hx.1, ih hx.2 hf hg⟩
  | warn ws k ih => exact ⟨hx.1, ih hx.2 hf hg⟩

/-- One step: only objects of `own` change, and what is left may write to `own` and what was created. -/
theorem writes_next {own : Nat → Prop} {x x' : Prog α} {h h' : Heap} {new : List Nat} {ws : List Warn} (hx : Writes loud own x)
    (hn : x.next h = some (h', x', new, ws)) :
    h.length ≤ h'.length ∧ (∀ a, a < h.length → ¬ own a → h'[a]? = h[a]?) ∧ (∀ a ∈ new, h.length ≤ a) ∧
      Writes loud (fun a => own a ∨ a ∈ new) x' := by
  cases x with
  | ret a => cases hn
  | fail e => cases hn
  | look a k =>
    cases hn
    exact ⟨Nat.le_refl _, fun _ _ _ => rfl, fun _ h => by simp at h, writes_mono (fun _ h => .inl h) (hx _)⟩
  | make o k =>
    cases hn
    refine ⟨by simp, fun a ha _ => List.getElem?_append_left ha, fun a ha => by simp at ha; omega, ?_⟩
    exact writes_mono (fun a ha => ha.imp id fun h => by simp [h]) (hx h.length)
  | add a e k =>
    simp only [next] at hn
    cases ho : h[a]? with
    | some o =>
      rw [ho] at hn
      cases hn
      refine ⟨by simp, fun b hb hw => ?_, fun _ h => by simp at h, writes_mono (fun _ h => .inl h) (hx.2 _)⟩
      rw [List.getElem?_set_ne]
      rintro rfl
      exact hw hx.1
    | none =>
      rw [ho] at hn
      cases hn
      exact ⟨Nat.le_refl _, fun _ _ _ => rfl, fun _ h => by simp at h, writes_mono (fun _ h => .inl h) (hx.2 _)⟩
  | put a o k =>
    cases hn
    refine ⟨by simp, fun b hb hw => ?_, fun _ h => by simp at h, writes_mono (fun _ h => .inl h) hx.2⟩
    rw [List.getElem?_set_ne]
    rintro rfl
    exact hw hx.1
  | warn ws k =>
    cases hn
    exact ⟨Nat.le_refl _, fun _ _ _ => rfl, fun _ h => by simp at h, writes_mono (fun _ h => .inl h) hx.2⟩

/-- All steps. -/
theorem writes_run {own : Nat → Prop} {x : Prog α} (hx : Writes loud own x) (s : St) :
    s.heap.length ≤ (x.run s).2.heap.length ∧ (¬ loud → (x.run s).2.log = s.log) ∧
      ∀ a, a < s.heap.length → ¬ own a → (x.run s).2.heap[a]? = s.heap[a]? := by
  induction x generalizing own s with
  | ret a => exact ⟨Nat.le_refl _, fun _ => rfl, fun _ _ _ => rfl⟩
  | fail e => exact ⟨Nat.le_refl _, fun _ => rfl, fun _ _ _ => rfl⟩
  | look a k ih => exact ih _ (hx _) s
  | make o k ih =>
    obtain ⟨h1, h2, h3⟩ := ih _ (hx s.heap.length) { s with heap := s.heap ++ [o] }
    refine ⟨Nat.le_trans (by simp) h1, h2, fun a ha ho => ?_⟩
    refine (h3 a (by show a < (s.heap ++ [o]).length; simp; omega) ?_).trans (List.getElem?_append_left ha)
    rintro (h | h)
    · exact ho h
    · omega
  | add a e k ih =>
    show s.heap.length ≤ (run (.add a e k) s).2.heap.length ∧ _
    unfold run
    cases ho : s.heap[a]? with
    | none => exact ih false (hx.2 _) s
    | some o =>
      obtain ⟨h1, h2, h3⟩ := ih true (hx.2 _) { s with heap := s.heap.set a { o with items := o.items ++ [e] } }
      refine ⟨by simpa using h1, h2, fun b hb hw => ?_⟩
      refine (h3 b (by simpa using hb) hw).trans (List.getElem?_set_ne ?_)
      rintro rfl
      exact hw hx.1
  | put a o k ih =>
    obtain ⟨h1, h2, h3⟩ := ih hx.2 { s with heap := s.heap.set a o }
    refine ⟨by rw [List.length_set] at h1; exact h1, h2, fun b hb hw => ?_⟩
    refine (h3 b (by simpa using hb) hw).trans (List.getElem?_set_ne ?_)
    rintro rfl
    exact hw hx.1
  | warn ws k ih =>
    obtain ⟨h1, h2, h3⟩ := ih hx.2 { s with log := s.log ++ ws }
    exact ⟨h1, fun hl => absurd hx.1 hl, h3⟩

/-- One step of the uninterrupted run. -/
theorem run_next {x x' : Prog α} {s : St} {h' : Heap} {new : List Nat} {ws : List Warn} (hn : x.next s.heap = some (h', x', new, ws)) :
    x.run s = x'.run ⟨h', s.log ++ ws⟩ := by
  obtain ⟨h, l⟩ := s
  cases x with
  | ret a => cases hn
  | fail e => cases hn
  | look a k => cases hn; simp only [run, List.append_nil]
  | make o k => cases hn; simp only [run, List.append_nil]
  | add a e k =>
    simp only [next] at hn
    cases ho : h[a]? with
    | some o => rw [ho] at hn; cases hn; simp only [run, ho, List.append_nil]
    | none => rw [ho] at hn; cases hn; simp only [run, ho, List.append_nil]
  | put a o k => cases hn; simp only [run, List.append_nil]
  | warn ws k => cases hn; rfl

end Verif.Prog
