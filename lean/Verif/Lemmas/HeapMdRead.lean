import Verif.Lemmas.HeapMdSim
/-! # Reading attributes on the heap -/

namespace Verif.HeapMd
open Verif Verif.Spec

variable {P : Nat → Prop} {h0 : Heap}

mutual
theorem sim_val : (v : Val) → ∀ fuel x, IsJson P h0 v x → depth v ≤ fuel → Sim P h0 Eq (readVal fuel x) (.ok v)
  | .list vs => by
    intro fuel x hj hf
    obtain ⟨a, items, rfl, hp, ho, hl⟩ := hj
    rw [depth] at hf
    obtain ⟨f, rfl⟩ : ∃ f, fuel = f + 1 := ⟨fuel - 1, by omega⟩
    rw [readVal]
    refine sim_eq (sim_read hp ho) ?_
    exact sim_then (sim_vals vs f items hl (by omega)) fun d hd => sim_pure (by rw [hd])
  | .dict d => by
    intro fuel x hj hf
    obtain ⟨a, items, rfl, hp, ho, hl⟩ := hj
    rw [depth] at hf
    obtain ⟨f, rfl⟩ : ∃ f, fuel = f + 1 := ⟨fuel - 1, by omega⟩
    rw [readVal]
    refine sim_eq (sim_read hp ho) ?_
    exact sim_eq (sim_dict d f items hl (by omega)) (sim_pure rfl)
  | .str _ => by intro fuel x hj _; obtain ⟨i, rfl, hi⟩ := hj; rw [readVal]; exact sim_pure hi.symm
  | .int _ => by intro fuel x hj _; obtain ⟨i, rfl, hi⟩ := hj; rw [readVal]; exact sim_pure hi.symm
  | .float _ => by intro fuel x hj _; obtain ⟨i, rfl, hi⟩ := hj; rw [readVal]; exact sim_pure hi.symm
  | .bool _ => by intro fuel x hj _; obtain ⟨i, rfl, hi⟩ := hj; rw [readVal]; exact sim_pure hi.symm
  | .none => by intro fuel x hj _; obtain ⟨i, rfl, hi⟩ := hj; rw [readVal]; exact sim_pure hi.symm
  | .opt => by intro fuel x hj _; obtain ⟨i, rfl, hi⟩ := hj; rw [readVal]; exact sim_pure hi.symm

theorem sim_vals : (vs : List Val) → ∀ fuel items, JsonList P h0 vs items → depthList vs ≤ fuel →
    Sim P h0 (fun vs d => d.map Prod.snd = vs) (readItems fuel items) (.ok vs)
  | [] => by
    intro fuel items hj _
    cases (hj : items = [])
    rw [readItems]
    exact sim_pure rfl
  | v :: vs => by
    intro fuel items hj hf
    obtain ⟨e, rest, rfl, h1, h2⟩ := hj
    rw [depthList] at hf
    obtain ⟨k, x⟩ := e
    rw [readItems]
    refine sim_eq (sim_val v fuel x h1 (by omega)) ?_
    exact sim_then (sim_vals vs fuel rest h2 (by omega)) fun d hd => sim_pure (by rw [List.map_cons, hd])

theorem sim_dict : (d : List (String × Val)) → ∀ fuel items, JsonDict P h0 d items → depthDict d ≤ fuel →
    Sim P h0 Eq (readItems fuel items) (.ok d)
  | [] => by
    intro fuel items hj _
    cases (hj : items = [])
    rw [readItems]
    exact sim_pure rfl
  | (k, v) :: d => by
    intro fuel items hj hf
    obtain ⟨x, rest, rfl, h1, h2⟩ := hj
    rw [depthDict] at hf
    rw [readItems]
    refine sim_eq (sim_val v fuel x h1 (by omega)) ?_
    exact sim_eq (sim_dict d fuel rest h2 (by omega)) (sim_pure rfl)
end

theorem sim_plain (fuel : Nat) (x : Option HV) (o : Option Val) (h : IsPlain P h0 x o) (hf : (o.map depth).getD 0 ≤ fuel) :
    Sim P h0 Eq (readPlain fuel x) (.ok o) := by
  cases o with
  | none => cases (h : x = none); exact sim_pure rfl
  | some v =>
    obtain ⟨y, rfl, hy⟩ := h
    exact sim_eq (sim_val v fuel y hy hf) (sim_pure rfl)

/-- An attribute that was left as it was in the JSON. -/
theorem json_cases {v : Val} {x : HV} (h : IsJson P h0 v x) :
    (∃ i, x = .imm i ∧ i.toVal = v) ∨
    (∃ a o, x = .ref a ∧ P a ∧ h0[a]? = some o ∧ ((∃ vs, v = .list vs ∧ o.kind = .list ∧ JsonList P h0 vs o.items) ∨
      ∃ d, v = .dict d ∧ o.kind = .dict ∧ JsonDict P h0 d o.items)) := by
  cases v with
  | list vs => obtain ⟨a, items, rfl, hp, ho, hl⟩ := h; exact .inr ⟨a, _, rfl, hp, ho, .inl ⟨vs, rfl, rfl, hl⟩⟩
  | dict d => obtain ⟨a, items, rfl, hp, ho, hl⟩ := h; exact .inr ⟨a, _, rfl, hp, ho, .inr ⟨d, rfl, rfl, hl⟩⟩
  | _ => exact .inl h

theorem sim_attrs (fuel : Nat) (x : Option HV) (s : Slot AttrsObj) (h : IsSlot P h0 (IsAttrs P h0) x s)
    (hf : depthAttrs s ≤ fuel) : Sim P h0 Eq (readAttrs fuel x) (.ok s) := by
  cases s with
  | absent => cases (h : x = none); exact sim_pure rfl
  | opt => cases (h : x = some (.imm .opt)); exact sim_pure rfl
  | raw v =>
    obtain ⟨hne, y, rfl, hy⟩ := h
    rcases json_cases hy with ⟨i, rfl, hi⟩ | ⟨a, o, rfl, hp, ho, hk⟩
    · refine sim_pure ?_
      cases i <;> first | exact congrArg Slot.raw hi.symm | exact absurd hi.symm hne
    · refine sim_eq (sim_read hp ho) ?_
      have hr := sim_eq (f := fun v => Prog.pure (.raw v)) (S := Eq) (t := .ok (Slot.raw v : Slot AttrsObj))
        (sim_val v fuel (.ref a) hy hf) (sim_pure rfl)
      rcases hk with ⟨vs, rfl, hk, _⟩ | ⟨d, rfl, hk, _⟩ <;> · rw [hk]; exact hr
  | val a =>
    obtain ⟨y, rfl, p, items, rfl, hp, ho, hd⟩ := h
    refine sim_eq (sim_read hp ho) ?_
    simp only [depthAttrs] at hf
    exact sim_eq (sim_dict a.fields fuel items hd (by omega)) (sim_pure rfl)

theorem sim_mark (fuel : Nat) (m : Mark) (x : HV) (h : IsMark P h0 m x) (hf : depthMark m ≤ fuel) :
    Sim P h0 Eq (readMark fuel x) (.ok (some m)) := by
  obtain ⟨p, items, rfl, hp, ho, _, ht, ha⟩ := h
  simp only [depthMark] at hf
  refine sim_eq (sim_read hp ho) ?_
  refine sim_eq (sim_plain fuel _ (some m.type) ht (by simp only [Option.map_some, Option.getD_some]; omega)) ?_
  exact sim_eq (sim_attrs fuel _ m.attrs ha (by omega)) (sim_pure rfl)

theorem sim_markList (fuel : Nat) (ms : List Mark) (items : List (String × HV))
    (h : List.Forall₂ (fun a (e : String × HV) => IsMark P h0 a e.2) ms items) (hf : (ms.map depthMark).foldr max 0 ≤ fuel) :
    Sim P h0 Eq (readMarkList fuel items) (.ok ms) := by
  induction h with
  | nil => exact sim_pure rfl
  | @cons m e ms items h1 _ ih =>
    simp only [List.map_cons, List.foldr_cons] at hf
    refine sim_eq (sim_mark fuel m e.2 h1 (by omega)) ?_
    exact sim_eq (ih (by omega)) (sim_pure rfl)

/-- Both are applied to a text in the same way. -/
def SameStyle (a b : Slot (List Mark)) : Prop := ∀ env md, addStyle env md b = addStyle env md a

theorem sim_jsonMarks (fuel : Nat) (vs : List Val) (items : List (String × HV)) (h : JsonList P h0 vs items) :
    Sim P h0 Eq (readMarkList fuel items) (.ok []) := by
  cases vs with
  | nil => cases (h : items = []); exact sim_pure rfl
  | cons v vs =>
    obtain ⟨e, rest, rfl, h1, _⟩ := h
    refine sim_eq (v := none) ?_ (sim_pure rfl)
    rcases json_cases h1 with ⟨i, hi, _⟩ | ⟨a, o, hi, hp, ho, hk⟩
    · rw [hi]; exact sim_pure rfl
    · rw [hi]
      refine sim_eq (sim_read hp ho) ?_
      rcases hk with ⟨vs, _, hk, _⟩ | ⟨d, _, hk, _⟩ <;> · rw [hk]; exact sim_pure rfl

theorem sim_marks (fuel : Nat) (x : Option HV) (s : Slot (List Mark)) (h : IsSlot P h0 (IsList P h0 (IsMark P h0)) x s)
    (hf : depthMarks s ≤ fuel) : Sim P h0 SameStyle (readMarks fuel x) (.ok s) := by
  cases s with
  | absent => cases (h : x = none); exact sim_pure fun _ _ => rfl
  | opt => cases (h : x = some (.imm .opt)); exact sim_pure fun _ _ => rfl
  | raw v =>
    obtain ⟨hne, y, rfl, hy⟩ := h
    rcases json_cases hy with ⟨i, rfl, hi⟩ | ⟨a, o, rfl, hp, ho, hk⟩
    · refine sim_pure fun env md => ?_
      cases i <;> rfl
    · refine sim_eq (sim_read hp ho) ?_
      rcases hk with ⟨vs, rfl, hk, hl⟩ | ⟨d, rfl, hk, _⟩
      · rw [hk]
        exact sim_eq (sim_jsonMarks fuel vs o.items hl) (sim_pure fun _ _ => rfl)
      · rw [hk]
        exact sim_eq (sim_val (.dict d) fuel (.ref a) hy hf) (sim_pure fun _ _ => rfl)
  | val ms =>
    obtain ⟨y, rfl, p, items, rfl, hp, ho, hl⟩ := h
    refine sim_eq (sim_read hp ho) ?_
    simp only [depthMarks] at hf
    exact sim_eq (sim_markList fuel ms items hl (by omega)) (sim_pure fun _ _ => rfl)

theorem sim_hd (fuel : Nat) (hd : Hd) (items : List (String × HV)) (marks : Slot (List Mark)) (h : IsHd P h0 items hd)
    (hf : depthHd hd ≤ fuel) : Sim P h0 Eq (readHd fuel hd.cls items marks) (.ok { hd with marks := marks }) := by
  obtain ⟨_, h1, h2, h3, h4, _⟩ := h
  simp only [depthHd] at hf
  refine sim_eq (sim_plain fuel _ (some hd.type) h1 (by simp only [Option.map_some, Option.getD_some]; omega)) ?_
  refine sim_eq (sim_plain fuel _ hd.version h2 (by omega)) ?_
  refine sim_eq (sim_plain fuel _ hd.text h3 (by omega)) ?_
  exact sim_eq (sim_attrs fuel _ hd.attrs h4 (by omega)) (sim_pure rfl)

end Verif.HeapMd
