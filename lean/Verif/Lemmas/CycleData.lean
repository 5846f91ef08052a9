import Verif.Lemmas.CycleParse
/-!
# Lists and dicts without a cycle are JSON values
-/

namespace Verif.Spec
open Verif

theorem json_imm (P : Nat → Prop) (h : Heap) (i : Imm) : Json P h i.toVal (.imm i) ∧ depth i.toVal = 1 := by
  cases i <;> simp only [Imm.toVal, Json, depth, and_true] <;> exact ⟨_, rfl, rfl⟩

theorem json_of_fin {h : Heap} : ∀ (n : Nat) (x : HV), Fin n h x → ListsAndDicts h x →
    ∃ v, Json anywhere h v x ∧ depth v ≤ n + 1 := by
  intro n
  induction n with
  | zero =>
    intro x hf _
    match x, hf with
    | .imm i, _ => exact ⟨i.toVal, (json_imm _ _ i).1, Nat.le_of_eq (json_imm anywhere h i).2⟩
  | succ n ih =>
    intro x hf hd
    match x, hf with
    | .imm i, _ => exact ⟨i.toVal, (json_imm _ _ i).1, by rw [(json_imm anywhere h i).2]; omega⟩
    | .ref a, ⟨o, ho, hi⟩ =>
      have each : ∀ e ∈ o.items, ∃ v, Json anywhere h v e.2 ∧ depth v ≤ n + 1 := fun e he =>
        ih e.2 (hi e he) fun b p hb hp => hd b p (.step ho he hb) hp
      have lists : ∀ items : List (String × HV), (∀ e ∈ items, ∃ v, Json anywhere h v e.2 ∧ depth v ≤ n + 1) →
          ∃ vs, JsonList anywhere h vs items ∧ depthList vs ≤ n + 1 := by
        intro items
        induction items with
        | nil => intro _; exact ⟨[], by simp only [JsonList], Nat.zero_le _⟩
        | cons e items ih =>
          intro he
          obtain ⟨v, hv, dv⟩ := he e (.head _)
          obtain ⟨vs, hvs, dvs⟩ := ih fun e' h' => he e' (.tail _ h')
          exact ⟨v :: vs, by simp only [JsonList]; exact ⟨e, items, rfl, hv, hvs⟩, by rw [depthList]; exact Nat.max_le.mpr ⟨dv, dvs⟩⟩
      have dicts : ∀ items : List (String × HV), (∀ e ∈ items, ∃ v, Json anywhere h v e.2 ∧ depth v ≤ n + 1) →
          ∃ d, JsonDict anywhere h d items ∧ depthDict d ≤ n + 1 := by
        intro items
        induction items with
        | nil => intro _; exact ⟨[], by simp only [JsonDict], Nat.zero_le _⟩
        | cons e items ih =>
          intro he
          obtain ⟨v, hv, dv⟩ := he e (.head _)
          obtain ⟨d, hvs, dvs⟩ := ih fun e' h' => he e' (.tail _ h')
          exact ⟨(e.1, v) :: d, by simp only [JsonDict]; exact ⟨e.2, items, rfl, hv, hvs⟩, by rw [depthDict]; exact Nat.max_le.mpr ⟨dv, dvs⟩⟩
      obtain ⟨kind, items⟩ := o
      rcases hd a _ (.here a) ho with hk | hk
      · obtain ⟨vs, hvs, dvs⟩ := lists items each
        refine ⟨.list vs, ?_, by rw [depth]; omega⟩
        simp only [Json]
        exact ⟨a, items, rfl, trivial, by rw [ho]; cases hk; rfl, hvs⟩
      · obtain ⟨d, hvs, dvs⟩ := dicts items each
        refine ⟨.dict d, ?_, by rw [depth]; omega⟩
        simp only [Json]
        exact ⟨a, items, rfl, trivial, by rw [ho]; cases hk; rfl, hvs⟩

theorem json_data {h : Heap} {x : HV} (hx : NoDangling h x) (hd : ListsAndDicts h x) (hc : ¬ HasCycle h x) :
    ∃ v, Json anywhere h v x ∧ depth v ≤ h.length + 1 := json_of_fin _ x (fin_length hx hc) hd

/-! ## And conversely -/

/-- `x` is a tree of some depth. -/
theorem fin_of_items {h : Heap} {items : List (String × HV)} (hi : ∀ e ∈ items, ∃ n, Fin n h e.2) : ∃ n, ∀ e ∈ items, Fin n h e.2 := by
  induction items with
  | nil => exact ⟨0, nofun⟩
  | cons e items ih =>
    obtain ⟨n, hn⟩ := hi e (.head _)
    obtain ⟨m, hm⟩ := ih fun e' h' => hi e' (.tail _ h')
    refine ⟨max n m, fun e' h' => ?_⟩
    rcases List.mem_cons.mp h' with rfl | h'
    · exact fin_mono (Nat.le_max_left _ _) hn
    · exact fin_mono (Nat.le_max_right _ _) (hm e' h')

theorem acyclic_of_fin {h : Heap} : ∀ (n : Nat) (a : Nat), Fin n h (.ref a) → ¬ Inside h a a := by
  have down : ∀ (n : Nat) (a b : Nat), Fin (n + 1) h (.ref a) → Inside h b a → Fin n h (.ref b) := by
    intro n a b hf hi
    induction hi generalizing n with
    | item ho he => obtain ⟨o', ho', hi'⟩ := hf; rw [ho] at ho'; cases ho'; exact hi' _ he
    | deeper ho he hb ih =>
      obtain ⟨o', ho', hi'⟩ := hf
      rw [ho] at ho'; cases ho'
      have := hi' _ he
      cases n with
      | zero => exact this.elim
      | succ n => exact fin_mono (Nat.le_succ n) (ih n this)
  intro n
  induction n with
  | zero => intro a hf _; exact hf.elim
  | succ n ih => intro a hf hi; exact ih a (down n a a hf hi) hi

theorem fin_reach {h : Heap} {n : Nat} {x : HV} {a : Nat} (hf : Fin n h x) (hr : Reach h x a) : ∃ m, Fin m h (.ref a) := by
  induction hr generalizing n with
  | here a => exact ⟨n, hf⟩
  | step ho he _ ih =>
    cases n with
    | zero => exact hf.elim
    | succ n => obtain ⟨o', ho', hi'⟩ := hf; rw [ho] at ho'; cases ho'; exact ih (hi' _ he)

theorem acyclic_fin {h : Heap} {n : Nat} {x : HV} (hf : Fin n h x) : ¬ HasCycle h x := fun ⟨a, hr, hi⟩ =>
  let ⟨m, hm⟩ := fin_reach hf hr
  acyclic_of_fin m a hm hi

mutual
theorem fin_of_json (P : Nat → Prop) (h : Heap) : ∀ (v : Val) (x : HV), Json P h v x → ∃ n, Fin n h x
  | .list vs, x, hj => by
    simp only [Json] at hj
    obtain ⟨a, items, rfl, _, ho, hi⟩ := hj
    obtain ⟨n, hn⟩ := fin_of_items (fin_of_jsonList P h vs items hi)
    exact ⟨n + 1, _, ho, hn⟩
  | .dict d, x, hj => by
    simp only [Json] at hj
    obtain ⟨a, items, rfl, _, ho, hi⟩ := hj
    obtain ⟨n, hn⟩ := fin_of_items (fin_of_jsonDict P h d items hi)
    exact ⟨n + 1, _, ho, hn⟩
  | .none, x, hj => by simp only [Json] at hj; obtain ⟨i, rfl, _⟩ := hj; exact ⟨0, trivial⟩
  | .bool _, x, hj => by simp only [Json] at hj; obtain ⟨i, rfl, _⟩ := hj; exact ⟨0, trivial⟩
  | .int _, x, hj => by simp only [Json] at hj; obtain ⟨i, rfl, _⟩ := hj; exact ⟨0, trivial⟩
  | .float _, x, hj => by simp only [Json] at hj; obtain ⟨i, rfl, _⟩ := hj; exact ⟨0, trivial⟩
  | .str _, x, hj => by simp only [Json] at hj; obtain ⟨i, rfl, _⟩ := hj; exact ⟨0, trivial⟩
  | .opt, x, hj => by simp only [Json] at hj; obtain ⟨i, rfl, _⟩ := hj; exact ⟨0, trivial⟩

theorem fin_of_jsonList (P : Nat → Prop) (h : Heap) : ∀ (vs : List Val) (items : List (String × HV)), JsonList P h vs items → ∀ e ∈ items, ∃ n, Fin n h e.2
  | [], items, hj => by simp only [JsonList] at hj; subst hj; exact nofun
  | v :: vs, items, hj => by
    simp only [JsonList] at hj
    obtain ⟨e, rest, rfl, h1, h2⟩ := hj
    intro e' h'
    rcases List.mem_cons.mp h' with rfl | h'
    · exact fin_of_json P h v _ h1
    · exact fin_of_jsonList P h vs rest h2 e' h'

theorem fin_of_jsonDict (P : Nat → Prop) (h : Heap) : ∀ (d : List (String × Val)) (items : List (String × HV)), JsonDict P h d items → ∀ e ∈ items, ∃ n, Fin n h e.2
  | [], items, hj => by simp only [JsonDict] at hj; subst hj; exact nofun
  | (k, v) :: d, items, hj => by
    simp only [JsonDict] at hj
    obtain ⟨x, rest, rfl, h1, h2⟩ := hj
    intro e' h'
    rcases List.mem_cons.mp h' with rfl | h'
    · exact fin_of_json P h v _ h1
    · exact fin_of_jsonDict P h d rest h2 e' h'
end

theorem acyclic_of_json {P : Nat → Prop} {h : Heap} {v : Val} {x : HV} (hj : Json P h v x) : ¬ HasCycle h x :=
  let ⟨_, hf⟩ := fin_of_json P h v x hj
  acyclic_fin hf

end Verif.Spec
