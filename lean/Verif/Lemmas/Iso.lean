import Verif.Lemmas.HeapParse
import Verif.Spec.Iso
/-! # The same object in another heap -/

namespace Verif.Iso
open Verif Verif.Spec

/-- Objects of `h` that correspond to objects of `g` have the same items, and those that are of `P` correspond to such of `Q`. -/
structure Like (R : Nat → Nat → Prop) (P Q : Nat → Prop) (h g : Heap) : Prop where
  obj : ∀ a b o, R a b → h[a]? = some o → ∃ items, g[b]? = some ⟨o.kind, items⟩ ∧
    List.Forall₂ (fun e f : String × HV => e.1 = f.1 ∧ Corr R e.2 f.2) o.items items
  mem : ∀ a b, R a b → P a → Q b

variable {R : Nat → Nat → Prop} {P Q : Nat → Prop} {h g : Heap}

theorem corr_ref {a : Nat} {y : HV} (c : Corr R (.ref a) y) : ∃ b, y = .ref b ∧ R a b := by
  rcases c with ⟨i, h1, _⟩ | ⟨a', b, h1, h2, h3⟩
  · cases h1
  · cases h1; exact ⟨b, h2, h3⟩

theorem corr_imm {i : Imm} {y : HV} (c : Corr R (.imm i) y) : y = .imm i := by
  rcases c with ⟨j, h1, h2⟩ | ⟨a', b, h1, _, _⟩
  · cases h1; exact h2
  · cases h1

abbrev Items (R : Nat → Nat → Prop) (l m : List (String × HV)) : Prop :=
  List.Forall₂ (fun e f : String × HV => e.1 = f.1 ∧ Corr R e.2 f.2) l m

theorem get_corr {l m : List (String × HV)} (hi : Items R l m) (k : String) :
    (itemGet l k = none ∧ itemGet m k = none) ∨ ∃ v w, itemGet l k = some v ∧ itemGet m k = some w ∧ Corr R v w := by
  induction hi with
  | nil => exact .inl ⟨rfl, rfl⟩
  | @cons e f l m he _ ih =>
    obtain ⟨k1, v⟩ := e
    obtain ⟨k2, w⟩ := f
    cases (he.1 : k1 = k2)
    unfold itemGet
    by_cases hk : k1 = k
    · rw [if_pos hk, if_pos hk]
      exact .inr ⟨v, w, rfl, rfl, he.2⟩
    · rw [if_neg hk, if_neg hk]
      exact ih

theorem keys_corr {l m : List (String × HV)} (hi : Items R l m) : m.map Prod.fst = l.map Prod.fst := by
  induction hi with
  | nil => rfl
  | cons he _ ih => simp only [List.map_cons, ih, he.1]

mutual
theorem json_iso (l : Like R P Q h g) : ∀ (v : Val) (x y : HV), Corr R x y → Json P h v x → Json Q g v y
  | .list vs, x, y, c, hx => by
    rw [Json] at hx ⊢
    obtain ⟨a, items, rfl, hp, ho, hi⟩ := hx
    obtain ⟨b, rfl, hab⟩ := corr_ref c
    obtain ⟨items', ho', hii⟩ := l.obj a b _ hab ho
    exact ⟨b, items', rfl, l.mem a b hab hp, ho', list_iso l vs _ _ hii hi⟩
  | .dict d, x, y, c, hx => by
    rw [Json] at hx ⊢
    obtain ⟨a, items, rfl, hp, ho, hi⟩ := hx
    obtain ⟨b, rfl, hab⟩ := corr_ref c
    obtain ⟨items', ho', hii⟩ := l.obj a b _ hab ho
    exact ⟨b, items', rfl, l.mem a b hab hp, ho', dict_iso l d _ _ hii hi⟩
  | .none, x, y, c, hx => by obtain ⟨i, rfl, hi⟩ := hx; exact ⟨i, corr_imm c, hi⟩
  | .bool b, x, y, c, hx => by obtain ⟨i, rfl, hi⟩ := hx; exact ⟨i, corr_imm c, hi⟩
  | .int n, x, y, c, hx => by obtain ⟨i, rfl, hi⟩ := hx; exact ⟨i, corr_imm c, hi⟩
  | .float f, x, y, c, hx => by obtain ⟨i, rfl, hi⟩ := hx; exact ⟨i, corr_imm c, hi⟩
  | .str s, x, y, c, hx => by obtain ⟨i, rfl, hi⟩ := hx; exact ⟨i, corr_imm c, hi⟩
  | .opt, x, y, c, hx => by obtain ⟨i, rfl, hi⟩ := hx; exact ⟨i, corr_imm c, hi⟩

theorem list_iso (l : Like R P Q h g) : ∀ (vs : List Val) (xs ys : List (String × HV)), Items R xs ys → JsonList P h vs xs → JsonList Q g vs ys
  | [], xs, ys, hi, hx => by
    rw [JsonList] at hx ⊢
    subst hx
    cases hi
    rfl
  | v :: vs, xs, ys, hi, hx => by
    rw [JsonList] at hx ⊢
    obtain ⟨e, rest, rfl, h1, h2⟩ := hx
    cases hi with
    | @cons _ f _ rest' he ht => exact ⟨f, rest', rfl, json_iso l v _ _ he.2 h1, list_iso l vs _ _ ht h2⟩

theorem dict_iso (l : Like R P Q h g) : ∀ (d : List (String × Val)) (xs ys : List (String × HV)), Items R xs ys → JsonDict P h d xs → JsonDict Q g d ys
  | [], xs, ys, hi, hx => by
    rw [JsonDict] at hx ⊢
    subst hx
    cases hi
    rfl
  | (k, v) :: d, xs, ys, hi, hx => by
    rw [JsonDict] at hx ⊢
    obtain ⟨x, rest, rfl, h1, h2⟩ := hx
    cases hi with
    | @cons _ f _ rest' he ht =>
      obtain ⟨k', y⟩ := f
      cases (he.1 : k = k')
      exact ⟨y, rest', rfl, json_iso l v _ _ he.2 h1, dict_iso l d _ _ ht h2⟩
end

theorem attrs_iso (l : Like R P Q h g) {a : AttrsObj} {x y : HV} (c : Corr R x y) (hx : IsAttrs P h a x) : IsAttrs Q g a y := by
  obtain ⟨p, items, rfl, hp, ho, hi⟩ := hx
  obtain ⟨b, rfl, hab⟩ := corr_ref c
  obtain ⟨items', ho', hii⟩ := l.obj p b _ hab ho
  exact ⟨b, items', rfl, l.mem p b hab hp, ho', dict_iso l _ _ _ hii hi⟩

theorem plain_iso (l : Like R P Q h g) {xs ys : List (String × HV)} (hi : Items R xs ys) (k : String) {v : Option Val}
    (hx : IsPlain P h (itemGet xs k) v) : IsPlain Q g (itemGet ys k) v := by
  rcases get_corr hi k with ⟨h1, h2⟩ | ⟨x, y, h1, h2, c⟩
  · rw [h1] at hx
    rw [h2]
    cases v with
    | none => rfl
    | some v => obtain ⟨_, h, _⟩ := hx; cases h
  · rw [h1] at hx
    rw [h2]
    cases v with
    | none => cases hx
    | some v => obtain ⟨_, h, hj⟩ := hx; cases h; exact ⟨y, rfl, json_iso l v _ _ c hj⟩

theorem slot_iso {α : Type} (l : Like R P Q h g) {xs ys : List (String × HV)} (hi : Items R xs ys) (k : String) {is is' : α → HV → Prop}
    (his : ∀ a x y, Corr R x y → is a x → is' a y) {s : Slot α} (hx : IsSlot P h is (itemGet xs k) s) : IsSlot Q g is' (itemGet ys k) s := by
  rcases get_corr hi k with ⟨h1, h2⟩ | ⟨x, y, h1, h2, c⟩
  · rw [h1] at hx
    rw [h2]
    cases s with
    | absent => rfl
    | opt => cases hx
    | raw v => obtain ⟨_, _, h, _⟩ := hx; cases h
    | val a => obtain ⟨_, h, _⟩ := hx; cases h
  · rw [h1] at hx
    rw [h2]
    cases s with
    | absent => cases hx
    | opt => cases hx; rw [corr_imm c]; rfl
    | raw v => obtain ⟨h0, _, h, hj⟩ := hx; cases h; exact ⟨h0, y, rfl, json_iso l v _ _ c hj⟩
    | val a => obtain ⟨_, h, hj⟩ := hx; cases h; exact ⟨y, rfl, his a x y c hj⟩

theorem mark_iso (l : Like R P Q h g) (m : Mark) (x y : HV) (c : Corr R x y) (hx : IsMark P h m x) : IsMark Q g m y := by
  obtain ⟨p, items, rfl, hp, ho, hn, ht, ha⟩ := hx
  obtain ⟨b, rfl, hab⟩ := corr_ref c
  obtain ⟨items', ho', hii⟩ := l.obj p b _ hab ho
  exact ⟨b, items', rfl, l.mem p b hab hp, ho', (keys_corr hii).trans hn, plain_iso l hii _ ht,
    slot_iso (is' := IsAttrs Q g) l hii _ (fun a x y c hx => attrs_iso l c hx) ha⟩

theorem isList_iso {α : Type} (l : Like R P Q h g) {is is' : α → HV → Prop} (his : ∀ a x y, Corr R x y → is a x → is' a y) (as : List α) (x y : HV)
    (c : Corr R x y) (hx : IsList P h is as x) : IsList Q g is' as y := by
  obtain ⟨p, items, rfl, hp, ho, hi⟩ := hx
  obtain ⟨b, rfl, hab⟩ := corr_ref c
  obtain ⟨items', ho', hii⟩ := l.obj p b _ hab ho
  refine ⟨b, items', rfl, l.mem p b hab hp, ho', ?_⟩
  have key : ∀ (as : List α) (xs ys : List (String × HV)), Items R xs ys → List.Forall₂ (fun a (e : String × HV) => is a e.2) as xs →
      List.Forall₂ (fun a (e : String × HV) => is' a e.2) as ys := fun as => by
    induction as with
    | nil => intro xs ys h1 h2; cases h2; cases h1; exact .nil
    | cons a as ih =>
      intro xs ys h1 h2
      cases h2 with
      | cons h3 h4 =>
        cases h1 with
        | cons h5 h6 => exact .cons (his a _ _ h5.2 h3) (ih _ _ h6 h4)
  exact key as _ _ hii hi

theorem hd_iso (l : Like R P Q h g) {xs ys : List (String × HV)} (hi : Items R xs ys) {hd : Hd} (hx : IsHd P h xs hd) : IsHd Q g ys hd := by
  obtain ⟨h1, h2, h3, h4, h5, h6⟩ := hx
  exact ⟨(keys_corr hi).trans h1, plain_iso l hi _ h2, plain_iso l hi _ h3, plain_iso l hi _ h4,
    slot_iso (is' := IsAttrs Q g) l hi _ (fun a x y c hx => attrs_iso l c hx) h5, slot_iso (is' := IsList Q g (IsMark Q g)) l hi _ (isList_iso l fun m x y => mark_iso l m x y) h6⟩

mutual
theorem node_iso (l : Like R P Q h g) : ∀ (n : Node) (x y : HV), Corr R x y → IsNode P h n x → IsNode Q g n y
  | .mk hd c, x, y, cr, hx => by
    obtain ⟨p, items, rfl, hp, ho, hh, hc⟩ := hx
    obtain ⟨b, rfl, hab⟩ := corr_ref cr
    obtain ⟨items', ho', hii⟩ := l.obj p b _ hab ho
    exact ⟨b, items', rfl, l.mem p b hab hp, ho', hd_iso l hii hh, content_iso l c _ _ hii hc⟩

theorem content_iso (l : Like R P Q h g) : ∀ (c : Slot (List Node)) (xs ys : List (String × HV)), Items R xs ys →
    IsContent P h c (itemGet xs "content") → IsContent Q g c (itemGet ys "content")
  | .absent, xs, ys, hi, hx => by
    rcases get_corr hi "content" with ⟨h1, h2⟩ | ⟨x, y, h1, h2, c⟩
    · exact h2
    · rw [h1] at hx; cases hx
  | .opt, xs, ys, hi, hx => by
    rcases get_corr hi "content" with ⟨h1, h2⟩ | ⟨x, y, h1, h2, c⟩
    · rw [h1] at hx; cases hx
    · rw [h1] at hx; cases hx; rw [h2, corr_imm c]; rfl
  | .raw v, xs, ys, hi, hx => by
    obtain ⟨h0, x', h3, hj⟩ := hx
    rcases get_corr hi "content" with ⟨h1, h2⟩ | ⟨x, y, h1, h2, c⟩
    · rw [h1] at h3; cases h3
    · rw [h1] at h3; cases h3; rw [h2]; exact ⟨h0, y, rfl, json_iso l v _ _ c hj⟩
  | .val ns, xs, ys, hi, hx => by
    obtain ⟨p, items, h3, hp, ho, hn⟩ := hx
    rcases get_corr hi "content" with ⟨h1, h2⟩ | ⟨x, y, h1, h2, c⟩
    · rw [h1] at h3; cases h3
    · rw [h1] at h3
      cases h3
      obtain ⟨b, rfl, hab⟩ := corr_ref c
      obtain ⟨items', ho', hii⟩ := l.obj p b _ hab ho
      exact ⟨b, items', h2, l.mem p b hab hp, ho', nodes_iso l ns _ _ hii hn⟩

theorem nodes_iso (l : Like R P Q h g) : ∀ (ns : List Node) (xs ys : List (String × HV)), Items R xs ys → AreNodes P h ns xs → AreNodes Q g ns ys
  | [], xs, ys, hi, hx => by
    rw [AreNodes] at hx ⊢
    subst hx
    cases hi
    rfl
  | n :: ns, xs, ys, hi, hx => by
    rw [AreNodes] at hx ⊢
    obtain ⟨e, rest, rfl, h1, h2⟩ := hx
    cases hi with
    | @cons _ f _ rest' he ht => exact ⟨f, rest', rfl, node_iso l n _ _ he.2 h1, nodes_iso l ns _ _ ht h2⟩
end

/-! ## What can be reached from a JSON value -/

theorem imm_reach {h : Heap} {i : Imm} {a : Nat} (hr : Reach h (.imm i) a) : False := by cases hr

/-- Everything that can be reached belongs to the value. -/
theorem json_reach {P : Nat → Prop} {h : Heap} : ∀ {x : HV} {a : Nat}, Reach h x a →
    (∃ v, Json P h v x) → P a ∧ a < h.length := by
  intro x a hr
  induction hr with
  | here a =>
    rintro ⟨v, hv⟩
    cases v with
    | list vs => rw [Json] at hv; obtain ⟨_, _, e, hp, ho, _⟩ := hv; cases e; exact ⟨hp, lt_of_get ho⟩
    | dict d => rw [Json] at hv; obtain ⟨_, _, e, hp, ho, _⟩ := hv; cases e; exact ⟨hp, lt_of_get ho⟩
    | _ => obtain ⟨i, e, _⟩ := hv; cases e
  | @step a b o e ho he hr ih =>
    rintro ⟨v, hv⟩
    refine ih ?_
    cases v with
    | list vs =>
      rw [Json] at hv
      obtain ⟨_, items, e', _, ho', hi⟩ := hv
      cases e'
      cases ho.symm.trans ho'
      have key : ∀ (vs : List Val) (items : List (String × HV)), JsonList P h vs items → e ∈ items → ∃ v, Json P h v e.2 := fun vs => by
        induction vs with
        | nil => intro items h1 h2; rw [JsonList] at h1; subst h1; cases h2
        | cons v vs ih' =>
          intro items h1 h2
          rw [JsonList] at h1
          obtain ⟨f, rest, rfl, h3, h4⟩ := h1
          rcases List.mem_cons.1 h2 with rfl | h2
          · exact ⟨v, h3⟩
          · exact ih' rest h4 h2
      exact key vs items hi he
    | dict d =>
      rw [Json] at hv
      obtain ⟨_, items, e', _, ho', hi⟩ := hv
      cases e'
      cases ho.symm.trans ho'
      have key : ∀ (d : List (String × Val)) (items : List (String × HV)), JsonDict P h d items → e ∈ items → ∃ v, Json P h v e.2 := fun d => by
        induction d with
        | nil => intro items h1 h2; rw [JsonDict] at h1; subst h1; cases h2
        | cons kv d ih' =>
          obtain ⟨k, v⟩ := kv
          intro items h1 h2
          rw [JsonDict] at h1
          obtain ⟨f, rest, rfl, h3, h4⟩ := h1
          rcases List.mem_cons.1 h2 with rfl | h2
          · exact ⟨v, h3⟩
          · exact ih' rest h4 h2
      exact key d items hi he
    | _ => obtain ⟨i, e, _⟩ := hv; cases e

end Verif.Iso
