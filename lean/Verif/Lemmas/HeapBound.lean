import Verif.Lemmas.HeapParse
/-! # What a value consists of exists -/

namespace Verif
open Verif.Spec

mutual
theorem json_bound {P Q : Nat → Prop} {h : Heap} (hpq : ∀ a o, P a → h[a]? = some o → Q a) :
    ∀ (v : Val) (x : HV), Json P h v x → Json Q h v x
  | .none, x, hj => hj
  | .bool _, x, hj => hj
  | .int _, x, hj => hj
  | .float _, x, hj => hj
  | .str _, x, hj => hj
  | .opt, x, hj => hj
  | .list vs, x, hj => by
    obtain ⟨a, items, rfl, hp, ho, hi⟩ := hj
    exact ⟨a, items, rfl, hpq a _ hp ho, ho, jsonList_bound hpq vs items hi⟩
  | .dict d, x, hj => by
    obtain ⟨a, items, rfl, hp, ho, hi⟩ := hj
    exact ⟨a, items, rfl, hpq a _ hp ho, ho, jsonDict_bound hpq d items hi⟩

theorem jsonList_bound {P Q : Nat → Prop} {h : Heap} (hpq : ∀ a o, P a → h[a]? = some o → Q a) :
    ∀ (vs : List Val) (items : List (String × HV)), JsonList P h vs items → JsonList Q h vs items
  | [], items, hj => hj
  | v :: vs, items, hj => by
    obtain ⟨e, rest, rfl, h1, h2⟩ := hj
    exact ⟨e, rest, rfl, json_bound hpq v _ h1, jsonList_bound hpq vs rest h2⟩

theorem jsonDict_bound {P Q : Nat → Prop} {h : Heap} (hpq : ∀ a o, P a → h[a]? = some o → Q a) :
    ∀ (d : List (String × Val)) (items : List (String × HV)), JsonDict P h d items → JsonDict Q h d items
  | [], items, hj => hj
  | (k, v) :: d, items, hj => by
    obtain ⟨x, rest, rfl, h1, h2⟩ := hj
    exact ⟨x, rest, rfl, json_bound hpq v _ h1, jsonDict_bound hpq d rest h2⟩
end

theorem isAttrs_bound {P Q : Nat → Prop} {h : Heap} (hpq : ∀ a o, P a → h[a]? = some o → Q a)
    {a : AttrsObj} {x : HV} (hx : IsAttrs P h a x) : IsAttrs Q h a x := by
  obtain ⟨p, items, rfl, hp, ho, hi⟩ := hx
  exact ⟨p, items, rfl, hpq p _ hp ho, ho, jsonDict_bound hpq _ _ hi⟩

theorem isPlain_bound {P Q : Nat → Prop} {h : Heap} (hpq : ∀ a o, P a → h[a]? = some o → Q a)
    {x : Option HV} {v : Option Val} (hx : IsPlain P h x v) : IsPlain Q h x v := by
  cases v with
  | none => exact hx
  | some v => obtain ⟨y, h1, h2⟩ := hx; exact ⟨y, h1, json_bound hpq v y h2⟩

theorem isSlot_bound {α : Type} {P Q : Nat → Prop} {h : Heap} (hpq : ∀ a o, P a → h[a]? = some o → Q a) {is is' : α → HV → Prop} (his : ∀ a x, is a x → is' a x) {x : Option HV}
    {sl : Slot α} (hx : IsSlot P h is x sl) : IsSlot Q h is' x sl := by
  cases sl with
  | absent => exact hx
  | opt => exact hx
  | raw v => obtain ⟨h0, y, h1, h2⟩ := hx; exact ⟨h0, y, h1, json_bound hpq v y h2⟩
  | val a => obtain ⟨y, h1, h2⟩ := hx; exact ⟨y, h1, his a y h2⟩

theorem isMark_bound {P Q : Nat → Prop} {h : Heap} (hpq : ∀ a o, P a → h[a]? = some o → Q a)
    {m : Mark} {x : HV} (hx : IsMark P h m x) : IsMark Q h m x := by
  obtain ⟨p, items, rfl, hp, ho, hn, ht, ha⟩ := hx
  exact ⟨p, items, rfl, hpq p _ hp ho, ho, hn, isPlain_bound hpq ht,
    isSlot_bound hpq (fun _ _ => isAttrs_bound hpq) ha⟩

theorem isList_bound {α : Type} {P Q : Nat → Prop} {h : Heap} (hpq : ∀ a o, P a → h[a]? = some o → Q a) {is is' : α → HV → Prop} (his : ∀ a x, is a x → is' a x) {as : List α}
    {x : HV} (hx : IsList P h is as x) : IsList Q h is' as x := by
  obtain ⟨p, items, rfl, hp, ho, hi⟩ := hx
  exact ⟨p, items, rfl, hpq p _ hp ho, ho, hi.imp fun _ _ h => his _ _ h⟩

theorem isHd_bound {P Q : Nat → Prop} {h : Heap} (hpq : ∀ a o, P a → h[a]? = some o → Q a)
    {items : List (String × HV)} {hd : Hd} (hx : IsHd P h items hd) : IsHd Q h items hd := by
  obtain ⟨h1, h2, h3, h4, h5, h6⟩ := hx
  exact ⟨h1, isPlain_bound hpq h2, isPlain_bound hpq h3, isPlain_bound hpq h4,
    isSlot_bound hpq (fun _ _ => isAttrs_bound hpq) h5,
    isSlot_bound hpq (fun _ _ => isList_bound hpq fun _ _ => isMark_bound hpq) h6⟩

mutual
theorem isNode_bound {P Q : Nat → Prop} {h : Heap} (hpq : ∀ a o, P a → h[a]? = some o → Q a) :
    ∀ (n : Node) (x : HV), IsNode P h n x → IsNode Q h n x
  | .mk hd c, x, hx => by
    obtain ⟨p, items, rfl, hp, ho, hh, hc⟩ := hx
    exact ⟨p, items, rfl, hpq p _ hp ho, ho, isHd_bound hpq hh, isContent_bound hpq c _ hc⟩

theorem isContent_bound {P Q : Nat → Prop} {h : Heap} (hpq : ∀ a o, P a → h[a]? = some o → Q a) :
    ∀ (c : Slot (List Node)) (x : Option HV), IsContent P h c x → IsContent Q h c x
  | .absent, x, hx => hx
  | .opt, x, hx => hx
  | .raw v, x, hx => by obtain ⟨h0, y, h1, h2⟩ := hx; exact ⟨h0, y, h1, json_bound hpq v y h2⟩
  | .val ns, x, hx => by
    obtain ⟨p, items, h1, hp, ho, hi⟩ := hx
    exact ⟨p, items, h1, hpq p _ hp ho, ho, areNodes_bound hpq ns items hi⟩

theorem areNodes_bound {P Q : Nat → Prop} {h : Heap} (hpq : ∀ a o, P a → h[a]? = some o → Q a) :
    ∀ (ns : List Node) (items : List (String × HV)), AreNodes P h ns items → AreNodes Q h ns items
  | [], items, hx => hx
  | n :: ns, items, hx => by
    obtain ⟨e, rest, rfl, h1, h2⟩ := hx
    exact ⟨e, rest, rfl, isNode_bound hpq n _ h1, areNodes_bound hpq ns rest h2⟩
end

end Verif
