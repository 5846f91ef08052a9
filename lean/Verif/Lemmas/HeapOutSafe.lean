import Verif.Model.HeapOut
import Verif.Lemmas.HeapSafe
/-!
# `to_dict` writes only to objects it creates, and builds only from such objects
-/

namespace Verif
open Verif.Spec

mutual
theorem safe_asdict (N L fuel : Nat) (x : HV) : Safe N L (asdictH fuel x) (Fresh N) := by
  match fuel, x with
  | fuel, .imm i => rw [asdictH]; exact Safe.pure fun _ _ => trivial
  | 0, .ref a => rw [asdictH]; exact Safe.throw
  | fuel + 1, .ref a =>
    rw [asdictH]
    exact Safe.bind Safe.read fun L1 o _ _ => Safe.bind (safe_asdictItems N L1 fuel o.items) fun L2 items _ hi =>
      Safe.bind (Safe.alloc hi) fun L3 r _ hr => Safe.pure fun L' hl => ⟨hr.1, Nat.lt_of_lt_of_le hr.2 hl⟩
termination_by (fuel, 0)

theorem safe_asdictItems (N L fuel : Nat) (items : List (String × HV)) :
    Safe N L (asdictItems fuel items) fun L' r => ∀ e ∈ r, Fresh N L' e.2 := by
  match items with
  | [] => rw [asdictItems]; exact Safe.pure (by intro _ _ e he; cases he)
  | (k, v) :: rest =>
    rw [asdictItems]
    refine Safe.bind (safe_asdict N L fuel v) fun L1 v' _ hv => Safe.bind (safe_asdictItems N L1 fuel rest)
      fun L2 r hl2 hr => Safe.pure fun L' hl => ?_
    intro e he
    rcases List.mem_cons.mp he with h | h
    · rw [h]; exact hv.mono (Nat.le_trans hl2 hl)
    · exact (hr e h).mono hl
termination_by (fuel, items.length + 1)
end

theorem safe_addrOf (N L : Nat) {v : HV} (hv : Fresh N L v) : Safe N L (addrOf v) fun _ d => N ≤ d := by
  match v with
  | .imm _ => exact Safe.throw
  | .ref a => exact Safe.pure fun _ _ => hv.1

theorem safe_removeOptional (N L d : Nat) (hd : N ≤ d) : Safe N L (removeOptionalH d) (Fresh N) := by
  unfold removeOptionalH
  exact Safe.bind Safe.read fun L1 o _ ho => Safe.bind
    (Safe.alloc fun e he => ho hd e (List.mem_filter.mp he).1) fun L2 r _ hr =>
    Safe.pure fun L' hl => ⟨hr.1, Nat.lt_of_lt_of_le hr.2 hl⟩

theorem safe_baseToDict (N L fuel : Nat) (x : HV) : Safe N L (baseToDictH fuel x) (Fresh N) := by
  unfold baseToDictH
  exact Safe.bind (safe_asdict N L fuel x) fun L1 v _ hv => Safe.bind (safe_addrOf N L1 hv) fun L2 d _ hd =>
    safe_removeOptional N L2 d hd

theorem safe_map (N L : Nat) {f : HV → HM HV} (hf : ∀ L v, Safe N L (f v) (Fresh N))
    (items : List (String × HV)) : Safe N L (mapH f items) fun L' vs => ∀ v ∈ vs, Fresh N L' v := by
  induction items generalizing L with
  | nil => exact Safe.pure (by intro _ _ v h; cases h)
  | cons e rest ih =>
    unfold mapH
    refine Safe.bind (hf L e.2) fun L1 v _ hv => Safe.bind (ih L1) fun L2 vs hl2 hvs =>
      Safe.pure fun L' hl => ?_
    intro w hw
    rcases List.mem_cons.mp hw with h | h
    · rw [h]; exact hv.mono (Nat.le_trans hl2 hl)
    · exact (hvs w h).mono hl

theorem safe_newList (N L : Nat) {items : List (String × HV)} (h : ∀ e ∈ items, Fresh N L e.2) :
    Safe N L (HM.alloc ⟨.list, items⟩ >>= fun r => HM.pure (HV.ref r)) (Fresh N) :=
  Safe.bind (Safe.alloc h) fun _ _ _ hr => Safe.pure fun _ hl => ⟨hr.1, Nat.lt_of_lt_of_le hr.2 hl⟩

theorem safe_listToDict (N L : Nat) {f : HV → HM HV} (hf : ∀ L v, Safe N L (f v) (Fresh N)) (v : HV) :
    Safe N L (listToDictH f v) (Fresh N) := by
  unfold listToDictH
  split
  · exact safe_newList N L (by intro e he; cases he)
  · exact Safe.throw
  · exact Safe.throw
  · refine Safe.bind Safe.read fun L1 o _ _ => ?_
    split
    · refine Safe.bind (safe_map N L1 hf _) fun L2 vs _ hvs => safe_newList N L2 ?_
      intro e he
      obtain ⟨v, hv, rfl⟩ := List.mem_map.mp he
      exact hvs v hv
    · split
      · exact safe_newList N L1 (by intro e he; cases he)
      · exact Safe.throw
    · exact Safe.throw

theorem safe_listField (N L : Nat) (key : String) {f : HV → HM HV}
    (hf : ∀ L v, Safe N L (f v) (Fresh N)) (self : List (String × HV)) (d : Nat) (hd : N ≤ d) :
    Safe N L (listFieldH key f self d) fun _ _ => True := by
  unfold listFieldH
  refine Safe.bind Safe.read fun L1 o _ _ => ?_
  split
  · exact Safe.pure fun _ _ => trivial
  · exact Safe.pure fun _ _ => trivial
  · exact Safe.throw
  · exact Safe.bind (safe_listToDict N L1 hf _) fun L2 r _ hr => Safe.setItem hd hr

theorem safe_attrsField (N L fuel : Nat) (self : List (String × HV)) (d : Nat) (hd : N ≤ d) :
    Safe N L (attrsFieldH fuel self d) fun _ _ => True := by
  unfold attrsFieldH
  refine Safe.bind Safe.read fun L1 o _ _ => ?_
  split
  · exact Safe.pure fun _ _ => trivial
  · exact Safe.pure fun _ _ => trivial
  · refine Safe.bind Safe.read fun L2 ao _ _ => ?_
    split
    · exact Safe.bind (safe_baseToDict N L2 fuel _) fun L3 r _ hr => Safe.setItem hd hr
    · exact Safe.pure fun _ _ => trivial
  · exact Safe.pure fun _ _ => trivial

theorem safe_toDict (N L fuel : Nat) (x : HV) : Safe N L (toDictH fuel x) (Fresh N) := by
  induction fuel generalizing x L with
  | zero =>
    match x with
    | .imm _ => rw [toDictH]; exact Safe.throw
    | .ref a => rw [toDictH]; exact Safe.throw
  | succ fuel ih =>
    match x with
    | .imm _ => rw [toDictH]; exact Safe.throw
    | .ref a =>
      rw [toDictH]
      refine Safe.bind Safe.read fun L1 o _ _ => ?_
      split
      · exact Safe.bind (safe_asdict N L1 _ _) fun L2 v _ hv => Safe.bind (safe_addrOf N L2 hv) fun L3 d _ hd =>
          Safe.bind (safe_attrsField N L3 fuel o.items d hd) fun L4 _ _ _ =>
          Safe.bind (safe_listField N L4 _ (fun L v => ih L v) o.items d hd) fun L5 _ _ _ =>
          Safe.bind (safe_listField N L5 _ (fun L v => ih L v) o.items d hd) fun L6 _ _ _ =>
          safe_removeOptional N L6 d hd
      · exact safe_baseToDict N L1 _ _
      · exact Safe.throw

/-! ## Nothing is logged -/

def Quiet {α : Type} (m : HM α) : Prop := ∀ s, (m s).2.log = s.log

theorem Quiet.bind {α β : Type} {m : HM α} {f : α → HM β} (hm : Quiet m) (hf : ∀ a, Quiet (f a)) :
    Quiet (m >>= f) := by
  intro s
  rw [bind_run]
  have h := hm s
  cases hr : m s with
  | mk r s' =>
    rw [hr] at h
    cases r with
    | error e => exact h
    | ok a => exact (hf a s').trans h

theorem Quiet.pure {α : Type} (a : α) : Quiet (HM.pure a) := fun _ => rfl
theorem Quiet.throw {α : Type} (e : HErr) : Quiet (HM.throw (α := α) e) := fun _ => rfl
theorem Quiet.alloc (o : HObj) : Quiet (HM.alloc o) := fun _ => rfl
theorem Quiet.write (a : Nat) (o : HObj) : Quiet (HM.write a o) := fun _ => rfl
theorem Quiet.read (a : Nat) : Quiet (HM.read a) := by
  intro s; unfold HM.read; split <;> rfl
theorem Quiet.setItem (a : Nat) (k : String) (v : HV) : Quiet (HM.setItem a k v) :=
  Quiet.bind (Quiet.read a) fun _ => Quiet.write _ _

mutual
theorem quiet_asdict (fuel : Nat) (x : HV) : Quiet (asdictH fuel x) := by
  match fuel, x with
  | fuel, .imm i => rw [asdictH]; exact .pure _
  | 0, .ref a => rw [asdictH]; exact .throw _
  | fuel + 1, .ref a =>
    rw [asdictH]
    exact .bind (.read a) fun o => .bind (quiet_asdictItems fuel o.items) fun _ => .bind (.alloc _) fun _ => .pure _
termination_by (fuel, 0)

theorem quiet_asdictItems (fuel : Nat) (items : List (String × HV)) : Quiet (asdictItems fuel items) := by
  match items with
  | [] => rw [asdictItems]; exact .pure _
  | (k, v) :: rest =>
    rw [asdictItems]
    exact .bind (quiet_asdict fuel v) fun _ => .bind (quiet_asdictItems fuel rest) fun _ => .pure _
termination_by (fuel, items.length + 1)
end

theorem quiet_addrOf (v : HV) : Quiet (addrOf v) := by
  match v with
  | .imm _ => exact .throw _
  | .ref a => exact .pure _

theorem quiet_removeOptional (d : Nat) : Quiet (removeOptionalH d) :=
  .bind (.read d) fun _ => .bind (.alloc _) fun _ => .pure _

theorem quiet_baseToDict (fuel : Nat) (x : HV) : Quiet (baseToDictH fuel x) :=
  .bind (quiet_asdict fuel x) fun v => .bind (quiet_addrOf v) fun d => quiet_removeOptional d

theorem quiet_map {f : HV → HM HV} (hf : ∀ v, Quiet (f v)) (items : List (String × HV)) : Quiet (mapH f items) := by
  induction items with
  | nil => exact .pure _
  | cons e rest ih => exact .bind (hf e.2) fun _ => .bind ih fun _ => .pure _

theorem quiet_listToDict {f : HV → HM HV} (hf : ∀ v, Quiet (f v)) (v : HV) : Quiet (listToDictH f v) := by
  unfold listToDictH
  split
  · exact .bind (.alloc _) fun _ => .pure _
  · exact .throw _
  · exact .throw _
  · refine .bind (.read _) fun o => ?_
    split
    · exact .bind (quiet_map hf _) fun _ => .bind (.alloc _) fun _ => .pure _
    · split
      · exact .bind (.alloc _) fun _ => .pure _
      · exact .throw _
    · exact .throw _

theorem quiet_listField {f : HV → HM HV} (hf : ∀ v, Quiet (f v)) (key : String) (self : List (String × HV))
    (d : Nat) : Quiet (listFieldH key f self d) := by
  unfold listFieldH
  refine .bind (.read _) fun o => ?_
  split
  · exact .pure _
  · exact .pure _
  · exact .throw _
  · exact .bind (quiet_listToDict hf _) fun _ => .setItem _ _ _

theorem quiet_attrsField (fuel : Nat) (self : List (String × HV)) (d : Nat) : Quiet (attrsFieldH fuel self d) := by
  unfold attrsFieldH
  refine .bind (.read _) fun o => ?_
  split
  · exact .pure _
  · exact .pure _
  · refine .bind (.read _) fun o => ?_
    split
    · exact .bind (quiet_baseToDict _ _) fun _ => .setItem _ _ _
    · exact .pure _
  · exact .pure _

theorem quiet_toDict (fuel : Nat) (x : HV) : Quiet (toDictH fuel x) := by
  induction fuel generalizing x with
  | zero =>
    match x with
    | .imm _ => rw [toDictH]; exact .throw _
    | .ref a => rw [toDictH]; exact .throw _
  | succ fuel ih =>
    match x with
    | .imm _ => rw [toDictH]; exact .throw _
    | .ref a =>
      rw [toDictH]
      refine .bind (.read _) fun o => ?_
      split
      · exact .bind (quiet_asdict _ _) fun v => .bind (quiet_addrOf v) fun d =>
          .bind (quiet_attrsField _ _ _) fun _ => .bind (quiet_listField ih _ _ _) fun _ =>
          .bind (quiet_listField ih _ _ _) fun _ => quiet_removeOptional _
      · exact quiet_baseToDict _ _
      · exact .throw _

end Verif
