import Verif.Lemmas.HeapCopy
import Verif.Lemmas.RoundTrip
/-!
# The heap programs agree with the value model
-/

namespace Verif
open Verif.Spec

/-! ## Stability of the relations -/

theorem isAttrs_mono {P Q : Nat → Prop} {h h' : Heap} (hk : Keeps' P h h') (hpq : ∀ a, P a → Q a)
    {a : AttrsObj} {x : HV} (hx : IsAttrs P h a x) : IsAttrs Q h' a x := by
  obtain ⟨p, items, rfl, hp, ho, hi⟩ := hx
  exact ⟨p, items, rfl, hpq p hp, hk p _ hp ho, jsonDict_mono hk hpq _ _ hi⟩

theorem isPlain_mono {P Q : Nat → Prop} {h h' : Heap} (hk : Keeps' P h h') (hpq : ∀ a, P a → Q a)
    {x : Option HV} {v : Option Val} (hx : IsPlain P h x v) : IsPlain Q h' x v := by
  cases v with
  | none => exact hx
  | some v => obtain ⟨y, h1, h2⟩ := hx; exact ⟨y, h1, json_mono hk hpq v y h2⟩

theorem isSlot_mono {α : Type} {P Q : Nat → Prop} {h h' : Heap} (hk : Keeps' P h h')
    (hpq : ∀ a, P a → Q a) {is is' : α → HV → Prop} (his : ∀ a x, is a x → is' a x) {x : Option HV}
    {sl : Slot α} (hx : IsSlot P h is x sl) : IsSlot Q h' is' x sl := by
  cases sl with
  | absent => exact hx
  | opt => exact hx
  | raw v => obtain ⟨h0, y, h1, h2⟩ := hx; exact ⟨h0, y, h1, json_mono hk hpq v y h2⟩
  | val a => obtain ⟨y, h1, h2⟩ := hx; exact ⟨y, h1, his a y h2⟩

theorem isMark_mono {P Q : Nat → Prop} {h h' : Heap} (hk : Keeps' P h h') (hpq : ∀ a, P a → Q a)
    {m : Mark} {x : HV} (hx : IsMark P h m x) : IsMark Q h' m x := by
  obtain ⟨p, items, rfl, hp, ho, hn, ht, ha⟩ := hx
  exact ⟨p, items, rfl, hpq p hp, hk p _ hp ho, hn, isPlain_mono hk hpq ht,
    isSlot_mono hk hpq (fun _ _ => isAttrs_mono hk hpq) ha⟩

theorem isList_mono {α : Type} {P Q : Nat → Prop} {h h' : Heap} (hk : Keeps' P h h')
    (hpq : ∀ a, P a → Q a) {is is' : α → HV → Prop} (his : ∀ a x, is a x → is' a x) {as : List α}
    {x : HV} (hx : IsList P h is as x) : IsList Q h' is' as x := by
  obtain ⟨p, items, rfl, hp, ho, hi⟩ := hx
  exact ⟨p, items, rfl, hpq p hp, hk p _ hp ho, hi.imp fun _ _ h => his _ _ h⟩

theorem isHd_mono {P Q : Nat → Prop} {h h' : Heap} (hk : Keeps' P h h') (hpq : ∀ a, P a → Q a)
    {items : List (String × HV)} {hd : Hd} (hx : IsHd P h items hd) : IsHd Q h' items hd := by
  obtain ⟨h1, h2, h3, h4, h5, h6⟩ := hx
  exact ⟨h1, isPlain_mono hk hpq h2, isPlain_mono hk hpq h3, isPlain_mono hk hpq h4,
    isSlot_mono hk hpq (fun _ _ => isAttrs_mono hk hpq) h5,
    isSlot_mono hk hpq (fun _ _ => isList_mono hk hpq fun _ _ => isMark_mono hk hpq) h6⟩

mutual
theorem isNode_mono {P Q : Nat → Prop} {h h' : Heap} (hk : Keeps' P h h') (hpq : ∀ a, P a → Q a) :
    ∀ (n : Node) (x : HV), IsNode P h n x → IsNode Q h' n x
  | .mk hd c, x, hx => by
    obtain ⟨p, items, rfl, hp, ho, hh, hc⟩ := hx
    exact ⟨p, items, rfl, hpq p hp, hk p _ hp ho, isHd_mono hk hpq hh, isContent_mono hk hpq c _ hc⟩

theorem isContent_mono {P Q : Nat → Prop} {h h' : Heap} (hk : Keeps' P h h') (hpq : ∀ a, P a → Q a) :
    ∀ (c : Slot (List Node)) (x : Option HV), IsContent P h c x → IsContent Q h' c x
  | .absent, x, hx => hx
  | .opt, x, hx => hx
  | .raw v, x, hx => by obtain ⟨h0, y, h1, h2⟩ := hx; exact ⟨h0, y, h1, json_mono hk hpq v y h2⟩
  | .val ns, x, hx => by
    obtain ⟨p, items, h1, hp, ho, hi⟩ := hx
    exact ⟨p, items, h1, hpq p hp, hk p _ hp ho, areNodes_mono hk hpq ns items hi⟩

theorem areNodes_mono {P Q : Nat → Prop} {h h' : Heap} (hk : Keeps' P h h') (hpq : ∀ a, P a → Q a) :
    ∀ (ns : List Node) (items : List (String × HV)), AreNodes P h ns items → AreNodes Q h' ns items
  | [], items, hx => hx
  | n :: ns, items, hx => by
    obtain ⟨e, rest, rfl, h1, h2⟩ := hx
    exact ⟨e, rest, rfl, isNode_mono hk hpq n _ h1, areNodes_mono hk hpq ns rest h2⟩
end

/-! ## Dict entries -/

theorem jsonDict_get {P : Nat → Prop} {h : Heap} {d : List (String × Val)} {items : List (String × HV)}
    (hj : JsonDict P h d items) (k : String) : IsPlain P h (itemGet items k) (lookupKey d k) := by
  induction d generalizing items with
  | nil => rw [show items = [] from hj]; rfl
  | cons e d ih =>
    obtain ⟨k', v⟩ := e
    obtain ⟨x, rest, rfl, h1, h2⟩ := hj
    unfold itemGet lookupKey
    by_cases hk : k' = k
    · rw [if_pos hk, if_pos hk]; exact ⟨x, rfl, h1⟩
    · rw [if_neg hk, if_neg hk]; exact ih h2

theorem isPlain_isSome {P : Nat → Prop} {h : Heap} {x : Option HV} {v : Option Val} (hp : IsPlain P h x v) :
    x.isSome = v.isSome := by
  cases v with
  | none => rw [show x = none from hp]; rfl
  | some v => obtain ⟨y, rfl, _⟩ := hp; rfl

theorem itemGet_itemSet_self {items : List (String × HV)} {k : String} {v : HV}
    (h : (itemGet items k).isSome = true) : itemGet (itemSet items k v) k = some v := by
  induction items with
  | nil => cases h
  | cons e rest ih =>
    obtain ⟨k', v'⟩ := e
    unfold itemGet at h
    unfold itemSet
    by_cases hk : k' = k
    · rw [if_pos hk, itemGet, if_pos hk]
    · rw [if_neg hk] at h ⊢
      rw [itemGet, if_neg hk]
      exact ih h

theorem itemGet_itemSet_ne {items : List (String × HV)} {k k' : String} {v : HV} (h : k' ≠ k) :
    itemGet (itemSet items k v) k' = itemGet items k' := by
  induction items with
  | nil => rfl
  | cons e rest ih =>
    obtain ⟨k2, v'⟩ := e
    unfold itemSet
    by_cases hk : k2 = k
    · rw [if_pos hk]
      unfold itemGet
      rw [if_neg (by rw [hk]; exact Ne.symm h), if_neg (by rw [hk]; exact Ne.symm h)]
    · rw [if_neg hk]
      unfold itemGet
      rw [ih]

/-- The dict being filled at `b`: entries outside `K` are as in the input. -/
structure Work (b : Nat) (d : List (String × Val)) (K : List String) (h : Heap)
    (items : List (String × HV)) : Prop where
  obj : h[b]? = some ⟨.dict, items⟩
  plain : ∀ k, k ∉ K → IsPlain (fun a => b < a) h (itemGet items k) (lookupKey d k)
  keys : ∀ k, (itemGet items k).isSome = hasKey d k

theorem work_of_json {b : Nat} {d : List (String × Val)} {h : Heap} {items : List (String × HV)}
    (ho : h[b]? = some ⟨.dict, items⟩) (hj : JsonDict (fun a => b < a) h d items) :
    Work b d [] h items :=
  ⟨ho, fun k _ => jsonDict_get hj k, fun k => isPlain_isSome (jsonDict_get hj k)⟩

theorem Work.set {b : Nat} {d : List (String × Val)} {K : List String} {h h' : Heap}
    {items : List (String × HV)} (hw : Work b d K h items) {k : String} {v : HV}
    (hk : hasKey d k = true) (ho : h'[b]? = some ⟨.dict, itemSet items k v⟩)
    (hh : Keeps' (fun a => b < a) h h') : Work b d (k :: K) h' (itemSet items k v) := by
  refine ⟨ho, ?_, ?_⟩
  · intro k' hk'
    rw [List.mem_cons, not_or] at hk'
    rw [itemGet_itemSet_ne hk'.1]
    exact isPlain_mono hh (fun _ h => h) (hw.plain k' hk'.2)
  · intro k'
    by_cases e : k' = k
    · subst e
      rw [itemGet_itemSet_self (by rw [hw.keys]; exact hk), hk]; rfl
    · rw [itemGet_itemSet_ne e]; exact hw.keys k'

/-! ## Constructors -/

/-- Literal defaults are immutable. -/
def LitOk (fs : List Field) : Prop := ∀ f ∈ fs, ∀ v, f.dflt = .lit v → (Imm.ofVal v).toVal = v

theorem base_run (t : Tag) (fs : List Field) {s : St} {p : Nat} {items : List (String × HV)}
    {g : String → Bool} (ho : s.heap[p]? = some ⟨.dict, items⟩)
    (hg : ∀ k, (itemGet items k).isSome = g k) :
    baseFromDictH t fs (.ref p) s = match checkRequired fs g with
      | .error e => (.error (.py e), s)
      | .ok () => (.ok (.ref s.heap.length), { s with heap := s.heap ++
          [⟨.inst t, fs.map fun f => (f.name, fieldValueH items f)⟩] }) := by
  unfold baseFromDictH
  simp only
  rw [bind_run]
  unfold HM.read
  rw [ho]
  simp only
  rw [bind_run]
  unfold HM.ofExcept
  have : (fun k => (itemGet items k).isSome) = g := funext hg
  rw [this]
  cases checkRequired fs g <;> rfl

theorem isPlain_field {P : Nat → Prop} {h : Heap} {items : List (String × HV)} {d : List (String × Val)}
    {f : Field} (hp : IsPlain P h (itemGet items f.name) (lookupKey d f.name))
    (hl : ∀ v, f.dflt = .lit v → (Imm.ofVal v).toVal = v) : Json P h (fieldValue d f) (fieldValueH items f) := by
  unfold fieldValue fieldValueH
  cases hv : lookupKey d f.name with
  | some v =>
    rw [hv] at hp
    obtain ⟨y, h1, h2⟩ := hp
    rw [h1]; exact h2
  | none =>
    rw [hv] at hp
    rw [show itemGet items f.name = none from hp]
    simp only
    cases hd : f.dflt with
    | lit v => simp only; rw [← hl v hd]; convert json_imm _; exact hl v hd
    | noDefault => exact json_imm .opt
    | req => exact json_imm .opt
    | opt => exact json_imm .opt

theorem jsonDict_fields {P : Nat → Prop} {h : Heap} {items : List (String × HV)} {d : List (String × Val)}
    (fs : List Field) (hp : ∀ k, IsPlain P h (itemGet items k) (lookupKey d k)) (hl : LitOk fs) :
    JsonDict P h (fs.map fun f => (f.name, fieldValue d f)) (fs.map fun f => (f.name, fieldValueH items f)) := by
  induction fs with
  | nil => rfl
  | cons f fs ih =>
    exact ⟨_, _, rfl, isPlain_field (hp f.name) (hl f (by simp)), ih fun g hg => hl g (by simp [hg])⟩

theorem itemGet_fields (fs : List Field) (g : Field → HV) (k : String) :
    itemGet (fs.map fun f => (f.name, g f)) k = (fs.find? fun f => f.name == k).map g := by
  induction fs with
  | nil => rfl
  | cons f fs ih =>
    rw [List.map_cons, itemGet, List.find?_cons]
    by_cases h : f.name = k
    · rw [if_pos h]; simp [h]
    · rw [if_neg h, ih]
      have : (f.name == k) = false := by simpa using h
      rw [this]

/-- A plain attribute of the new instance. -/
theorem inst_plain {P : Nat → Prop} {h : Heap} {items : List (String × HV)} {d : List (String × Val)}
    {fs : List Field} (hl : LitOk fs) (k : String)
    (hp : IsPlain P h (itemGet items k) (lookupKey d k)) :
    IsPlain P h (itemGet (fs.map fun f => (f.name, fieldValueH items f)) k) (valOf fs k d) := by
  rw [itemGet_fields]
  unfold valOf
  cases hf : fs.find? fun f => f.name == k with
  | none => rfl
  | some f =>
    have hn : f.name = k := by simpa using List.find?_some hf
    subst hn
    exact ⟨_, rfl, isPlain_field hp (hl f (List.mem_of_find?_eq_some hf))⟩

/-- A converted attribute of the new instance: `given` is what the step stored in the dict. -/
theorem inst_slot {α : Type} {P : Nat → Prop} {h : Heap} {is : α → HV → Prop} {items : List (String × HV)}
    {fs : List Field} (k : String) (given : Option (Slot α))
    (hfd : fieldDflt fs k = none ∨ fieldDflt fs k = some .req ∨ fieldDflt fs k = some .opt)
    (h0 : fieldDflt fs k ≠ none → given = none → itemGet items k = none)
    (h1 : fieldDflt fs k ≠ none → ∀ sl, given = some sl → (itemGet items k).isSome = true ∧
      IsSlot P h is (itemGet items k) sl) :
    IsSlot P h is (itemGet (fs.map fun f => (f.name, fieldValueH items f)) k) (slotOf fs k given) := by
  rw [itemGet_fields]
  unfold slotOf fieldDflt at *
  cases hf : fs.find? fun f => f.name == k with
  | none => rfl
  | some f =>
    have hn : f.name = k := by simpa using List.find?_some hf
    subst hn
    rw [hf] at h0 h1 hfd
    simp only [Option.map_some]
    cases given with
    | some sl =>
      obtain ⟨h2, h3⟩ := h1 (by simp) sl rfl
      simp only
      unfold fieldValueH
      obtain ⟨y, hy⟩ := Option.isSome_iff_exists.mp h2
      rw [hy] at h3 ⊢
      exact h3
    | none =>
      simp only
      unfold fieldValueH
      rw [h0 (by simp) rfl]
      simp only [Option.map_some, reduceCtorEq, Option.some.injEq, false_or] at hfd
      rcases hfd with hfd | hfd <;> rw [hfd] <;> rfl

/-! ## Simulation -/

/-- From `s`, the program `m` does what `r` says: same exception or related result, same warnings, and
existing objects unchanged. -/
def Sim {α β : Type} (is : Heap → α → β → Prop) (m : HM β) (s : St) (r : Res α) : Prop :=
  ∃ s', s'.log = s.log ++ r.log ∧ s.heap.length ≤ s'.heap.length ∧
    (∀ a, a < s.heap.length → s'.heap[a]? = s.heap[a]?) ∧
    match r.out with
    | .ok x => ∃ v, m s = (.ok v, s') ∧ is s'.heap x v
    | .error e => m s = (.error (.py e), s')

/-- The attrs step. -/
theorem attrsStep_sim (afs : Option (List Field)) {b : Nat} {d : List (String × Val)} {s : St}
    {items : List (String × HV)} (hw : Work b d [] s.heap items) (hl : ∀ fs, afs = some fs → LitOk fs) :
    match attrsStep afs d with
    | .error e => attrsStepH afs b s = (.error (.py e), s)
    | .ok none => attrsStepH afs b s = (.ok (), s)
    | .ok (some a) => ∃ s' y, attrsStepH afs b s = (.ok (), s') ∧ s'.log = s.log ∧
        s.heap.length ≤ s'.heap.length ∧ (∀ p, p < s.heap.length → p ≠ b → s'.heap[p]? = s.heap[p]?) ∧
        Work b d ["attrs"] s'.heap (itemSet items "attrs" y) ∧ IsAttrs (fun p => b < p) s'.heap a y ∧
        hasKey d "attrs" = true := by
  have hb : b < s.heap.length := lt_of_get hw.obj
  have hread : ∀ {β : Type} (f : HObj → HM β), (HM.read b >>= f) s = f ⟨.dict, items⟩ s := by
    intro β f
    rw [bind_run]
    unfold HM.read
    rw [hw.obj]
  unfold attrsStep attrsStepH
  rw [hread]
  have hp := hw.plain "attrs" (by simp)
  cases hv : lookupKey d "attrs" with
  | none =>
    rw [hv] at hp
    rw [show itemGet items "attrs" = none from hp]
    rfl
  | some v =>
    rw [hv] at hp
    obtain ⟨y, h1, h2⟩ := hp
    rw [h1]
    cases afs with
    | none => rfl
    | some fs =>
      simp only
      have hkey : hasKey d "attrs" = true := by unfold hasKey; rw [hv]; rfl
      unfold attrsFromDict
      match y, h1, h2 with
      | .imm i, h1, h2 =>
        have e := json_imm_iff h2
        subst e
        cases i <;> rfl
      | .ref p, h1, h2 =>
        obtain ⟨hp, o, ho, _, hk⟩ := json_ref h2
        rcases hk with ⟨vs, rfl, hk, _⟩ | ⟨da, rfl, hk, hd⟩
        · simp only
          rw [bind_run]
          unfold baseFromDictH
          simp only
          rw [bind_run]
          unfold HM.read
          rw [ho]
          simp only [hk]
          rfl
        · have ho' : s.heap[p]? = some ⟨.dict, o.items⟩ := by rw [ho, ← hk]
          simp only
          rw [bind_run, base_run .attrs fs ho' (g := hasKey da) fun k => isPlain_isSome (jsonDict_get hd k)]
          cases hc : checkRequired fs (hasKey da) with
          | error e => rfl
          | ok u =>
            simp only
            let o2 : HObj := ⟨.inst .attrs, fs.map fun f => (f.name, fieldValueH o.items f)⟩
            let h2' : Heap := s.heap ++ [o2]
            have hb2 : h2'[b]? = some ⟨.dict, items⟩ := by
              show (s.heap ++ [_])[b]? = _
              rw [List.getElem?_append_left hb]; exact hw.obj
            let new : HV := .ref s.heap.length
            let s3 : St := { s with heap := h2'.set b ⟨.dict, itemSet items "attrs" new⟩ }
            have hlen : s3.heap.length = s.heap.length + 1 := by
              show (List.set (s.heap ++ [_]) _ _).length = _
              simp
            have hob3 : s3.heap[b]? = some ⟨.dict, itemSet items "attrs" new⟩ :=
              List.getElem?_set_self (by show b < (s.heap ++ [_]).length; simp; omega)
            have hother : ∀ q, q ≠ b → s3.heap[q]? = h2'[q]? := fun q hq => List.getElem?_set_ne (Ne.symm hq)
            have hold : ∀ q, q < s.heap.length → q ≠ b → s3.heap[q]? = s.heap[q]? := by
              intro q hq hqb
              rw [hother q hqb]
              exact List.getElem?_append_left hq
            have hkeeps : Keeps' (fun q => b < q) s.heap s3.heap := by
              intro q o hq ho
              rw [hold q (lt_of_get ho) (by omega)]; exact ho
            refine ⟨s3, new, ?_, rfl, by omega, hold, ?_, ?_, hkey⟩
            · unfold HM.setItem
              rw [bind_run]
              unfold HM.read
              simp only
              rw [show (s.heap ++ [o2])[b]? = _ from hb2]
              rfl
            · exact hw.set hkey hob3 hkeeps
            · refine ⟨s.heap.length, o2.items, rfl, hb, ?_, ?_⟩
              · rw [hother _ (by omega)]
                show (s.heap ++ [_])[_]? = _
                rw [List.getElem?_append_right (Nat.le_refl _)]
                simp [o2]
              · exact jsonDict_fields fs (fun k => isPlain_mono hkeeps (fun _ h => h) (jsonDict_get hd k))
                  (hl fs rfl)

theorem skip_run (w : Bool) (m : HM HV) (s : St) :
    skipH w m s = match m s with
      | (.ok v, s') => (.ok [v], s')
      | (.error (.py (.unimplementedType t c)), s') =>
        HM.bind (HM.warn (if w then [⟨t, c⟩] else [])) (fun _ => HM.pure []) s'
      | (.error e, s') => (.error e, s') := rfl

/-- `try .. except UnimplementedTypeError`. -/
theorem skip_sim {α : Type} {is : Heap → α → HV → Prop} {m : HM HV} {s : St} {r : Res α} (w : Bool)
    (h : Sim is m s r) :
    Sim (fun h o vs => List.Forall₂ (is h) o.toList vs) (skipH w m) s (r.skipUnimplemented w) := by
  obtain ⟨s', h1, h2, h3, h4⟩ := h
  unfold Res.skipUnimplemented Sim
  rw [skip_run]
  cases hr : r.out with
  | ok x =>
    rw [hr] at h4
    obtain ⟨v, h5, h6⟩ := h4
    exact ⟨s', h1, h2, h3, [v], by rw [h5], .cons h6 .nil⟩
  | error e =>
    rw [hr] at h4
    cases e
    case unimplementedType t c =>
      refine ⟨⟨s'.heap, s'.log ++ (if w then [⟨t, c⟩] else [])⟩, ?_, h2, h3, [], ?_, .nil⟩
      · simp only; rw [h1, List.append_assoc]
      · simp only at h4; rw [h4]; rfl
    all_goals exact ⟨s', h1, h2, h3, by simp only at h4 ⊢; rw [h4]⟩

/-- A conversion loop over the elements of a JSON list. -/
theorem loop_sim {α : Type} {is : Heap → α → HV → Prop} {f : HV → HM HV} {p : Val → Res α}
    {lp : List Val → Res (List α)} (w : Bool) (bound : Nat)
    (hnil : lp [] = .ok []) (hcons : ∀ v vs, lp (v :: vs) =
      ((p v).skipUnimplemented w).bind fun o => (lp vs).map fun ms => o.toList ++ ms)
    (hstab : ∀ h h', Keeps' anywhere h h' → ∀ a x, is h a x → is h' a x)
    (N : Nat)
    (hf : ∀ v x s, Json anywhere s.heap v x → depth v ≤ bound → N ≤ s.heap.length → Sim is (f x) s (p v)) :
    ∀ (vs : List Val) (items : List (String × HV)) (s : St), JsonList anywhere s.heap vs items →
      depthList vs ≤ bound → N ≤ s.heap.length →
      Sim (fun h as xs => List.Forall₂ (is h) as xs) (loopH w f items) s (lp vs) := by
  intro vs
  induction vs with
  | nil =>
    intro items s hj _ _
    rw [show items = [] from hj, hnil]
    exact ⟨s, by simp [Res.ok], Nat.le_refl _, fun _ _ => rfl, [], rfl, .nil⟩
  | cons v vs ih =>
    intro items s hj hb hN
    obtain ⟨e, rest, rfl, h1, h2⟩ := hj
    simp only [depthList] at hb
    obtain ⟨s1, l1, len1, old1, m1⟩ := skip_sim w (hf v e.2 s h1 (by omega) hN)
    rw [hcons, loopH, Sim, bind_run]
    cases hr : ((p v).skipUnimplemented w).out with
    | error e =>
      rw [hr] at m1
      rw [Res.bind_of_error hr]
      simp only at m1
      exact ⟨s1, l1, len1, old1, by simp only; rw [m1]⟩
    | ok o =>
      rw [hr] at m1
      obtain ⟨xs, m1, r1⟩ := m1
      rw [Res.bind_of_ok hr]
      have hk1 : Keeps' anywhere s.heap s1.heap := fun a o _ ho => by
        rw [old1 a (lt_of_get ho)]; exact ho
      obtain ⟨s2, l2, len2, old2, m2⟩ := ih rest s1 (jsonList_mono hk1 (fun _ h => h) vs rest h2) (by omega)
        (by omega)
      refine ⟨s2, ?_, by omega, ?_, ?_⟩
      · rw [l2, l1, Res.map_log, List.append_assoc]
      · intro a ha
        rw [old2 a (by omega), old1 a ha]
      · simp only [Res.map_out, m1]
        cases hr2 : (lp vs).out with
        | error e =>
          rw [hr2] at m2
          simp only at m2 ⊢
          rw [bind_run, m2]
        | ok as =>
          rw [hr2] at m2
          obtain ⟨ys, m2, r2⟩ := m2
          refine ⟨xs ++ ys, ?_, List.rel_append ?_ r2⟩
          · rw [bind_run, m2]; rfl
          · exact r1.imp fun a x h => hstab _ _ (fun a o _ ho => by
              rw [old2 a (lt_of_get ho)]; exact ho) a x h

theorem lookup_depth {d : List (String × Val)} {k : String} {v : Val} (h : lookupKey d k = some v) :
    depth v ≤ depthDict d := by
  induction d with
  | nil => cases h
  | cons e d ih =>
    obtain ⟨k', v'⟩ := e
    unfold lookupKey at h
    split at h
    · cases h; simp only [depthDict]; omega
    · have := ih h; simp only [depthDict]; omega

/-- What the pure content / marks step computes from the entry. -/
def stepOf {α : Type} (lp : List Val → Res (List α)) : Option Val → Res (Option (Slot (List α)))
  | none => .ok none
  | some (.list l) => (lp l).map fun as => some (.val as)
  | some v => .ok (some (rawSlot v))

theorem read_bind {β : Type} {s : St} {a : Nat} {o : HObj} (h : s.heap[a]? = some o) (f : HObj → HM β) :
    (HM.read a >>= f) s = f o s := by
  rw [bind_run]
  unfold HM.read
  rw [h]

/-- What a content / marks step leaves behind. -/
def StepPost {α : Type} (is : Heap → α → HV → Prop) (b : Nat) (d : List (String × Val)) (K : List String)
    (key : String) (s : St) (items : List (String × HV)) (res : Except HErr Unit × St)
    (r : Res (Option (Slot (List α)))) : Prop :=
  ∃ s' : St, s'.log = s.log ++ r.log ∧ s.heap.length ≤ s'.heap.length ∧
    (∀ q, q < s.heap.length → q ≠ b → s'.heap[q]? = s.heap[q]?) ∧
    match r.out with
    | .error e => res = (.error (.py e), s')
    | .ok given => ∃ items', res = (.ok (), s') ∧ Work b d (key :: K) s'.heap items' ∧
        (∀ k, k ≠ key → itemGet items' k = itemGet items k) ∧
        (given = none → itemGet items' key = none) ∧
        (∀ sl, given = some sl → (itemGet items' key).isSome = true ∧
          IsSlot (fun q => b < q) s'.heap (IsList (fun q => b < q) s'.heap (is s'.heap))
            (itemGet items' key) sl)

/-- Values that are not lists stay as they are. -/
theorem stepPost_raw {α : Type} {is : Heap → α → HV → Prop} {lp : List Val → Res (List α)} {key : String}
    {b : Nat} {d : List (String × Val)} {K : List String} {s : St} {items : List (String × HV)} {v : Val}
    {y : HV} (hkeep : Work b d (key :: K) s.heap items) (h1 : itemGet items key = some y)
    (h2 : Json (fun q => b < q) s.heap v y) (hnl : ∀ l, v ≠ .list l) :
    StepPost is b d K key s items (.ok (), s) (stepOf lp (some v)) := by
  have hst : stepOf lp (some v) = .ok (some (rawSlot v)) := by
    cases v <;> first | rfl | exact absurd rfl (hnl _)
  rw [hst]
  refine ⟨s, by simp [Res.ok], Nat.le_refl _, fun _ _ _ => rfl, items, rfl, hkeep, fun _ _ => rfl,
    fun h => (by cases h), ?_⟩
  intro sl hsl
  cases hsl
  refine ⟨by rw [h1]; rfl, ?_⟩
  rw [h1]
  cases v with
  | opt =>
    obtain ⟨i, rfl, e⟩ := h2
    cases i <;> cases e
    rfl
  | list l => exact absurd rfl (hnl l)
  | none => exact ⟨nofun, y, rfl, h2⟩
  | bool _ => exact ⟨nofun, y, rfl, h2⟩
  | int _ => exact ⟨nofun, y, rfl, h2⟩
  | float _ => exact ⟨nofun, y, rfl, h2⟩
  | str _ => exact ⟨nofun, y, rfl, h2⟩
  | dict _ => exact ⟨nofun, y, rfl, h2⟩

/-- The content / marks step. -/
theorem listStep_sim {α : Type} {is : Heap → α → HV → Prop} {f : HV → HM HV} {p : Val → Res α}
    {lp : List Val → Res (List α)} (w : Bool) (key : String) {b : Nat} {d : List (String × Val)}
    {K : List String} (hK : key ∉ K)
    (hnil : lp [] = .ok []) (hcons : ∀ v vs, lp (v :: vs) =
      ((p v).skipUnimplemented w).bind fun o => (lp vs).map fun ms => o.toList ++ ms)
    (hstab : ∀ h h', Keeps' (fun q => b < q) h h' → ∀ a x, is h a x → is h' a x)
    (hf : ∀ v x s, Json anywhere s.heap v x → depth v < depthDict d → b + 1 ≤ s.heap.length →
      Sim is (f x) s (p v))
    {s : St} {items : List (String × HV)} (hw : Work b d K s.heap items) :
    StepPost is b d K key s items (listStepH w key f b s) (stepOf lp (lookupKey d key)) := by
  have hb : b < s.heap.length := lt_of_get hw.obj
  have hkeep : Work b d (key :: K) s.heap items :=
    ⟨hw.obj, fun k hk => hw.plain k fun h => hk (List.mem_cons_of_mem _ h), hw.keys⟩
  have hp := hw.plain key hK
  unfold listStepH
  rw [read_bind hw.obj]
  cases hv : lookupKey d key with
  | none =>
    rw [hv] at hp
    rw [show itemGet items key = none from hp]
    exact ⟨s, by simp [stepOf, Res.ok], Nat.le_refl _, fun _ _ _ => rfl, items, rfl, hkeep, fun _ _ => rfl,
      fun _ => hp, fun sl h => by cases h⟩
  | some v =>
    rw [hv] at hp
    obtain ⟨y, h1, h2⟩ := hp
    match y, h1, h2 with
    | .imm i, h1, h2 =>
      simp only [h1]
      refine stepPost_raw hkeep h1 h2 ?_
      rintro l rfl
      obtain ⟨_, _, h3, _⟩ := h2
      cases h3
    | .ref q, h1, h2 =>
      obtain ⟨hq, o, ho, _, hk⟩ := json_ref h2
      rcases hk with ⟨vs, rfl, hk, hl⟩ | ⟨da, rfl, hk, _⟩
      swap
      · simp only [h1]
        rw [read_bind ho]
        simp only [hk]
        exact stepPost_raw hkeep h1 h2 (by rintro l h; cases h)
      · rw [h1]
        simp only
        rw [read_bind ho]
        simp only [hk]
        have hsz := lookup_depth hv
        rw [depth] at hsz
        obtain ⟨s1, l1, len1, old1, m1⟩ := loop_sim w (depthDict d - 1) hnil hcons
          (fun h h' hh => hstab h h' fun a o _ ho => hh a o trivial ho) (b + 1)
          (fun u y t h1 h2 h3 => hf u y t h1 (by omega) h3) vs o.items s (jsonList_mono (fun _ _ _ h => h) (fun _ _ => trivial) vs _ hl)
          (by omega) hb
        simp only [StepPost, stepOf, Res.map_log, Res.map_out]
        cases hr : (lp vs).out with
        | error e =>
          rw [hr] at m1
          simp only at m1
          refine ⟨s1, l1, len1, fun q hq _ => old1 q hq, ?_⟩
          simp only
          rw [bind_run, m1]
        | ok as =>
          rw [hr] at m1
          obtain ⟨xs, m1, r1⟩ := m1
          have hkey : hasKey d key = true := by unfold hasKey; rw [hv]; rfl
          let o2 : HObj := ⟨.list, xs.map fun v => ("", v)⟩
          let h2' : Heap := s1.heap ++ [o2]
          have hob1 : s1.heap[b]? = some ⟨.dict, items⟩ := (old1 b hb).trans hw.obj
          have hb1 : b < s1.heap.length := lt_of_get hob1
          have hob2 : h2'[b]? = some ⟨.dict, items⟩ := by
            show (s1.heap ++ [_])[b]? = _
            rw [List.getElem?_append_left hb1]; exact hob1
          let new : HV := .ref s1.heap.length
          let s3 : St := { s1 with heap := h2'.set b ⟨.dict, itemSet items key new⟩ }
          have hlen : s3.heap.length = s1.heap.length + 1 := by
            show (List.set (s1.heap ++ [_]) _ _).length = _
            simp
          have hob3 : s3.heap[b]? = some ⟨.dict, itemSet items key new⟩ :=
            List.getElem?_set_self (by show b < (s1.heap ++ [_]).length; simp; omega)
          have hother : ∀ q, q ≠ b → s3.heap[q]? = h2'[q]? := fun q hq => List.getElem?_set_ne (Ne.symm hq)
          have hold1 : ∀ q, q < s1.heap.length → q ≠ b → s3.heap[q]? = s1.heap[q]? := by
            intro q hq hqb
            rw [hother q hqb]
            exact List.getElem?_append_left hq
          have hold : ∀ q, q < s.heap.length → q ≠ b → s3.heap[q]? = s.heap[q]? := by
            intro q hq hqb
            rw [hold1 q (by omega) hqb, old1 q hq]
          have hkeeps : Keeps' (fun q => b < q) s.heap s3.heap := by
            intro q o hq ho
            rw [hold q (lt_of_get ho) (by omega)]; exact ho
          have hkeeps1 : Keeps' (fun q => b < q) s1.heap s3.heap := by
            intro q o hq ho
            rw [hold1 q (lt_of_get ho) (by omega)]; exact ho
          have hsome : (itemGet items key).isSome = true := by rw [h1]; rfl
          refine ⟨s3, l1, by omega, hold, itemSet items key new, ?_, ?_, ?_, ?_, ?_⟩
          · rw [bind_run, m1]
            simp only
            rw [bind_run]
            unfold HM.alloc
            simp only
            unfold HM.setItem
            rw [bind_run]
            unfold HM.read
            simp only
            rw [show (s1.heap ++ [o2])[b]? = _ from hob2]
            rfl
          · exact hw.set hkey hob3 hkeeps
          · intro k hk; exact itemGet_itemSet_ne hk
          · intro h; cases h
          · intro sl hsl
            cases hsl
            rw [itemGet_itemSet_self hsome]
            refine ⟨rfl, new, rfl, s1.heap.length, o2.items, rfl, hb1, ?_, ?_⟩
            · rw [hother _ (by omega)]
              show (s1.heap ++ [_])[_]? = _
              rw [List.getElem?_append_right (Nat.le_refl _)]
              simp [o2]
            · rw [List.forall₂_map_right_iff]
              exact r1.imp fun a x h => hstab _ _ hkeeps1 a x h

/-! ## Marks and nodes -/

/-- The attrs step, with what it leaves behind in the same form as for the other steps. -/
theorem attrsStep_post (afs : Option (List Field)) {b : Nat} {d : List (String × Val)} {s : St}
    {items : List (String × HV)} (hw : Work b d [] s.heap items) (hl : ∀ fs, afs = some fs → LitOk fs) :
    ∃ s' : St, s'.log = s.log ∧ s.heap.length ≤ s'.heap.length ∧
      (∀ q, q < s.heap.length → q ≠ b → s'.heap[q]? = s.heap[q]?) ∧
      match attrsStep afs d with
      | .error e => attrsStepH afs b s = (.error (.py e), s')
      | .ok given => ∃ items', attrsStepH afs b s = (.ok (), s') ∧ Work b d ["attrs"] s'.heap items' ∧
          (given = none → afs ≠ none → itemGet items' "attrs" = none) ∧
          (∀ a, given = some a → (itemGet items' "attrs").isSome = true ∧
            IsSlot (fun q => b < q) s'.heap (IsAttrs (fun q => b < q) s'.heap)
              (itemGet items' "attrs") (.val a)) := by
  have h := attrsStep_sim afs hw hl
  have hkeep : Work b d ["attrs"] s.heap items :=
    ⟨hw.obj, fun k _ => hw.plain k (by simp), hw.keys⟩
  cases hr : attrsStep afs d with
  | error e =>
    rw [hr] at h
    exact ⟨s, rfl, Nat.le_refl _, fun _ _ _ => rfl, h⟩
  | ok given =>
    rw [hr] at h
    cases given with
    | none =>
      refine ⟨s, rfl, Nat.le_refl _, fun _ _ _ => rfl, items, h, hkeep, ?_, fun a ha => by cases ha⟩
      intro _ hafs
      have hp := hw.plain "attrs" (by simp)
      cases hv : lookupKey d "attrs" with
      | none => rw [hv] at hp; exact hp
      | some v =>
        exfalso
        cases afs with
        | none => exact hafs rfl
        | some fs =>
          simp only [attrsStep, hv] at hr
          split at hr <;> cases hr
    | some a =>
      obtain ⟨s', y, h1, h2, h3, h4, h5, h6, h7⟩ := h
      refine ⟨s', h2, h3, h4, _, h1, h5, fun h => (by cases h), ?_⟩
      intro a' ha'
      cases ha'
      rw [itemGet_itemSet_self (by rw [hw.keys]; exact h7)]
      exact ⟨rfl, y, rfl, h6⟩

theorem copy_not_dict {s : St} {v : Val} {x : HV} {fuel : Nat} (hj : Json anywhere s.heap v x)
    (hf : depth v ≤ fuel) (hn : ∀ d, v ≠ .dict d) :
    ∃ s', copyDictH fuel x s = (.error (.py .typeError), s') ∧ s'.log = s.log ∧
      s.heap.length ≤ s'.heap.length ∧ (∀ a, a < s.heap.length → s'.heap[a]? = s.heap[a]?) := by
  obtain ⟨x', new, s', h1, c, r⟩ := deepcopy_ok s.heap fuel v x hj hf [] s (fun _ _ h => h)
  refine ⟨s', ?_, c.log, c.len, c.old⟩
  unfold copyDictH
  rw [bind_run, h1]
  simp only
  match x, x', hj, r with
  | .imm i, .imm _, hj, r => rfl
  | .imm i, .ref _, hj, r => cases r
  | .ref a, .imm _, hj, r => cases r
  | .ref a, .ref b, hj, r =>
    simp only
    have hm : (a, b) ∈ new := by simpa [Rel] using r
    obtain ⟨_, _, o, its, ho, hb, _⟩ := c.done _ hm
    obtain ⟨_, o', ho', _, hk⟩ := json_ref hj
    simp only at ho hb
    rw [ho] at ho'; cases ho'
    rw [read_bind hb]
    rcases hk with ⟨vs, rfl, hk, _⟩ | ⟨d, rfl, _⟩
    · simp only [hk]; rfl
    · exact absurd rfl (hn d)

theorem Sim.weaken {α β : Type} {is is' : Heap → α → β → Prop} {m : HM β} {s : St} {r : Res α}
    (h : Sim is m s r) (hi : ∀ h a x, is h a x → is' h a x) : Sim is' m s r := by
  obtain ⟨s', h1, h2, h3, h4⟩ := h
  refine ⟨s', h1, h2, h3, ?_⟩
  cases hr : r.out with
  | error e => rw [hr] at h4; exact h4
  | ok a => rw [hr] at h4; obtain ⟨v, h5, h6⟩ := h4; exact ⟨v, h5, hi _ _ _ h6⟩

theorem get_append_old {h : Heap} {o : HObj} {a : Nat} (ha : a < h.length) : (h ++ [o])[a]? = h[a]? :=
  List.getElem?_append_left ha

theorem get_append_new {h : Heap} {o : HObj} : (h ++ [o])[h.length]? = some o := by
  rw [List.getElem?_append_right (Nat.le_refl _)]; simp

theorem keeps_append {P : Nat → Prop} (h : Heap) (o : HObj) : Keeps' P h (h ++ [o]) :=
  fun _ _ _ ho => by rw [get_append_old (lt_of_get ho)]; exact ho

theorem mark_litOk (c : MarkCls) : LitOk c.fields := by
  intro f hf v hv
  unfold MarkCls.fields at hf
  rcases List.mem_cons.mp hf with rfl | hf
  · cases hv; rfl
  · split at hf
    · rw [List.mem_singleton] at hf; subst hf; cases hv
    · cases hf

theorem markAttrs_litOk (c : MarkCls) : ∀ fs, c.attrsFields = some fs → LitOk fs := by
  intro fs hfs f hf v hv
  cases c <;> simp [MarkCls.attrsFields, reqFields, optFields] at hfs <;> subst hfs <;>
    simp at hf <;> (try rcases hf with rfl | rfl | rfl | rfl | rfl) <;> cases hv

theorem node_litOk (c : NodeCls) : LitOk c.fields := by
  intro f hf v hv
  unfold NodeCls.fields at hf
  rcases List.mem_cons.mp hf with rfl | hf
  · cases hv; rfl
  · cases c <;> simp [NodeCls.ownFields] at hf <;> (try rcases hf with rfl | rfl | rfl) <;>
      (cases hv <;> rfl)

theorem litOk_of_not {fs : List Field} (h : ∀ f ∈ fs, f.dflt.isNoDefault = true ∨ f.dflt.isReq = true ∨
    f.dflt = .opt) : LitOk fs := by
  intro f hf v hv
  have := h f hf
  rw [hv] at this
  simp [Dflt.isNoDefault, Dflt.isReq] at this

theorem litOk_opt (l : List String) : LitOk (optFields l) := by
  apply litOk_of_not
  intro f hf
  obtain ⟨n, _, rfl⟩ := List.mem_map.mp hf
  exact .inr (.inr rfl)

theorem litOk_req (l : List String) : LitOk (reqFields l) := by
  apply litOk_of_not
  intro f hf
  obtain ⟨n, _, rfl⟩ := List.mem_map.mp hf
  exact .inr (.inl rfl)

theorem litOk_append {a b : List Field} (ha : LitOk a) (hb : LitOk b) : LitOk (a ++ b) := by
  intro f hf
  rcases List.mem_append.mp hf with h | h
  · exact ha f h
  · exact hb f h

theorem nodeAttrs_litOk (c : NodeCls) : ∀ fs, c.attrsFields = some fs → LitOk fs := by
  intro fs hfs
  cases c <;> first
    | (cases hfs; exact litOk_opt _)
    | (cases hfs; exact litOk_req _)
    | (cases hfs; exact litOk_append (litOk_req _) (litOk_opt _))
    | cases hfs

theorem markType_some (c : MarkCls) (d : List (String × Val)) :
    valOf c.fields "type" d = some ((valOf c.fields "type" d).getD .opt) := by
  simp [valOf, MarkCls.fields]

theorem nodeType_some (c : NodeCls) (d : List (String × Val)) :
    valOf c.fields "type" d = some ((valOf c.fields "type" d).getD .opt) := by
  simp [valOf, NodeCls.fields]

theorem fields_map (fs : List Field) (g : Field → HV) :
    (fs.map fun f => (f.name, g f)).map Prod.fst = fs.map Field.name := by
  simp

theorem markAttrs_dflt (c : MarkCls) :
    fieldDflt c.fields "attrs" = if c.attrsFields = none then none else some .req := by
  cases c <;> simp [fieldDflt, MarkCls.fields, MarkCls.attrsFields]

/-- `MarkXxx.from_dict`. -/
theorem mark_sim (fuel : Nat) (c : MarkCls) {v : Val} {x : HV} {s : St} (hj : Json anywhere s.heap v x)
    (hf : depth v ≤ fuel) :
    Sim (IsMark fun q => s.heap.length ≤ q) (markFromDictH fuel c x) s (Res.ofExcept (c.fromDict v)) := by
  by_cases hd : ∃ d, v = .dict d
  swap
  · obtain ⟨s', h1, h2, h3, h4⟩ := copy_not_dict hj hf fun d h => hd ⟨d, h⟩
    have : c.fromDict v = .error .typeError := by
      cases v <;> first | rfl | exact absurd ⟨_, rfl⟩ hd
    rw [this]
    refine ⟨s', by simp [Res.ofExcept, h2], h3, h4, ?_⟩
    unfold markFromDictH
    rw [bind_run, h1]
    rfl
  · obtain ⟨d, rfl⟩ := hd
    obtain ⟨s1, items1, e1, l1, old1, ob1, j1⟩ := copyDict_ok hj hf
    have hlen1 := lt_of_get ob1
    obtain ⟨s2, l2, len2, old2, m2⟩ := attrsStep_post c.attrsFields (work_of_json ob1 j1) (markAttrs_litOk c)
    have hold2 : ∀ a, a < s.heap.length → s2.heap[a]? = s.heap[a]? := fun a ha => by
      rw [old2 a (by omega) (by omega), old1 a ha]
    unfold markFromDictH Sim
    rw [bind_run, e1]
    simp only
    rw [bind_run]
    rw [show c.fromDict (.dict d) = markFromDict c d from rfl]
    unfold markFromDict
    cases hr : attrsStep c.attrsFields d with
    | error e =>
      rw [hr] at m2
      simp only at m2
      refine ⟨s2, by simp [Res.ofExcept, l2, l1], by omega, hold2, ?_⟩
      rw [m2]
      rfl
    | ok given =>
      rw [hr] at m2
      obtain ⟨items2, m2, w2, g0, g1⟩ := m2
      rw [m2]
      simp only
      rw [base_run (.mark c) c.fields w2.obj w2.keys]
      cases hc : checkRequired c.fields (hasKey d) with
      | error e => exact ⟨s2, by simp [Res.ofExcept, l2, l1], by omega, hold2, rfl⟩
      | ok u =>
        refine ⟨_, by simp [Res.ofExcept, l2, l1], ?_, ?_, _, rfl, ?_⟩
        · simp; omega
        · intro a ha
          rw [get_append_old (by omega), hold2 a ha]
        · have hk : Keeps' (fun q => s.heap.length < q) s2.heap
              (s2.heap ++ [⟨.inst (.mark c), c.fields.map fun f => (f.name, fieldValueH items2 f)⟩]) :=
            keeps_append _ _
          refine ⟨s2.heap.length, _, rfl, by omega, get_append_new, fields_map _ _, ?_, ?_⟩
          · have hp := inst_plain (mark_litOk c) "type" (w2.plain "type" (by simp))
            rw [markType_some] at hp
            exact isPlain_mono hk (fun _ h => Nat.le_of_lt h) hp
          · refine isSlot_mono hk (fun _ h => Nat.le_of_lt h)
              (fun _ _ => isAttrs_mono hk (fun _ h => Nat.le_of_lt h))
              (inst_slot "attrs" (given.map Slot.val) ?_ ?_ ?_)
            · rw [markAttrs_dflt]; split <;> simp
            · intro h h'
              rw [markAttrs_dflt] at h
              exact g0 (by simpa using h') (by simpa using h)
            · intro _ sl hsl
              cases given with
              | none => cases hsl
              | some a => cases hsl; exact g1 a rfl

/-- `d["type"]` and the registry. -/
theorem registry_run {C : Type} (reg : List (TypeEnum × C)) (cat : String) {v : Val} {x : HV} {s : St}
    (hj : Json anywhere s.heap v x) :
    registryH reg cat x s = match v with
      | .dict d =>
        match lookupKey d "type" with
        | none => (.error (.py .keyError), s)
        | some t =>
          match registryLookup reg t with
          | .error e => (.error (.py e), s)
          | .ok none => (.error (.py (.unimplementedType t cat)), s)
          | .ok (some c) => (.ok c, s)
      | _ => (.error (.py .typeError), s) := by
  match x, hj with
  | .imm i, hj =>
    have := json_imm_iff hj
    subst this
    cases i <;> rfl
  | .ref a, hj =>
    obtain ⟨_, o, ho, _, hk⟩ := json_ref hj
    unfold registryH
    simp only
    rw [read_bind ho]
    rcases hk with ⟨vs, rfl, hk, _⟩ | ⟨d, rfl, hk, hi⟩
    · simp only [hk]; rfl
    · simp only [hk]
      have hp := jsonDict_get hi "type"
      cases ht : lookupKey d "type" with
      | none => rw [ht] at hp; rw [show itemGet o.items "type" = none from hp]; rfl
      | some t =>
        rw [ht] at hp
        obtain ⟨y, h1, h2⟩ := hp
        rw [h1]
        match y, h2 with
        | .imm i, h2 =>
          have := json_imm_iff h2
          subst this
          simp only
          cases registryLookup reg i.toVal with
          | error e => rfl
          | ok o => cases o <;> rfl
        | .ref b, h2 =>
          obtain ⟨_, _, _, _, hk⟩ := json_ref h2
          rcases hk with ⟨vs, rfl, _⟩ | ⟨d, rfl, _⟩ <;> rfl

theorem Sim.err {α β : Type} {is : Heap → α → β → Prop} {m : HM β} {s : St} {r : Res α} {e : PyErr}
    (hr : r = .err e) (hm : m s = (.error (.py e), s)) : Sim is m s r := by
  subst hr
  exact ⟨s, by simp [Res.err], Nat.le_refl _, fun _ _ => rfl, hm⟩

/-- `parse_mark`. -/
theorem parseMark_sim (fuel : Nat) {v : Val} {x : HV} {s : St} (hj : Json anywhere s.heap v x)
    (hf : depth v ≤ fuel) :
    Sim (IsMark fun q => s.heap.length ≤ q) (parseMarkH fuel x) s (Res.ofExcept (parseMark v)) := by
  have hr := registry_run markRegistry "mark" hj
  have herr : ∀ e, parseMark v = .error e → registryH markRegistry "mark" x s = (.error (.py e), s) →
      Sim (IsMark fun q => s.heap.length ≤ q) (parseMarkH fuel x) s (Res.ofExcept (parseMark v)) := by
    intro e h1 h2
    refine Sim.err (by rw [h1]; rfl) ?_
    unfold parseMarkH
    rw [bind_run, h2]
  cases v with
  | dict d =>
    simp only at hr
    cases ht : lookupKey d "type" with
    | none =>
      rw [ht] at hr
      exact herr _ (by simp [parseMark, ht]) hr
    | some t =>
      rw [ht] at hr
      simp only at hr
      cases hl : registryLookup markRegistry t with
      | error e =>
        rw [hl] at hr
        exact herr _ (by simp [parseMark, ht, hl]) hr
      | ok o =>
        rw [hl] at hr
        cases o with
        | none => exact herr _ (by simp [parseMark, ht, hl]) hr
        | some c =>
          have hp : parseMark (.dict d) = c.fromDict (.dict d) := by
            simp [parseMark, ht, hl, MarkCls.fromDict]
          rw [hp]
          have := mark_sim fuel c hj hf
          unfold parseMarkH Sim
          rw [bind_run, hr]
          exact this
  | _ => exact herr _ rfl hr

/-- The content attribute as seen by `IsNode`. -/
theorem areNodes_of {P : Nat → Prop} {h : Heap} {ns : List Node} {items : List (String × HV)}
    (hx : List.Forall₂ (fun n (e : String × HV) => IsNode P h n e.2) ns items) : AreNodes P h ns items := by
  induction hx with
  | nil => rfl
  | cons h1 _ ih => exact ⟨_, _, rfl, h1, ih⟩

theorem isContent_of {P : Nat → Prop} {h : Heap} {x : Option HV} {sl : Slot (List Node)}
    (hx : IsSlot P h (IsList P h (IsNode P h)) x sl) : IsContent P h sl x := by
  cases sl with
  | absent => exact hx
  | opt => exact hx
  | raw v => exact hx
  | val ns =>
    obtain ⟨y, rfl, p, items, rfl, hp, ho, hi⟩ := hx
    exact ⟨p, items, rfl, hp, ho, areNodes_of hi⟩

theorem nodeAttrs_dflt (c : NodeCls) : fieldDflt c.fields "attrs" ≠ none → c.attrsFields ≠ none := by
  cases c <;> simp [fieldDflt, NodeCls.fields, NodeCls.ownFields, NodeCls.attrsFields]

theorem marksStep_stepOf (w : Bool) (d : List (String × Val)) :
    marksStep w d = stepOf (parseMarks w) (lookupKey d "marks") := by
  unfold marksStep stepOf
  cases lookupKey d "marks" with
  | none => rfl
  | some v => cases v <;> rfl

theorem contentStep_stepOf (w : Bool) (d : List (String × Val)) :
    contentStep w d = stepOf (parseNodes w) (lookupKey d "content") := by
  rw [contentStep_eq]
  unfold stepOf
  cases lookupKey d "content" with
  | none => rfl
  | some v => cases v <;> rfl

/-- `NodeXxx.from_dict`, given its children's parser. -/
theorem node_sim (fuel : Nat) (w : Bool) (parse : HV → HM HV) (c : NodeCls) {v : Val} {x : HV} {s : St}
    (hj : Json anywhere s.heap v x) (hf : depth v ≤ fuel)
    (hp : ∀ u y t, Json anywhere t.heap u y → depth u < depth v →
      Sim (IsNode fun q => t.heap.length ≤ q) (parse y) t (parseNode w u)) :
    Sim (IsNode fun q => s.heap.length ≤ q) (nodeFromDictH fuel w parse c x) s (c.fromDict w v) := by
  by_cases hd : ∃ d, v = .dict d
  swap
  · obtain ⟨s', h1, h2, h3, h4⟩ := copy_not_dict hj hf fun d h => hd ⟨d, h⟩
    have : c.fromDict w v = .err .typeError := by
      cases v <;> first | rfl | exact absurd ⟨_, rfl⟩ hd
    rw [this]
    refine ⟨s', by simp [Res.err, h2], h3, h4, ?_⟩
    unfold nodeFromDictH
    rw [bind_run, h1]
    rfl
  · obtain ⟨d, rfl⟩ := hd
    obtain ⟨s1, items1, e1, l1, old1, ob1, j1⟩ := copyDict_ok hj hf
    have hlen1 := lt_of_get ob1
    obtain ⟨s2, l2, len2, old2, m2⟩ := attrsStep_post c.attrsFields (work_of_json ob1 j1) (nodeAttrs_litOk c)
    have hold2 : ∀ a, a < s.heap.length → s2.heap[a]? = s.heap[a]? := fun a ha => by
      rw [old2 a (by omega) (by omega), old1 a ha]
    unfold nodeFromDictH Sim
    rw [bind_run, e1]
    simp only
    rw [bind_run]
    rw [show c.fromDict w (.dict d) = nodeFromDict w c d (contentStep w d) from rfl]
    unfold nodeFromDict
    cases hr : attrsStep c.attrsFields d with
    | error e =>
      rw [hr] at m2
      simp only at m2
      refine ⟨s2, by simp [Res.ofExcept, Res.bind, l2, l1], by omega, hold2, ?_⟩
      simp only [Res.ofExcept, Res.bind]
      rw [m2]
    | ok given =>
      rw [hr] at m2
      obtain ⟨items2, m2, w2, ga0, ga1⟩ := m2
      rw [m2]
      rw [Res.bind_of_ok (x := Res.ofExcept (.ok given)) rfl]
      simp only
      -- content
      have hsz : depthDict d < depth (Val.dict d) := by simp [depth]
      obtain ⟨s3, l3, len3, old3, m3⟩ := listStep_sim (is := IsNode fun q => s.heap.length < q) (f := parse)
        (p := parseNode w) (lp := parseNodes w) w "content" (by simp)
        (by rw [parseNodes]) (fun v vs => by rw [parseNodes])
        (fun h h' hh a x => isNode_mono hh (fun _ h => h) a x)
        (fun u y t hu hs ht => (hp u y t hu (by omega)).weaken fun h a x hx =>
          isNode_mono (fun _ _ _ h => h) (fun q hq => by omega) a x hx) w2
      rw [← contentStep_stepOf] at l3 m3
      have hold3 : ∀ a, a < s.heap.length → s3.heap[a]? = s.heap[a]? := fun a ha => by
        rw [old3 a (by omega) (by omega), hold2 a ha]
      have hk3 : Keeps' (fun q => s.heap.length < q) s2.heap s3.heap := fun q o hq ho => by
        rw [old3 q (lt_of_get ho) (by omega)]; exact ho
      rw [bind_run]
      cases hr3 : (contentStep w d).out with
      | error e =>
        rw [hr3] at m3
        simp only at m3
        rw [m3, Res.bind_of_error hr3]
        exact ⟨s3, by simp [Res.ofExcept, l3, l2, l1], by omega, hold3, rfl⟩
      | ok gc =>
        rw [hr3] at m3
        obtain ⟨items3, m3, w3, other3, gc0, gc1⟩ := m3
        rw [m3, Res.bind_of_ok hr3]
        simp only
        -- marks
        obtain ⟨s4, l4, len4, old4, m4⟩ := listStep_sim (is := IsMark fun q => s.heap.length < q)
          (f := parseMarkH fuel) (p := fun v => Res.ofExcept (parseMark v)) (lp := parseMarks w) w "marks" (by simp)
          (by rw [parseMarks]) (fun v vs => by rw [parseMarks])
          (fun h h' hh a x => isMark_mono hh (fun _ h => h))
          (fun u y t hu hs ht => (parseMark_sim fuel hu (by omega)).weaken fun h a x hx =>
            isMark_mono (fun _ _ _ h => h) (fun q hq => by omega) hx) w3
        rw [← marksStep_stepOf] at l4 m4
        have hold4 : ∀ a, a < s.heap.length → s4.heap[a]? = s.heap[a]? := fun a ha => by
          rw [old4 a (by omega) (by omega), hold3 a ha]
        have hk4 : Keeps' (fun q => s.heap.length < q) s3.heap s4.heap := fun q o hq ho => by
          rw [old4 q (lt_of_get ho) (by omega)]; exact ho
        rw [bind_run]
        cases hr4 : (marksStep w d).out with
        | error e =>
          rw [hr4] at m4
          simp only at m4
          rw [m4, Res.bind_of_error hr4]
          exact ⟨s4, by simp [Res.ofExcept, l4, l3, l2, l1], by omega, hold4, rfl⟩
        | ok gm =>
          rw [hr4] at m4
          obtain ⟨items4, m4, w4, other4, gm0, gm1⟩ := m4
          rw [m4, Res.bind_of_ok hr4]
          simp only
          rw [base_run (.node c) c.fields w4.obj w4.keys]
          cases hc : checkRequired c.fields (hasKey d) with
          | error e =>
            exact ⟨s4, by simp [Res.ofExcept, Res.bind, l4, l3, l2, l1], by omega, hold4, rfl⟩
          | ok u =>
            refine ⟨_, by simp [Res.ofExcept, Res.bind, Res.ok, l4, l3, l2, l1], ?_, ?_, _, rfl, ?_⟩
            · simp; omega
            · intro a ha
              rw [get_append_old (by omega), hold4 a ha]
            · have hk : Keeps' (fun q => s.heap.length < q) s4.heap
                  (s4.heap ++ [⟨.inst (.node c), c.fields.map fun f => (f.name, fieldValueH items4 f)⟩]) :=
                keeps_append _ _
              have le : ∀ q, s.heap.length < q → s.heap.length ≤ q := fun _ h => Nat.le_of_lt h
              have hplain : ∀ k, k ≠ "attrs" → k ≠ "content" → k ≠ "marks" → IsPlain (fun q => s.heap.length ≤ q) _
                  (itemGet (c.fields.map fun f => (f.name, fieldValueH items4 f)) k) (valOf c.fields k d) :=
                fun k h1 h2 h3 => isPlain_mono hk le
                  (inst_plain (node_litOk c) k (w4.plain k (by simp [h1, h2, h3])))
              have ha4 : itemGet items4 "attrs" = itemGet items2 "attrs" := by
                rw [other4 _ (by decide), other3 _ (by decide)]
              have hc4 : itemGet items4 "content" = itemGet items3 "content" := other4 _ (by decide)
              refine ⟨s4.heap.length, _, rfl, by omega, get_append_new, ⟨fields_map _ _, ?_, ?_, ?_, ?_, ?_⟩, ?_⟩
              · have := hplain "type" (by decide) (by decide) (by decide)
                rw [nodeType_some] at this
                exact this
              · exact hplain "version" (by decide) (by decide) (by decide)
              · exact hplain "text" (by decide) (by decide) (by decide)
              · refine isSlot_mono hk le (fun _ _ => isAttrs_mono hk le)
                  (inst_slot "attrs" (given.map Slot.val) (fieldDflt_cases c _ (by simp)) ?_ ?_)
                · intro h h'
                  rw [ha4]
                  exact ga0 (by simpa using h') (nodeAttrs_dflt c h)
                · intro _ sl hsl
                  rw [ha4]
                  cases given with
                  | none => cases hsl
                  | some a =>
                    cases hsl
                    obtain ⟨g1, g2⟩ := ga1 a rfl
                    exact ⟨g1, isSlot_mono (fun q o hq ho => hk4 q o hq (hk3 q o hq ho)) (fun _ h => h)
                      (fun _ _ => isAttrs_mono (fun q o hq ho => hk4 q o hq (hk3 q o hq ho)) fun _ h => h) g2⟩
              · exact isSlot_mono hk le
                  (fun _ _ => isList_mono hk le fun _ _ => isMark_mono hk le)
                  (inst_slot "marks" gm (fieldDflt_cases c _ (by simp)) (fun _ h => gm0 h) fun _ sl h => gm1 sl h)
              · refine isContent_of (isSlot_mono hk le
                  (fun _ _ => isList_mono hk le fun _ _ => isNode_mono hk le _ _)
                  (inst_slot "content" gc (fieldDflt_cases c _ (by simp)) ?_ ?_))
                · intro _ h; rw [hc4]; exact gc0 h
                · intro _ sl h
                  rw [hc4]
                  obtain ⟨g1, g2⟩ := gc1 sl h
                  exact ⟨g1, isSlot_mono hk4 (fun _ h => h)
                    (fun _ _ => isList_mono hk4 (fun _ h => h) fun _ _ => isNode_mono hk4 (fun _ h => h) _ _) g2⟩

/-- `parse_node`. -/
theorem parseNode_sim (fuel : Nat) (w : Bool) : ∀ {v : Val} {x : HV} {s : St}, Json anywhere s.heap v x →
    depth v ≤ fuel →
    Sim (IsNode fun q => s.heap.length ≤ q) (parseNodeH fuel w x) s (parseNode w v) := by
  induction fuel with
  | zero =>
    intro v x s _ hf
    exfalso
    cases v <;> simp [depth] at hf
  | succ fuel ih =>
    intro v x s hj hf
    have hr := registry_run nodeRegistry "node" hj
    have herr : ∀ e, parseNode w v = .err e → registryH nodeRegistry "node" x s = (.error (.py e), s) →
        Sim (IsNode fun q => s.heap.length ≤ q) (parseNodeH (fuel + 1) w x) s (parseNode w v) := by
      intro e h1 h2
      refine Sim.err h1 ?_
      rw [parseNodeH, bind_run, h2]
    cases v with
    | dict d =>
      simp only at hr
      cases ht : lookupKey d "type" with
      | none =>
        rw [ht] at hr
        exact herr _ (by simp [parseNode, ht]) hr
      | some t =>
        rw [ht] at hr
        simp only at hr
        cases hl : registryLookup nodeRegistry t with
        | error e =>
          rw [hl] at hr
          exact herr _ (by simp [parseNode, ht, hl]) hr
        | ok o =>
          rw [hl] at hr
          cases o with
          | none => exact herr _ (by simp [parseNode, ht, hl]) hr
          | some c =>
            have hp : parseNode w (.dict d) = c.fromDict w (.dict d) := by
              simp [parseNode, ht, hl, NodeCls.fromDict]
            rw [hp]
            have := node_sim (fuel + 1) w (parseNodeH fuel w) c hj hf fun u y t hu hs => ih hu (by omega)
            rw [parseNodeH]
            unfold Sim
            rw [bind_run, hr]
            exact this
    | _ => exact herr _ (by simp [parseNode]) hr

end Verif
