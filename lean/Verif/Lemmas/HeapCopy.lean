import Verif.Lemmas.HeapSafe
/-!
# `deepcopy` copies
-/

namespace Verif
open Verif.Spec

/-- `h'` has the objects of `h` at the addresses in `P`. -/
def Keeps' (P : Nat → Prop) (h h' : Heap) : Prop := ∀ (a : Nat) (o : HObj), P a → h[a]? = some o → h'[a]? = some o

mutual
theorem json_mono {P Q : Nat → Prop} {h h' : Heap} (hk : Keeps' P h h') (hpq : ∀ a, P a → Q a) :
    ∀ (v : Val) (x : HV), Json P h v x → Json Q h' v x
  | .none, x, hj => hj
  | .bool _, x, hj => hj
  | .int _, x, hj => hj
  | .float _, x, hj => hj
  | .str _, x, hj => hj
  | .opt, x, hj => hj
  | .list vs, x, hj => by
    obtain ⟨a, items, rfl, hp, ho, hi⟩ := hj
    exact ⟨a, items, rfl, hpq a hp, hk a _ hp ho, jsonList_mono hk hpq vs items hi⟩
  | .dict d, x, hj => by
    obtain ⟨a, items, rfl, hp, ho, hi⟩ := hj
    exact ⟨a, items, rfl, hpq a hp, hk a _ hp ho, jsonDict_mono hk hpq d items hi⟩

theorem jsonList_mono {P Q : Nat → Prop} {h h' : Heap} (hk : Keeps' P h h') (hpq : ∀ a, P a → Q a) :
    ∀ (vs : List Val) (items : List (String × HV)), JsonList P h vs items → JsonList Q h' vs items
  | [], items, hj => hj
  | v :: vs, items, hj => by
    obtain ⟨e, rest, rfl, h1, h2⟩ := hj
    exact ⟨e, rest, rfl, json_mono hk hpq v _ h1, jsonList_mono hk hpq vs rest h2⟩

theorem jsonDict_mono {P Q : Nat → Prop} {h h' : Heap} (hk : Keeps' P h h') (hpq : ∀ a, P a → Q a) :
    ∀ (d : List (String × Val)) (items : List (String × HV)), JsonDict P h d items → JsonDict Q h' d items
  | [], items, hj => hj
  | (k, v) :: d, items, hj => by
    obtain ⟨x, rest, rfl, h1, h2⟩ := hj
    exact ⟨x, rest, rfl, json_mono hk hpq v _ h1, jsonDict_mono hk hpq d rest h2⟩
end

theorem json_imm {P : Nat → Prop} {h : Heap} (i : Imm) : Json P h i.toVal (.imm i) := by
  cases i <;> exact ⟨_, rfl, rfl⟩

/-- An immutable value is a scalar. -/
theorem json_imm_iff {P : Nat → Prop} {h : Heap} {i : Imm} {v : Val} (hj : Json P h v (.imm i)) :
    v = i.toVal := by
  cases v <;> first
    | (obtain ⟨j, h1, h2⟩ := hj; cases h1; exact h2.symm)
    | (obtain ⟨a, items, h1, _⟩ := hj; cases h1)

/-- A reference is a list or a dict, whose elements are smaller. -/
theorem json_ref {P : Nat → Prop} {h : Heap} {a : Nat} {v : Val} (hj : Json P h v (.ref a)) :
    P a ∧ ∃ o, h[a]? = some o ∧ (∀ e ∈ o.items, ∃ w, Json P h w e.2 ∧ depth w < depth v) ∧
      ((∃ vs, v = .list vs ∧ o.kind = .list ∧ JsonList P h vs o.items) ∨
       (∃ d, v = .dict d ∧ o.kind = .dict ∧ JsonDict P h d o.items)) := by
  have hl : ∀ (vs : List Val) (items : List (String × HV)), JsonList P h vs items →
      ∀ e ∈ items, ∃ w, Json P h w e.2 ∧ depth w ≤ depthList vs := by
    intro vs
    induction vs with
    | nil => intro items hi e he; rw [show items = [] from hi] at he; cases he
    | cons v vs ih =>
      intro items hi e he
      obtain ⟨x, rest, rfl, h1, h2⟩ := hi
      rcases List.mem_cons.mp he with rfl | he
      · exact ⟨v, h1, by simp only [depthList]; omega⟩
      · obtain ⟨w, h3, h4⟩ := ih rest h2 e he
        exact ⟨w, h3, by simp only [depthList]; omega⟩
  have hd : ∀ (d : List (String × Val)) (items : List (String × HV)), JsonDict P h d items →
      ∀ e ∈ items, ∃ w, Json P h w e.2 ∧ depth w ≤ depthDict d := by
    intro d
    induction d with
    | nil => intro items hi e he; rw [show items = [] from hi] at he; cases he
    | cons kv d ih =>
      intro items hi e he
      obtain ⟨k, v⟩ := kv
      obtain ⟨x, rest, rfl, h1, h2⟩ := hi
      rcases List.mem_cons.mp he with rfl | he
      · exact ⟨v, h1, by simp only [depthDict]; omega⟩
      · obtain ⟨w, h3, h4⟩ := ih rest h2 e he
        exact ⟨w, h3, by simp only [depthDict]; omega⟩
  cases v
  case list vs =>
    obtain ⟨b, items, h1, hp, ho, hi⟩ := hj
    cases h1
    refine ⟨hp, _, ho, ?_, .inl ⟨vs, rfl, rfl, hi⟩⟩
    intro e he
    obtain ⟨w, h1, h2⟩ := hl vs items hi e he
    exact ⟨w, h1, by simp only [depth]; omega⟩
  case dict d =>
    obtain ⟨b, items, h1, hp, ho, hi⟩ := hj
    cases h1
    refine ⟨hp, _, ho, ?_, .inr ⟨d, rfl, rfl, hi⟩⟩
    intro e he
    obtain ⟨w, h1, h2⟩ := hd d items hi e he
    exact ⟨w, h1, by simp only [depth]; omega⟩
  all_goals (obtain ⟨i, h1, _⟩ := hj; cases h1)

mutual
theorem json_unique {P : Nat → Prop} {h : Heap} :
    ∀ (v w : Val) (x : HV), Json P h v x → Json P h w x → v = w
  | .none, w, x, h1, h2 => by obtain ⟨i, rfl, e⟩ := h1; rw [json_imm_iff h2, e]
  | .bool _, w, x, h1, h2 => by obtain ⟨i, rfl, e⟩ := h1; rw [json_imm_iff h2, e]
  | .int _, w, x, h1, h2 => by obtain ⟨i, rfl, e⟩ := h1; rw [json_imm_iff h2, e]
  | .float _, w, x, h1, h2 => by obtain ⟨i, rfl, e⟩ := h1; rw [json_imm_iff h2, e]
  | .str _, w, x, h1, h2 => by obtain ⟨i, rfl, e⟩ := h1; rw [json_imm_iff h2, e]
  | .opt, w, x, h1, h2 => by obtain ⟨i, rfl, e⟩ := h1; rw [json_imm_iff h2, e]
  | .list vs, w, x, h1, h2 => by
    obtain ⟨a, items, rfl, _, ho, hi⟩ := h1
    obtain ⟨_, o, ho', _, h3⟩ := json_ref h2
    rw [ho] at ho'; cases ho'
    rcases h3 with ⟨vs', rfl, _, h4⟩ | ⟨d, _, h4, _⟩
    · rw [jsonList_unique vs vs' items hi h4]
    · cases h4
  | .dict d, w, x, h1, h2 => by
    obtain ⟨a, items, rfl, _, ho, hi⟩ := h1
    obtain ⟨_, o, ho', _, h3⟩ := json_ref h2
    rw [ho] at ho'; cases ho'
    rcases h3 with ⟨d, _, h4, _⟩ | ⟨d', rfl, _, h4⟩
    · cases h4
    · rw [jsonDict_unique d d' items hi h4]

theorem jsonList_unique {P : Nat → Prop} {h : Heap} :
    ∀ (vs ws : List Val) (items : List (String × HV)), JsonList P h vs items → JsonList P h ws items → vs = ws
  | [], ws, items, h1, h2 => by
    rw [show items = [] from h1] at h2
    cases ws with
    | nil => rfl
    | cons w ws => obtain ⟨e, rest, h3, _⟩ := h2; cases h3
  | v :: vs, ws, items, h1, h2 => by
    obtain ⟨e, rest, rfl, h3, h4⟩ := h1
    cases ws with
    | nil => cases h2
    | cons w ws =>
      obtain ⟨e', rest', h5, h6, h7⟩ := h2
      cases h5
      rw [json_unique v w e.2 h3 h6, jsonList_unique vs ws rest h4 h7]

theorem jsonDict_unique {P : Nat → Prop} {h : Heap} :
    ∀ (d d' : List (String × Val)) (items : List (String × HV)), JsonDict P h d items →
      JsonDict P h d' items → d = d'
  | [], d', items, h1, h2 => by
    rw [show items = [] from h1] at h2
    cases d' with
    | nil => rfl
    | cons w ws => obtain ⟨k, v⟩ := w; obtain ⟨e, rest, h3, _⟩ := h2; cases h3
  | (k, v) :: d, d', items, h1, h2 => by
    obtain ⟨x, rest, rfl, h3, h4⟩ := h1
    cases d' with
    | nil => cases h2
    | cons w d' =>
      obtain ⟨k', v'⟩ := w
      obtain ⟨x', rest', h5, h6, h7⟩ := h2
      cases h5
      rw [json_unique v v' x h3 h6, jsonDict_unique d d' rest h4 h7]
end

mutual
/-- A value smaller than the one at `b` does not involve `b`. -/
theorem json_avoid {P : Nat → Prop} {h : Heap} {b : Nat} {u : Val} (hb : Json P h u (.ref b)) :
    ∀ (v : Val) (x : HV), Json P h v x → sizeOf v < sizeOf u → Json (fun a => P a ∧ a ≠ b) h v x
  | .none, x, hj, _ => hj
  | .bool _, x, hj, _ => hj
  | .int _, x, hj, _ => hj
  | .float _, x, hj, _ => hj
  | .str _, x, hj, _ => hj
  | .opt, x, hj, _ => hj
  | .list vs, x, hj, hs => by
    have hj' := hj
    obtain ⟨a, items, rfl, hp, ho, hi⟩ := hj
    refine ⟨a, items, rfl, ⟨hp, ?_⟩, ho, jsonList_avoid hb vs items hi (by simp at hs; omega)⟩
    rintro rfl
    rw [json_unique _ _ _ hb hj'] at hs
    omega
  | .dict d, x, hj, hs => by
    have hj' := hj
    obtain ⟨a, items, rfl, hp, ho, hi⟩ := hj
    refine ⟨a, items, rfl, ⟨hp, ?_⟩, ho, jsonDict_avoid hb d items hi (by simp at hs; omega)⟩
    rintro rfl
    rw [json_unique _ _ _ hb hj'] at hs
    omega

theorem jsonList_avoid {P : Nat → Prop} {h : Heap} {b : Nat} {u : Val} (hb : Json P h u (.ref b)) :
    ∀ (vs : List Val) (items : List (String × HV)), JsonList P h vs items → sizeOf vs < sizeOf u →
      JsonList (fun a => P a ∧ a ≠ b) h vs items
  | [], items, hj, _ => hj
  | v :: vs, items, hj, hs => by
    obtain ⟨e, rest, rfl, h1, h2⟩ := hj
    simp at hs
    exact ⟨e, rest, rfl, json_avoid hb v _ h1 (by omega), jsonList_avoid hb vs rest h2 (by omega)⟩

theorem jsonDict_avoid {P : Nat → Prop} {h : Heap} {b : Nat} {u : Val} (hb : Json P h u (.ref b)) :
    ∀ (d : List (String × Val)) (items : List (String × HV)), JsonDict P h d items → sizeOf d < sizeOf u →
      JsonDict (fun a => P a ∧ a ≠ b) h d items
  | [], items, hj, _ => hj
  | (k, v) :: d, items, hj, hs => by
    obtain ⟨x, rest, rfl, h1, h2⟩ := hj
    simp at hs
    exact ⟨x, rest, rfl, json_avoid hb v _ h1 (by omega), jsonDict_avoid hb d rest h2 (by omega)⟩
end

/-! ## `deepcopy` -/

/-- Corresponding values: equal immutable ones, or an original and its copy. -/
def Rel (m : Memo) : HV → HV → Prop
  | .imm i, .imm j => i = j
  | .ref a, .ref b => (a, b) ∈ m
  | _, _ => False

theorem Rel.mono {m m' : Memo} {x y : HV} (h : Rel m x y) (hm : ∀ e ∈ m, e ∈ m') : Rel m' x y := by
  match x, y with
  | .imm _, .imm _ => exact h
  | .ref _, .ref _ => exact hm _ h
  | .imm _, .ref _ => exact h
  | .ref _, .imm _ => exact h

def RelItem (m : Memo) (e e' : String × HV) : Prop := e.1 = e'.1 ∧ Rel m e.2 e'.2

/-- The object at `p.2` in `h` is a copy of the object at `p.1` in `S`. -/
def Copied (S h : Heap) (m : Memo) (p : Nat × Nat) : Prop :=
  ∃ o items, S[p.1]? = some o ∧ h[p.2]? = some ⟨o.kind, items⟩ ∧ List.Forall₂ (RelItem m) o.items items

theorem Copied.mono {S h h' : Heap} {m m' : Memo} {p : Nat × Nat} (hc : Copied S h m p)
    (hh : h'[p.2]? = h[p.2]?) (hm : ∀ e ∈ m, e ∈ m') : Copied S h' m' p := by
  obtain ⟨o, items, h1, h2, h3⟩ := hc
  exact ⟨o, items, h1, hh.trans h2, h3.imp fun _ _ h => ⟨h.1, h.2.mono hm⟩⟩

/-- Outcome of a copy: existing objects are unchanged and every new memo entry is a finished copy. -/
structure CopyOk (S : Heap) (memo new : Memo) (s s' : St) : Prop where
  log : s'.log = s.log
  len : s.heap.length ≤ s'.heap.length
  old : ∀ a, a < s.heap.length → s'.heap[a]? = s.heap[a]?
  done : ∀ e ∈ new, s.heap.length ≤ e.2 ∧ e.2 < s'.heap.length ∧ Copied S s'.heap (new ++ memo) e

/-- `s` still has the objects of the source heap. -/
def Has (S : Heap) (s : St) : Prop := ∀ (a : Nat) (o : HObj), S[a]? = some o → s.heap[a]? = some o

theorem lt_of_get {h : Heap} {a : Nat} {o : HObj} (ho : h[a]? = some o) : a < h.length := by
  by_contra hn
  rw [List.getElem?_eq_none (by omega)] at ho
  cases ho

theorem Has.next {S : Heap} {s s' : St} (h : Has S s) (ho : ∀ a, a < s.heap.length → s'.heap[a]? = s.heap[a]?) :
    Has S s' := fun a o ha => by
  have := h a o ha
  rw [ho a (lt_of_get this), this]

/-- The statement about `deepcopy` with a given amount of fuel. -/
def DeepcopyOk (S : Heap) (fuel : Nat) : Prop :=
  ∀ (w : Val) (x : HV), Json anywhere S w x → depth w ≤ fuel → ∀ (memo : Memo) (s : St), Has S s →
    ∃ x' new s', deepcopy fuel memo x s = (.ok (x', new ++ memo), s') ∧ CopyOk S memo new s s' ∧
      Rel (new ++ memo) x x'

theorem copyItems_ok {S : Heap} {fuel : Nat} (hd : DeepcopyOk S fuel) (b : Nat) :
    ∀ (items : List (String × HV)),
    (∀ e ∈ items, ∃ w, Json anywhere S w e.2 ∧ depth w ≤ fuel) → ∀ (memo : Memo) (s : St), Has S s →
    S.length ≤ b →
    ∀ k its, s.heap[b]? = some ⟨k, its⟩ →
    ∃ new s' its', copyItems fuel b memo items s = (.ok (new ++ memo), s') ∧
      s'.log = s.log ∧ s.heap.length ≤ s'.heap.length ∧
      (∀ a, a < s.heap.length → a ≠ b → s'.heap[a]? = s.heap[a]?) ∧
      (∀ e ∈ new, s.heap.length ≤ e.2 ∧ e.2 < s'.heap.length ∧ Copied S s'.heap (new ++ memo) e) ∧
      s'.heap[b]? = some ⟨k, its ++ its'⟩ ∧ List.Forall₂ (RelItem (new ++ memo)) items its' := by
  intro items
  induction items with
  | nil =>
    intro _ memo s _ _ k its ho
    refine ⟨[], s, [], by rw [copyItems]; rfl, rfl, Nat.le_refl _, fun _ _ _ => rfl, by simp, by simpa using ho, .nil⟩
  | cons e rest ih =>
    intro hi memo s hs hS k its ho
    obtain ⟨key, v⟩ := e
    obtain ⟨w, hw, hsz⟩ := hi (key, v) (by simp)
    obtain ⟨x', new1, s1, h1, c1, r1⟩ := hd w v hw hsz memo s hs
    have hb := lt_of_get ho
    have ho1 : s1.heap[b]? = some ⟨k, its⟩ := (c1.old b hb).trans ho
    -- the append
    let s2 : St := { s1 with heap := s1.heap.set b ⟨k, its ++ [(key, x')]⟩ }
    have ha : HM.append b (key, x') s1 = (.ok (), s2) := by
      unfold HM.append
      rw [bind_run]
      unfold HM.read
      rw [ho1]
      rfl
    have hb1 : b < s1.heap.length := lt_of_get ho1
    have ho2 : s2.heap[b]? = some ⟨k, its ++ [(key, x')]⟩ := List.getElem?_set_self hb1
    have hother : ∀ a, a ≠ b → s2.heap[a]? = s1.heap[a]? := fun a ha => List.getElem?_set_ne (Ne.symm ha)
    have hl2 : s2.heap.length = s1.heap.length := List.length_set
    have hs2 : Has S s2 := by
      intro a o hSa
      have hlt := lt_of_get hSa
      rw [hother a (by omega)]
      exact (hs.next c1.old) a o hSa
    obtain ⟨new2, s3, its', h3, l3, len3, old3, done3, ob3, rel3⟩ :=
      ih (fun e he => hi e (by simp [he])) (new1 ++ memo) s2 hs2 hS k _ ho2
    have hmem : ∀ e ∈ new1 ++ memo, e ∈ (new2 ++ new1) ++ memo := by
      intro e he
      rw [List.append_assoc]
      exact List.mem_append_right _ he
    refine ⟨new2 ++ new1, s3, (key, x') :: its', ?_, l3.trans c1.log, ?_, ?_, ?_, ?_, ?_⟩
    · rw [copyItems, bind_run, h1]
      simp only
      rw [bind_run, ha]
      simp only
      rw [h3, List.append_assoc]
    · have := c1.len; omega
    · intro a hal hab
      rw [old3 a (by rw [hl2]; exact Nat.lt_of_lt_of_le hal c1.len) hab, hother a hab, c1.old a hal]
    · intro e he
      rcases List.mem_append.mp he with he | he
      · obtain ⟨g1, g2, g3⟩ := done3 e he
        refine ⟨by have := c1.len; omega, g2, ?_⟩
        rw [List.append_assoc]; exact g3
      · obtain ⟨g1, g2, g3⟩ := c1.done e he
        refine ⟨g1, by omega, g3.mono ?_ hmem⟩
        have hne : e.2 ≠ b := by omega
        rw [old3 e.2 (by rw [hl2]; exact g2) hne, hother e.2 hne]
    · rw [ob3]; simp
    · refine .cons ⟨rfl, r1.mono hmem⟩ ?_
      rw [List.append_assoc]; exact rel3

theorem has_lt {S : Heap} {s : St} (h : Has S s) : S.length ≤ s.heap.length := by
  rcases Nat.eq_zero_or_pos S.length with h0 | h0
  · omega
  · have : S[S.length - 1]? = some S[S.length - 1] := List.getElem?_eq_getElem (by omega)
    have := lt_of_get (h _ _ this)
    omega

theorem deepcopy_ok (S : Heap) (fuel : Nat) : DeepcopyOk S fuel := by
  induction fuel with
  | zero =>
    intro w x hj hf
    exfalso
    cases w <;> simp [depth] at hf
  | succ fuel ih =>
    intro w x hj hf memo s hs
    match x with
    | .imm i =>
      refine ⟨.imm i, [], s, by rw [deepcopy]; rfl, ⟨rfl, Nat.le_refl _, fun _ _ => rfl, by simp⟩, rfl⟩
    | .ref a =>
      rw [deepcopy]
      cases hg : memo.get a with
      | some b =>
        exact ⟨.ref b, [], s, rfl, ⟨rfl, Nat.le_refl _, fun _ _ => rfl, by simp⟩, memo_get_mem hg⟩
      | none =>
        obtain ⟨_, o, ho, hi, _⟩ := json_ref hj
        have hr := hs a o ho
        let s1 : St := { s with heap := s.heap ++ [⟨o.kind, []⟩] }
        have hs1 : Has S s1 := by
          intro a o ha
          have := hs a o ha
          show (s.heap ++ [_])[a]? = _
          rw [List.getElem?_append_left (lt_of_get this)]
          exact this
        have hb1 : s1.heap[s.heap.length]? = some ⟨o.kind, []⟩ := by
          show (s.heap ++ [_])[_]? = _
          rw [List.getElem?_append_right (Nat.le_refl _)]
          simp
        obtain ⟨new, s2, its', h2, l2, len2, old2, done2, ob2, rel2⟩ :=
          copyItems_ok ih s.heap.length o.items
            (fun e he => by obtain ⟨w', h1, h2⟩ := hi e he; exact ⟨w', h1, by omega⟩)
            ((a, s.heap.length) :: memo) s1 hs1 (has_lt hs) o.kind [] hb1
        have hl1 : s1.heap.length = s.heap.length + 1 := by
          show (s.heap ++ [_]).length = _
          simp
        refine ⟨.ref s.heap.length, new ++ [(a, s.heap.length)], s2, ?_, ⟨l2, by omega, ?_, ?_⟩, ?_⟩
        · simp only
          rw [bind_run]
          unfold HM.read
          rw [hr]
          simp only
          rw [bind_run]
          unfold HM.alloc
          simp only
          rw [bind_run, h2]
          simp only [List.append_assoc, List.singleton_append]
          rfl
        · intro b hb
          rw [old2 b (by omega) (by omega)]
          show (s.heap ++ [_])[b]? = _
          rw [List.getElem?_append_left hb]
        · intro e he
          rw [List.append_assoc, List.singleton_append]
          rcases List.mem_append.mp he with he | he
          · obtain ⟨g1, g2, g3⟩ := done2 e he
            exact ⟨by omega, g2, g3⟩
          · rw [List.mem_singleton] at he
            subst he
            refine ⟨Nat.le_refl _, by simp only; omega, o, its', ho, ?_, rel2⟩
            simpa using ob2
        · show (a, s.heap.length) ∈ _
          simp

mutual
/-- A copy has the same value as the original. -/
theorem rel_json {S h : Heap} {m : Memo} {P Q : Nat → Prop} (hm : ∀ e ∈ m, Copied S h m e)
    (hpq : ∀ e ∈ m, P e.1 → Q e.2) :
    ∀ (v : Val) (x y : HV), Json P S v x → Rel m x y → Json Q h v y
  | .none, x, y, hj, hr => by
    obtain ⟨i, rfl, e⟩ := hj
    match y with
    | .imm j => cases hr; exact ⟨i, rfl, e⟩
    | .ref _ => exact absurd hr id
  | .bool _, x, y, hj, hr => by
    obtain ⟨i, rfl, e⟩ := hj
    match y with
    | .imm j => cases hr; exact ⟨i, rfl, e⟩
    | .ref _ => exact absurd hr id
  | .int _, x, y, hj, hr => by
    obtain ⟨i, rfl, e⟩ := hj
    match y with
    | .imm j => cases hr; exact ⟨i, rfl, e⟩
    | .ref _ => exact absurd hr id
  | .float _, x, y, hj, hr => by
    obtain ⟨i, rfl, e⟩ := hj
    match y with
    | .imm j => cases hr; exact ⟨i, rfl, e⟩
    | .ref _ => exact absurd hr id
  | .str _, x, y, hj, hr => by
    obtain ⟨i, rfl, e⟩ := hj
    match y with
    | .imm j => cases hr; exact ⟨i, rfl, e⟩
    | .ref _ => exact absurd hr id
  | .opt, x, y, hj, hr => by
    obtain ⟨i, rfl, e⟩ := hj
    match y with
    | .imm j => cases hr; exact ⟨i, rfl, e⟩
    | .ref _ => exact absurd hr id
  | .list vs, x, y, hj, hr => by
    obtain ⟨a, items, rfl, hp, ho, hi⟩ := hj
    match y with
    | .imm j => exact absurd hr id
    | .ref b =>
      obtain ⟨o, its, h1, h2, h3⟩ := hm _ hr
      rw [ho] at h1; cases h1
      exact ⟨b, its, rfl, hpq _ hr hp, h2, rel_jsonList hm hpq vs items its hi h3⟩
  | .dict d, x, y, hj, hr => by
    obtain ⟨a, items, rfl, hp, ho, hi⟩ := hj
    match y with
    | .imm j => exact absurd hr id
    | .ref b =>
      obtain ⟨o, its, h1, h2, h3⟩ := hm _ hr
      rw [ho] at h1; cases h1
      exact ⟨b, its, rfl, hpq _ hr hp, h2, rel_jsonDict hm hpq d items its hi h3⟩

theorem rel_jsonList {S h : Heap} {m : Memo} {P Q : Nat → Prop} (hm : ∀ e ∈ m, Copied S h m e)
    (hpq : ∀ e ∈ m, P e.1 → Q e.2) :
    ∀ (vs : List Val) (xs ys : List (String × HV)), JsonList P S vs xs → List.Forall₂ (RelItem m) xs ys →
      JsonList Q h vs ys
  | [], xs, ys, hj, hr => by
    rw [show xs = [] from hj] at hr
    cases hr; rfl
  | v :: vs, xs, ys, hj, hr => by
    obtain ⟨e, rest, rfl, h1, h2⟩ := hj
    cases hr with
    | @cons _ e' _ ys' hr1 hr2 =>
      exact ⟨e', ys', rfl, rel_json hm hpq v _ _ h1 hr1.2, rel_jsonList hm hpq vs rest ys' h2 hr2⟩

theorem rel_jsonDict {S h : Heap} {m : Memo} {P Q : Nat → Prop} (hm : ∀ e ∈ m, Copied S h m e)
    (hpq : ∀ e ∈ m, P e.1 → Q e.2) :
    ∀ (d : List (String × Val)) (xs ys : List (String × HV)), JsonDict P S d xs →
      List.Forall₂ (RelItem m) xs ys → JsonDict Q h d ys
  | [], xs, ys, hj, hr => by
    rw [show xs = [] from hj] at hr
    cases hr; rfl
  | (k, v) :: d, xs, ys, hj, hr => by
    obtain ⟨x, rest, rfl, h1, h2⟩ := hj
    cases hr with
    | @cons _ e' _ ys' hr1 hr2 =>
      obtain ⟨k', y⟩ := e'
      obtain ⟨hk, hrel⟩ := hr1
      simp only at hk hrel
      subst hk
      exact ⟨y, ys', rfl, rel_json hm hpq v _ _ h1 hrel, rel_jsonDict hm hpq d rest ys' h2 hr2⟩
end

/-- The copy of a dict: a new object at the end of the heap whose children lie behind it. -/
theorem copyDict_ok {s : St} {d : List (String × Val)} {x : HV} {fuel : Nat}
    (hj : Json anywhere s.heap (.dict d) x) (hf : depth (Val.dict d) ≤ fuel) :
    ∃ s' items, copyDictH fuel x s = (.ok s.heap.length, s') ∧ s'.log = s.log ∧
      (∀ a, a < s.heap.length → s'.heap[a]? = s.heap[a]?) ∧
      s'.heap[s.heap.length]? = some ⟨.dict, items⟩ ∧
      JsonDict (fun a => s.heap.length < a) s'.heap d items := by
  obtain ⟨a, its, rfl, -, ho, hi⟩ := id hj
  obtain ⟨fuel, rfl⟩ : ∃ n, fuel = n + 1 := ⟨fuel - 1, by simp [depth] at hf; omega⟩
  let s1 : St := { s with heap := s.heap ++ [⟨.dict, []⟩] }
  have hs1 : Has s.heap s1 := by
    intro a o ha
    show (s.heap ++ [_])[a]? = _
    rw [List.getElem?_append_left (lt_of_get ha)]
    exact ha
  have hb1 : s1.heap[s.heap.length]? = some ⟨.dict, []⟩ := by
    show (s.heap ++ [_])[_]? = _
    rw [List.getElem?_append_right (Nat.le_refl _)]
    simp
  have hl1 : s1.heap.length = s.heap.length + 1 := by
    show (s.heap ++ [_]).length = _
    simp
  obtain ⟨_, o, ho', hsm, _⟩ := json_ref hj
  rw [ho] at ho'; cases ho'
  obtain ⟨new, s2, its', h2, l2, len2, old2, done2, ob2, rel2⟩ :=
    copyItems_ok (deepcopy_ok s.heap fuel) s.heap.length its
      (fun e he => by obtain ⟨w', h1, h2⟩ := hsm e he; exact ⟨w', h1, by omega⟩)
      [(a, s.heap.length)] s1 hs1 (Nat.le_refl _) .dict [] hb1
  have hob : s2.heap[s.heap.length]? = some ⟨.dict, its'⟩ := by simpa using ob2
  have hdc : deepcopy (fuel + 1) [] (.ref a) s = (.ok (.ref s.heap.length, new ++ [(a, s.heap.length)]), s2) := by
    rw [deepcopy]
    simp only [Memo.get]
    rw [bind_run]
    unfold HM.read
    rw [ho]
    simp only
    rw [bind_run]
    unfold HM.alloc
    simp only
    rw [bind_run, h2]
    rfl
  refine ⟨s2, its', ?_, l2, ?_, hob, ?_⟩
  · unfold copyDictH
    rw [bind_run, hdc]
    simp only
    rw [bind_run]
    unfold HM.read
    rw [hob]
    rfl
  · intro b hb
    rw [old2 b (by omega) (by omega)]
    show (s.heap ++ [_])[b]? = _
    rw [List.getElem?_append_left hb]
  · have hd' := jsonDict_avoid hj d its hi (by simp)
    refine rel_jsonDict (m := new ++ [(a, s.heap.length)]) ?_ ?_ d its its' hd' rel2
    · intro e he
      rcases List.mem_append.mp he with he | he
      · exact (done2 e he).2.2
      · rw [List.mem_singleton] at he
        subst he
        exact ⟨_, its', ho, hob, rel2⟩
    · intro e he hp
      rcases List.mem_append.mp he with he | he
      · have := (done2 e he).1
        omega
      · rw [List.mem_singleton] at he
        subst he
        exact absurd rfl hp.2

end Verif
