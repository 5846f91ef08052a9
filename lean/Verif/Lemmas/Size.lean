import Mathlib.Tactic.Linarith
import Mathlib.Tactic.Ring
import Verif.Lemmas.Weight
import Verif.Lemmas.Calendar
import Verif.Spec.Size
/-!
# How long the Markdown of a node can be

Two weights are followed through the renderer: `wM` counts the characters that make parents add something (line ends, pipes),
`wW` weighs every character by what it may become (a space six: `&nbsp;`, a newline four: `<br>`).  The first is linear in the
size of the node, the second quadratic.
-/

namespace Verif.Size
open Verif Verif.Weight

def wM (c : Char) : Nat := if Str.isLineBreak c || c == '|' then 1 else 0
def wW (c : Char) : Nat := if c = ' ' then 6 else if c = '\n' then 4 else 1

theorem wM_le (c : Char) : wM c ≤ 1 := by unfold wM; split <;> omega
theorem wW_le (c : Char) : wW c ≤ 6 := by unfold wW; split <;> (try split) <;> omega
theorem wW_pos (c : Char) : 1 ≤ wW c := by unfold wW; split <;> (try split) <;> omega
theorem wM_break (c : Char) (h : Str.isLineBreak c = true) : 1 ≤ wM c := by unfold wM; rw [h]; simp

theorem count_le (s : Str) : s.count '|' ≤ ws wM s := by
  induction s with
  | nil => simp
  | cons c s ih =>
    rw [ws_cons, List.count_cons]
    by_cases h : c = '|'
    · subst h; have : wM '|' = 1 := by decide
      simp; omega
    · rw [if_neg (by simpa using h)]; omega

theorem M_le (s : Str) : ws wM s ≤ s.length := by simpa using ws_le 1 wM_le s
theorem W_le (s : Str) : ws wW s ≤ 6 * s.length := ws_le 6 wW_le s

/-- `n * (n + level)`. -/
def phi (lv : Nat) (n : Nat) : Nat := n * (n + lv)

/-- The level a list is rendered at. -/
def lvl (o : Option Int) : Nat := (o.getD 0).toNat

structure KidB (K : Nat) (k : Kid) (n : Nat) : Prop where
  out : ∀ lv ig s, k.render lv ig = .ok (.str s) → ws wM s + 5 ≤ 300 * n ∧ ws wW s + 40 ≤ K * phi (lvl lv) n

def kidCount : Slot (List Kid) → Nat
  | .val l => l.length
  | _ => 0

structure ItemB (K : Nat) (it : Item) (n : Nat) : Prop where
  pos : it.isNode = true → 1 ≤ n
  out : ∀ lv ig s, it.render lv ig = .ok (.str s) →
    ws wM s + kidCount it.content + 5 ≤ 300 * n ∧ ws wW s + 16 * kidCount it.content + 40 ≤ K * phi (lvl lv) n
  kids : it.isNode = true → ∀ ks, iterSlot alienKid it.content = .ok ks →
    ∃ gs, List.Forall₂ (KidB K) ks gs ∧ gs.sum + 1 ≤ n

theorem ItemB.kid {K : Nat} {it : Item} {n : Nat} (h : ItemB K it n) : KidB K it.toKid n :=
  ⟨fun lv ig s hs => by have := h.out lv ig s hs; omega⟩

theorem kidB_alien (K : Nat) : KidB K alienKid 0 := ⟨fun lv ig s h => by cases h⟩

theorem itemB_alien (K : Nat) : ItemB K alienItem 0 :=
  ⟨fun h => (by cases h), fun lv ig s h => (by cases h), fun h => (by cases h)⟩

theorem forall2_replicate {α β : Type} {R : α → β → Prop} {a : α} {b : β} (h : R a b) (n : Nat) :
    List.Forall₂ R (List.replicate n a) (List.replicate n b) := by
  induction n with
  | zero => exact .nil
  | succ n ih => exact .cons h ih

theorem sum_replicate_zero (n : Nat) : (List.replicate n 0).sum = 0 := by
  induction n with
  | zero => rfl
  | succ n ih => rw [List.replicate_succ, List.sum_cons, ih]

/-! ## Sums -/

theorem phi_super (lv a b : Nat) : phi lv a + phi lv b + 2 * (a * b) = phi lv (a + b) := by
  unfold phi; ring

theorem phi_mono_lv {lv lv' n : Nat} (h : lv ≤ lv') : phi lv n ≤ phi lv' n :=
  Nat.mul_le_mul_left _ (Nat.add_le_add_left h _)

theorem phi_mono {lv n n' : Nat} (h : n ≤ n') : phi lv n ≤ phi lv n' :=
  Nat.mul_le_mul h (Nat.add_le_add_right h _)

theorem sum_phi (K lv : Nat) : ∀ ns : List Nat, (ns.map fun n => K * phi lv n).sum ≤ K * phi lv ns.sum
  | [] => by simp
  | n :: ns => by
    have ih := sum_phi K lv ns
    have := phi_super lv n ns.sum
    rw [List.map_cons, List.sum_cons, List.sum_cons, ← this, Nat.mul_add, Nat.mul_add]
    omega

theorem sum_lin (a : Nat) : ∀ ns : List Nat, (ns.map fun n => a * n).sum = a * ns.sum
  | [] => by simp
  | n :: ns => by rw [List.map_cons, List.sum_cons, List.sum_cons, sum_lin a ns, Nat.mul_add]

theorem sum_sub (g : Nat → Nat) (c : Nat) : ∀ ns : List Nat, (∀ n ∈ ns, c ≤ g n) →
    (ns.map fun n => g n - c).sum + c * ns.length = (ns.map g).sum
  | [], _ => by simp
  | n :: ns, h => by
    have ih := sum_sub g c ns (fun x hx => h x (List.mem_cons_of_mem _ hx))
    have := h n List.mem_cons_self
    simp only [List.map_cons, List.sum_cons, List.length_cons, Nat.mul_add]
    omega

theorem sum_sub_le (g : Nat → Nat) (c : Nat) : ∀ ns : List Nat, (ns.map fun n => g n - c).sum ≤ (ns.map g).sum
  | [] => by simp
  | n :: ns => by
    have ih := sum_sub_le g c ns
    simp only [List.map_cons, List.sum_cons]
    omega

/-! ## Rendered values -/

/-- The weight of a rendered child with a separator of weight `k`. -/
def vw (w : Char → Nat) (k : Nat) : Val → Nat
  | .str s => ws w s + k
  | _ => 0

theorem strJoin_ws {w : Char → Nat} {sep : Str} {l : List Val} {s : Str} (h : strJoin sep l = .ok s) :
    ws w s ≤ (l.map (vw w (ws w sep))).sum := by
  unfold strJoin at h
  split at h
  · rename_i hall
    cases h
    refine Nat.le_trans (ws_join _ _) ?_
    clear hall
    induction l with
    | nil => exact Nat.le_refl _
    | cons v l ih =>
      cases v with
      | str t =>
        rw [List.filterMap_cons_some (f := Val.asStr?) (a := .str t) (b := t) rfl, List.map_cons, List.sum_cons]
        simp only [total, vw]
        omega
      | _ =>
        rw [List.filterMap_cons_none rfl, List.map_cons, List.sum_cons]
        omega
  · cases h

theorem vw_mono {w : Char → Nat} {k k' : Nat} (h : k ≤ k') : ∀ l : List Val, (l.map (vw w k)).sum ≤ (l.map (vw w k')).sum
  | [] => by simp
  | v :: l => by
    have ih := vw_mono h (w := w) l
    have : vw w k v ≤ vw w k' v := by cases v <;> simp [vw] <;> omega
    simp only [List.map_cons, List.sum_cons]
    omega

theorem collectPre_bound {α β γ : Type} {ig : Bool} {pre : α → Except PyErr γ} {f : γ → α → Except PyErr β} {μ : β → Nat}
    {B : Nat → Nat} {R : α → Nat → Prop} (hR : ∀ a n c b, R a n → f c a = .ok b → μ b ≤ B n) :
    ∀ {as : List α} {ns : List Nat} {bs : List β}, List.Forall₂ R as ns → collectPre ig pre f as = .ok bs →
    (bs.map μ).sum ≤ (ns.map B).sum := by
  intro as ns bs h
  induction h generalizing bs with
  | nil => intro h; cases h; simp
  | @cons a n as ns ha _ ih =>
    intro h
    unfold collectPre at h
    split at h
    · cases h
    · rename_i c _
      split at h
      · rename_i b hb
        split at h
        · cases h
        · rename_i bs' hbs
          cases h
          have := hR a n c b ha hb
          have := ih hbs
          simp only [List.map_cons, List.sum_cons]
          omega
      · split at h
        · have := ih h
          simp only [List.map_cons, List.sum_cons]
          omega
        · cases h

/-! ## The content of a node -/

/-- The content of a node, of total size `m`. -/
def ContentB (K : Nat) (c : Slot (List Item)) (m : Nat) : Prop :=
  ∀ items, iterSlot alienItem c = .ok items → ∃ ns, List.Forall₂ (ItemB K) items ns ∧ ns.sum ≤ m ∧
    (kidCount (kidsOf c) = 0 ∨ (kidCount (kidsOf c) = ns.length ∧ ∀ n ∈ ns, 1 ≤ n))

/-- Room for `kidCount` things beside the rendered children. -/
theorem room {c : Slot (List Item)} {ns : List Nat} {m t k : Nat} {g : Nat → Nat} (hk : ∀ n, 1 ≤ n → k ≤ g n)
    (hc : kidCount (kidsOf c) = 0 ∨ (kidCount (kidsOf c) = ns.length ∧ ∀ n ∈ ns, 1 ≤ n))
    (ht : t ≤ (ns.map fun n => g n - k).sum) (hs : (ns.map g).sum ≤ m) : t + k * kidCount (kidsOf c) ≤ m := by
  rcases hc with h0 | ⟨hl, hn⟩
  · rw [h0]; have := sum_sub_le g k ns; omega
  · have := sum_sub g k ns (fun n h => hk n (hn n h))
    rw [hl]; omega

theorem phi_one {K lv n : Nat} (hK : 10000 ≤ K) (hn : 1 ≤ n) : 16 ≤ K * phi lv n := by
  have h1 : 1 ≤ phi lv n := by
    unfold phi
    exact Nat.mul_pos hn (by omega)
  calc 16 ≤ K * 1 := by omega
    _ ≤ K * phi lv n := Nat.mul_le_mul_left _ h1

/-- What the rendered children weigh, one after the other. -/
def SumB (K lv m kc : Nat) (l : List Val) : Prop :=
  (l.map (vw wM 4)).sum + kc ≤ 300 * m ∧ (l.map (vw wW 20)).sum + 16 * kc ≤ K * phi lv m

theorem sumB_of {K lv m : Nat} (hK : 10000 ≤ K) {c : Slot (List Item)} {ns : List Nat} {l : List Val} (hm : ns.sum ≤ m)
    (hc : kidCount (kidsOf c) = 0 ∨ (kidCount (kidsOf c) = ns.length ∧ ∀ n ∈ ns, 1 ≤ n))
    (h1 : (l.map (vw wM 4)).sum ≤ (ns.map fun n => 300 * n - 1).sum)
    (h2 : (l.map (vw wW 20)).sum ≤ (ns.map fun n => K * phi lv n - 16).sum) :
    SumB K lv m (kidCount (kidsOf c)) l := by
  constructor
  · have := room (g := fun n => 300 * n) (m := 300 * m) (fun n h => by omega) hc h1
      (by rw [sum_lin]; omega)
    omega
  · exact room (g := fun n => K * phi lv n) (fun n h => phi_one hK h) hc h2
      (Nat.le_trans (sum_phi K lv ns) (Nat.mul_le_mul_left _ (phi_mono hm)))

theorem sumB_opt (K lv m : Nat) : SumB K lv m 0 [] := by
  constructor <;> simp

/-- One rendered child. -/
theorem kid_one {K n : Nat} {lv lv' : Option Int} {ig : Bool} {k : Kid} {v : Val} (h : KidB K k n) (hl : lvl lv ≤ lvl lv')
    (hv : k.render lv ig = .ok v) :
    vw wM 4 v ≤ 300 * n - 1 ∧ vw wW 20 v ≤ K * phi (lvl lv') n - 16 := by
  cases v with
  | str s =>
    have := h.out lv ig s hv
    have := Nat.mul_le_mul_left K (phi_mono_lv (n := n) hl)
    simp only [vw]
    omega
  | _ => simp [vw]

theorem content_sum {K m : Nat} (hK : 10000 ≤ K) {c : Slot (List Item)} (hc : ContentB K c m) {ig : Bool} {sep s : Str}
    (h : contentToMarkdown sep ig c = .ok s) (h1 : ws wM sep ≤ 4) (h2 : ws wW sep ≤ 20) :
    ws wM s + kidCount (kidsOf c) ≤ 300 * m ∧ ws wW s + 16 * kidCount (kidsOf c) ≤ K * phi 0 m := by
  unfold contentToMarkdown at h
  split at h
  · cases h
    exact ⟨by simp [ws, kidsOf, kidCount], by simp [ws, kidsOf, kidCount]⟩
  · split at h
    · cases h
    · rename_i items hi
      split at h
      · cases h
      · rename_i lst hl
        obtain ⟨ns, hf, hm, hk⟩ := hc items hi
        have hs := sumB_of (lv := 0) (l := lst) hK hm hk
          (collectPre_bound (R := ItemB K) (fun a n _ b ha hb => (kid_one (lv' := none) ha.kid (Nat.le_refl _) hb).1) hf hl)
          (collectPre_bound (R := ItemB K) (fun a n _ b ha hb => (kid_one (lv' := none) ha.kid (Nat.le_refl _) hb).2) hf hl)
        have a1 := Nat.le_trans (strJoin_ws (w := wM) h) (vw_mono h1 _)
        have a2 := Nat.le_trans (strJoin_ws (w := wW) h) (vw_mono h2 _)
        unfold SumB at hs
        omega

theorem docBlock_one {K n : Nat} {k : Item} {v : Val} (h : ItemB K k n) (hv : docBlock k = .ok v) :
    vw wM 1 v ≤ 300 * n - 1 ∧ vw wW 4 v ≤ K * phi 0 n - 16 := by
  unfold docBlock at hv
  split at hv
  · cases hv
  · split at hv
    · cases hv
    · rename_i md hmd
      cases md with
      | str s =>
        have := kid_one (lv' := none) h.kid (Nat.le_refl _) hmd
        simp only [padNewlines] at hv
        cases hv
        have e1 : ws wM [Str.nl] = 1 := by decide
        have e2 : ws wW [Str.nl] = 4 := by decide
        have e3 : lvl none = 0 := rfl
        rw [e3] at this
        simp only [vw, ws_append] at this ⊢
        have h3 := h.out none false s hmd
        rw [e3] at h3
        omega
      | _ => cases hv
  · have := kid_one (lv' := none) h.kid (Nat.le_refl _) hv
    cases v with
    | str s =>
      have e3 : lvl none = 0 := rfl
      rw [e3] at this
      simp only [vw] at this ⊢
      omega
    | _ => simp [vw]

theorem doc_sum {K m : Nat} (hK : 10000 ≤ K) {c : Slot (List Item)} (hc : ContentB K c m) {ig : Bool} {s : Str}
    (h : docContentToMarkdown ig c = .ok s) :
    ws wM s + kidCount (kidsOf c) ≤ 300 * m ∧ ws wW s + 16 * kidCount (kidsOf c) ≤ K * phi 0 m := by
  unfold docContentToMarkdown at h
  split at h
  · cases h
    exact ⟨by simp [ws, kidsOf, kidCount], by simp [ws, kidsOf, kidCount]⟩
  · split at h
    · cases h
    · rename_i items hi
      split at h
      · cases h
      · rename_i lst hl
        split at h
        · cases h
        · rename_i t ht
          cases h
          obtain ⟨ns, hf, hm, hk⟩ := hc items hi
          have b1 := collectPre_bound (R := ItemB K) (μ := vw wM 1) (B := fun n => 300 * n - 1)
            (fun a n _ b ha hb => (docBlock_one ha hb).1) hf hl
          have b2 := collectPre_bound (R := ItemB K) (μ := vw wW 4) (B := fun n => K * phi 0 n - 16)
            (fun a n _ b ha hb => (docBlock_one ha hb).2) hf hl
          have r1 := room (g := fun n => 300 * n) (m := 300 * m) (fun n h => by omega) hk b1 (by rw [sum_lin]; omega)
          have r2 := room (g := fun n => K * phi 0 n) (fun n h => phi_one hK h) hk b2
            (Nat.le_trans (sum_phi K 0 ns) (Nat.mul_le_mul_left _ (phi_mono hm)))
          have a1 := strJoin_ws (w := wM) ht
          have a2 := strJoin_ws (w := wW) ht
          rw [show ws wM [Str.nl] = 1 by decide] at a1
          rw [show ws wW [Str.nl] = 4 by decide] at a2
          have c1 := ws_strip3 (w := wM) 3 t
          have c2 := ws_strip3 (w := wW) 3 t
          omega

/-! ## Closing an estimate -/

/-- A node with `own ≥ 1` of its own has room for what it adds to its content. -/
theorem close {K own m lv X Y c1 c2 : Nat} (ho : 1 ≤ own) (h1 : c1 ≤ K) (h2 : c2 ≤ K) (hX : X ≤ K * phi (lv + 1) m)
    (hY : Y ≤ X + c1 * (own * m) + c2 * own) : Y ≤ K * phi lv (own + m) := by
  obtain ⟨o, rfl⟩ : ∃ o, own = o + 1 := ⟨own - 1, by omega⟩
  have e : phi lv (o + 1 + m) = phi (lv + 1) m + (o + 1) * m + (o + 1) + (o * m + o * (o + 1) + (o + 1) * lv) := by
    unfold phi; ring
  have h3 : c1 * ((o + 1) * m) ≤ K * ((o + 1) * m) := Nat.mul_le_mul_right _ h1
  have h4 : c2 * (o + 1) ≤ K * (o + 1) := Nat.mul_le_mul_right _ h2
  have h5 := Nat.zero_le (K * (o * m + o * (o + 1) + (o + 1) * lv))
  rw [e, Nat.mul_add, Nat.mul_add, Nat.mul_add]
  omega

/-- Without level. -/
theorem close0 {K own m X Y c1 c2 : Nat} (ho : 1 ≤ own) (h1 : c1 ≤ K) (h2 : c2 ≤ K) (hX : X ≤ K * phi 0 m)
    (hY : Y ≤ X + c1 * (own * m) + c2 * own) : Y ≤ K * phi 0 (own + m) :=
  close ho h1 h2 (Nat.le_trans hX (Nat.mul_le_mul_left _ (phi_mono_lv (Nat.zero_le _)))) hY

theorem le_own_mul {own m : Nat} (ho : 1 ≤ own) : m ≤ own * m := Nat.le_mul_of_pos_left m ho

/-! ## Lists -/

theorem ws_indentOf (level : Int) : ws wW (indentOf level) = 24 * level.toNat ∧ ws wM (indentOf level) = 0 := by
  unfold indentOf Str.rep
  rw [ws_rep, ws_rep]
  have e1 : ws wW [' ', ' ', ' ', ' '] = 24 := by decide
  have e2 : ws wM [' ', ' ', ' ', ' '] = 0 := by decide
  rw [e1, e2]
  omega

theorem itemLines_total {w : Char → Nat} {k : Nat} (hk : w '\n' = k) (marker c : Str) :
    total w k (itemLines marker c) ≤ ws w marker + ws w c + k := by
  have h := total_split (w := w) k hk c
  unfold itemLines
  split
  · rename_i e
    rw [e] at h
    simp only [total] at h ⊢
    omega
  · rename_i f r e
    rw [e] at h
    simp only [total, ws_append] at h ⊢
    omega

theorem lvl_succ (level : Int) : lvl (some (level + 1)) ≤ level.toNat + 1 := by
  unfold lvl
  show (level + 1).toNat ≤ _
  omega

/-- The content of a list item. -/
theorem listItem_bound {K n : Nat} {kind : TypeEnum} {level : Int} {ig : Bool} {it : Item} {s : Str} (h : ItemB K it n)
    (hn : it.isNode = true) (hs : listItemContent kind level ig it = .ok s) :
    ∃ g, g + 1 ≤ n ∧ ws wM s ≤ 300 * g ∧ ws wW s ≤ K * phi (level.toNat + 1) g := by
  unfold listItemContent at hs
  split at hs
  · cases hs
  · rename_i ks hk
    split at hs
    · cases hs
    · rename_i lst hl
      obtain ⟨gs, hf, hg⟩ := h.kids hn ks hk
      have key : ∀ (a : Kid) (g : Nat) (c : Bool) (b : Val), KidB K a g → listItemChild level c a = .ok b →
          vw wM 4 b ≤ 300 * g ∧ vw wW 20 b ≤ K * phi (level.toNat + 1) g := by
        intro a g c b ha hb
        unfold listItemChild at hb
        cases c with
        | true =>
          have := kid_one (lv' := some (level + 1)) ha (Nat.le_refl _) hb
          have := Nat.mul_le_mul_left K (phi_mono_lv (n := g) (lvl_succ level))
          omega
        | false =>
          simp only [Bool.false_eq_true, if_false] at hb
          split at hb
          · cases hb
          · rename_i md hmd
            split at hb
            · cases hb
            · rename_i t ht
              cases hb
              cases md with
              | str u =>
                cases ht
                have h0 := kid_one (lv' := none) ha (Nat.le_refl _) hmd
                have h1 := ws_rstrip (w := wM) u
                have h2 := ws_rstrip (w := wW) u
                have h3 := Nat.mul_le_mul_left K (phi_mono_lv (n := g) (Nat.zero_le (level.toNat + 1)))
                rw [show lvl none = 0 from rfl] at h0
                have h4 := ha.out none false u hmd
                rw [show lvl none = 0 from rfl] at h4
                simp only [vw] at h0 ⊢
                omega
              | _ => cases ht
      have b1 := collectPre_bound (R := KidB K) (μ := vw wM 4) (B := fun n => 300 * n)
        (fun a n c b ha hb => (key a n c b ha hb).1) hf hl
      have b2 := collectPre_bound (R := KidB K) (μ := vw wW 20) (B := fun n => K * phi (level.toNat + 1) n)
        (fun a n c b ha hb => (key a n c b ha hb).2) hf hl
      rw [sum_lin] at b1
      have a1 := Nat.le_trans (strJoin_ws (w := wM) hs) (vw_mono (by decide : ws wM [Str.nl] ≤ 4) _)
      have a2 := Nat.le_trans (strJoin_ws (w := wW) hs) (vw_mono (by decide : ws wW [Str.nl] ≤ 20) _)
      exact ⟨gs.sum, hg, Nat.le_trans a1 b1, Nat.le_trans a2 (Nat.le_trans b2 (sum_phi _ _ _))⟩

/-- The room an item leaves for its marker. -/
theorem item_room {K lv n g x : Nat} (hK : 10000 ≤ K) (hg : g + 1 ≤ n) (hx : x ≤ K * phi (lv + 1) g) :
    x + 24 * lv + 200 ≤ K * phi (lv + 1) n := by
  have h1 : phi (lv + 1) g + (1 + lv) ≤ phi (lv + 1) n := by
    have h := phi_mono (lv := lv + 1) hg
    have : phi (lv + 1) (g + 1) = phi (lv + 1) g + (2 * g + 1 + lv + 1) := by unfold phi; ring
    omega
  have h2 := Nat.mul_le_mul_left K h1
  rw [Nat.mul_add] at h2
  have h3 : 10000 * (1 + lv) ≤ K * (1 + lv) := Nat.mul_le_mul_right _ hK
  omega

theorem isTypeOf_node {k : Kid} {l : List TypeEnum} {b : Bool} (h : k.isTypeOf l = .ok b) : k.isNode = true := by
  unfold Kid.isTypeOf at h
  split at h
  · assumption
  · cases h

theorem bullet_bound {K : Nat} (hK : 10000 ≤ K) {level : Int} {ig : Bool} {items : List Item} {ns : List Nat}
    (hf : List.Forall₂ (ItemB K) items ns) : ∀ {lines : List Str}, bulletLines level ig items = .ok lines →
    total wM 1 lines + ns.length ≤ 300 * ns.sum ∧ total wW 4 lines + 16 * ns.length ≤ K * phi (level.toNat + 1) ns.sum := by
  induction hf with
  | nil => intro lines h; cases h; simp [total]
  | @cons it n items ns hi _ ih =>
    intro lines h
    have hsup := phi_super (level.toNat + 1) n ns.sum
    unfold bulletLines at h
    split at h
    · cases h
    · rename_i ht
      have hn := hi.pos (isTypeOf_node ht)
      have := phi_one (lv := level.toNat + 1) hK hn
      have := ih h
      rw [List.sum_cons, List.length_cons, ← hsup]
      simp only [Nat.mul_add]
      omega
    · rename_i ht
      split at h
      · cases h
      · rename_i t htt
        split at h
        · cases h
        · rename_i rest hr
          cases h
          obtain ⟨g, hg, g1, g2⟩ := listItem_bound hi (isTypeOf_node ht) htt
          have r := item_room hK hg g2
          have ih' := ih hr
          have t1 := itemLines_total (w := wM) (k := 1) (by decide) (indentOf level ++ ['-', ' ']) t
          have t2 := itemLines_total (w := wW) (k := 4) (by decide) (indentOf level ++ ['-', ' ']) t
          have w1 := ws_indentOf level
          rw [ws_append] at t1 t2
          have e1 : ws wM ['-', ' '] = 0 := by decide
          have e2 : ws wW ['-', ' '] = 7 := by decide
          rw [total_append, total_append, List.sum_cons, List.length_cons, ← hsup]
          simp only [Nat.mul_add]
          omega

/-! ### Numbers -/

theorem digits_M (n : Nat) : ws wM (Nat.toDigits 10 n) = 0 ∧ ws wW (Nat.toDigits 10 n) = (Nat.toDigits 10 n).length := by
  have h : ∀ c ∈ Nat.toDigits 10 n, c.isDigit = true := fun c hc => Nat.isDigit_of_mem_toDigits (by decide) (by decide) hc
  revert h
  generalize Nat.toDigits 10 n = l
  intro h
  induction l with
  | nil => exact ⟨rfl, rfl⟩
  | cons c l ih =>
    have ih := ih fun x hx => h x (List.mem_cons_of_mem _ hx)
    have hc := h c List.mem_cons_self
    have h48 : 48 ≤ c.toNat ∧ c.toNat ≤ 57 := by
      simp only [Char.isDigit, Bool.and_eq_true, decide_eq_true_eq] at hc
      exact ⟨UInt32.le_iff_toNat_le.mp hc.1, UInt32.le_iff_toNat_le.mp hc.2⟩
    have hM : wM c = 0 := by
      unfold wM Str.isLineBreak
      rw [if_neg]
      simp only [Bool.or_eq_true, Bool.and_eq_true, decide_eq_true_eq, beq_iff_eq, not_or]
      refine ⟨⟨⟨⟨⟨?_, ?_⟩, ?_⟩, ?_⟩, ?_⟩, ?_⟩ <;> try omega
      rintro rfl
      revert h48; decide
    have hW : wW c = 1 := by
      unfold wW
      rw [if_neg, if_neg]
      · rintro rfl; revert h48; decide
      · rintro rfl; revert h48; decide
    rw [ws_cons, ws_cons, hM, hW, List.length_cons]
    omega

theorem digits_succ (n : Nat) : (Nat.toDigits 10 (n + 1)).length ≤ (Nat.toDigits 10 n).length + 1 := by
  have hpos : 0 < (Nat.toDigits 10 n).length := Nat.length_toDigits_pos
  rw [Nat.length_toDigits_le_iff (by decide) (by omega)]
  have h := (Nat.length_toDigits_le_iff (b := 10) (n := n) (by decide) hpos).mp (Nat.le_refl _)
  rw [Nat.pow_succ]
  have : 1 ≤ 10 ^ (Nat.toDigits 10 n).length := Nat.one_le_pow _ _ (by decide)
  omega

theorem digits_pred (n : Nat) : (Nat.toDigits 10 n).length ≤ (Nat.toDigits 10 (n + 1)).length := by
  have hpos : 0 < (Nat.toDigits 10 (n + 1)).length := Nat.length_toDigits_pos
  rw [Nat.length_toDigits_le_iff (by decide) hpos]
  have h := (Nat.length_toDigits_le_iff (b := 10) (n := n + 1) (by decide) hpos).mp (Nat.le_refl _)
  omega

/-- The number of an item. -/
theorem num_W {env : Env} {v : Val} (h : v.asInt?.isSome = true) :
    ws wM (v.pyStr env) = 0 ∧ ws wW (v.pyStr env) = (v.pyStr env).length := by
  cases v with
  | int n =>
    cases n with
    | ofNat n => exact digits_M n
    | negSucc n =>
      have := digits_M (n + 1)
      simp only [Val.pyStr, Str.ofInt, ws_cons, List.length_cons]
      rw [show wM '-' = 0 by decide, show wW '-' = 1 by decide]
      omega
  | bool b =>
    cases b
    · show ws wM "False".toList = 0 ∧ ws wW "False".toList = "False".toList.length; decide
    · show ws wM "True".toList = 0 ∧ ws wW "True".toList = "True".toList.length; decide
  | _ => cases h

theorem num_next {env : Env} {v : Val} (h : v.asInt?.isSome = true) :
    ((nextNum v).pyStr env).length ≤ (v.pyStr env).length + 1 := by
  cases v with
  | int n =>
    simp only [nextNum, Val.asInt?, Option.getD_some, Val.pyStr]
    cases n with
    | ofNat n => exact digits_succ n
    | negSucc n =>
      rw [show Int.negSucc n + 1 = -(n : Int) by omega]
      cases n with
      | zero => decide
      | succ n =>
        rw [show -((n + 1 : Nat) : Int) = Int.negSucc n by omega]
        simp only [Str.ofInt, List.length_cons]
        have := digits_pred (n + 1)
        omega
  | bool b =>
    cases b
    · show (Str.ofInt 1).length ≤ "False".toList.length + 1; decide
    · show (Str.ofInt 2).length ≤ "True".toList.length + 1; decide
  | _ => cases h

theorem ordered_bound {K : Nat} (hK : 10000 ≤ K) {env : Env} {level : Int} {ig : Bool} {items : List Item} {ns : List Nat}
    (hf : List.Forall₂ (ItemB K) items ns) : ∀ {num : Val} {lines : List Str} {D : Nat}, num.asInt?.isSome = true →
    (num.pyStr env).length ≤ D → orderedLines env level ig num items = .ok lines →
    ns.length ≤ ns.sum ∧ total wM 1 lines + ns.length ≤ 300 * ns.sum ∧
    total wW 4 lines + 16 * ns.length ≤ K * phi (level.toNat + 1) ns.sum + D * ns.length := by
  induction hf with
  | nil => intro num lines D _ _ h; cases h; simp [total]
  | @cons it n items ns hi _ ih =>
    intro num lines D hnum hD h
    have hsup := phi_super (level.toNat + 1) n ns.sum
    unfold orderedLines at h
    split at h
    · cases h
    · rename_i ht
      have hn := hi.pos (isTypeOf_node ht)
      have := phi_one (lv := level.toNat + 1) hK hn
      have := ih hnum hD h
      rw [List.sum_cons, List.length_cons, ← hsup]
      simp only [Nat.mul_add]
      omega
    · rename_i ht
      split at h
      · cases h
      · rename_i t htt
        split at h
        · cases h
        · rename_i rest hr
          cases h
          have hn := hi.pos (isTypeOf_node ht)
          obtain ⟨g, hg, g1, g2⟩ := listItem_bound hi (isTypeOf_node ht) htt
          have r := item_room hK hg g2
          have hnext : (nextNum num).asInt?.isSome = true := rfl
          have ih' := ih (D := D + 1) hnext (Nat.le_trans (num_next (env := env) hnum) (Nat.add_le_add_right hD 1)) hr
          have t1 := itemLines_total (w := wM) (k := 1) (by decide) (indentOf level ++ num.pyStr env ++ ['.', ' ']) t
          have t2 := itemLines_total (w := wW) (k := 4) (by decide) (indentOf level ++ num.pyStr env ++ ['.', ' ']) t
          have w1 := ws_indentOf level
          have w2 := num_W (env := env) hnum
          rw [ws_append, ws_append] at t1 t2
          have e1 : ws wM ['.', ' '] = 0 := by decide
          have e2 : ws wW ['.', ' '] = 7 := by decide
          have hgap : ns.length ≤ K * (2 * (n * ns.sum)) := by
            have a1 : ns.sum ≤ n * ns.sum := le_own_mul hn
            have a2 : 1 * (2 * (n * ns.sum)) ≤ K * (2 * (n * ns.sum)) := Nat.mul_le_mul_right _ (by omega)
            omega
          rw [total_append, total_append, List.sum_cons, List.length_cons, ← hsup]
          rw [Nat.add_mul] at ih'
          simp only [Nat.mul_add] at hgap ⊢
          omega

/-! ### Tasks -/

theorem taskLine_bound {K n : Nat} (hK : 10000 ≤ K) {level : Int} {ig : Bool} {it : Item} {s : Str} (h : ItemB K it n)
    (hn : it.isNode = true) (hs : taskItemLine level ig it = .ok s) :
    ws wM s + 10 ≤ 300 * n ∧ ws wW s + 100 ≤ K * phi (level.toNat + 1) n := by
  unfold taskItemLine at hs
  split at hs
  · cases hs
  · rename_i ks hk
    split at hs
    · cases hs
    · rename_i lst hl
      split at hs
      · cases hs
      · rename_i t ht
        split at hs
        · cases hs
        · rename_i st _
          simp only [Except.ok.injEq] at hs
          subst hs
          obtain ⟨gs, hf, hg⟩ := h.kids hn ks hk
          have b1 := collectPre_bound (R := KidB K) (μ := vw wM 4) (B := fun n => 300 * n)
            (fun a n _ b ha hb => by have := kid_one (lv' := none) ha (Nat.le_refl _) hb; omega) hf hl
          have b2 := collectPre_bound (R := KidB K) (μ := vw wW 20) (B := fun n => K * phi (level.toNat + 1) n)
            (fun a n _ b ha hb => by
              have := kid_one (lv' := none) ha (Nat.le_refl _) hb
              have h3 := Nat.mul_le_mul_left K (phi_mono_lv (n := n) (Nat.zero_le (level.toNat + 1)))
              rw [show lvl none = 0 from rfl] at this
              omega) hf hl
          rw [sum_lin] at b1
          have a1 := Nat.le_trans (strJoin_ws (w := wM) ht) (vw_mono (by decide : ws wM [] ≤ 4) _)
          have a2 := Nat.le_trans (strJoin_ws (w := wW) ht) (vw_mono (by decide : ws wW [] ≤ 20) _)
          have a3 := Nat.le_trans a2 (Nat.le_trans b2 (sum_phi _ _ _))
          have r := item_room hK hg a3
          have w1 := ws_indentOf level
          have r1 := ws_rstrip (w := wM) t
          have r2 := ws_rstrip (w := wW) t
          have c1 : ∀ p : Prop, [Decidable p] → ws wM (if p then ['[', 'x', ']'] else ['[', ' ', ']']) = 0 := by
            intro p _; split <;> decide
          have c2 : ∀ p : Prop, [Decidable p] → ws wW (if p then ['[', 'x', ']'] else ['[', ' ', ']']) ≤ 8 := by
            intro p _; split <;> decide
          have c1' := c1 (st.asStr? = some "DONE".toList)
          have c2' := c2 (st.asStr? = some "DONE".toList)
          have e1 : ws wM ['-', ' '] = 0 := by decide
          have e2 : ws wW ['-', ' '] = 7 := by decide
          have e3 : ws wM [' '] = 0 := by decide
          have e4 : ws wW [' '] = 6 := by decide
          rw [ws_append, ws_append, ws_append, ws_append, ws_append, ws_append, ws_append, ws_append]
          omega

theorem task_bound {K : Nat} (hK : 10000 ≤ K) {level : Int} {ig : Bool} {items : List Item} {ns : List Nat}
    (hf : List.Forall₂ (ItemB K) items ns) : ∀ {l : List Val}, taskLines level ig items = .ok l →
    (l.map (vw wM 1)).sum + ns.length ≤ 300 * ns.sum ∧
    (l.map (vw wW 4)).sum + 16 * ns.length ≤ K * phi (level.toNat + 1) ns.sum := by
  induction hf with
  | nil => intro l h; cases h; simp
  | @cons it n items ns hi _ ih =>
    intro l h
    have hsup := phi_super (level.toNat + 1) n ns.sum
    unfold taskLines at h
    split at h
    · cases h
    · rename_i ht
      split at h
      · cases h
      · rename_i line hline
        split at h
        · cases h
        · rename_i rest hr
          cases h
          have hb := taskLine_bound hK hi (isTypeOf_node ht) hline
          have := ih hr
          rw [List.map_cons, List.map_cons, List.sum_cons, List.sum_cons, List.sum_cons, List.length_cons, ← hsup]
          simp only [Nat.mul_add, vw]
          omega
    · rename_i ht0
      have hn := hi.pos (isTypeOf_node ht0)
      have hp := phi_one (lv := level.toNat + 1) hK hn
      split at h
      · cases h
      · have := ih h
        rw [List.sum_cons, List.length_cons, ← hsup]
        simp only [Nat.mul_add]
        omega
      · split at h
        · rename_i md hmd
          split at h
          · cases h
          · rename_i rest hr
            cases h
            have := ih hr
            have hm := Nat.mul_le_mul_left K (phi_mono_lv (n := n) (lvl_succ level))
            have hv : vw wM 1 md + 1 ≤ 300 * n ∧ vw wW 4 md + 16 ≤ K * phi (level.toNat + 1) n := by
              cases md with
              | str s =>
                have := hi.out _ _ s hmd
                simp only [vw]
                omega
              | _ => simp only [vw]; omega
            rw [List.map_cons, List.map_cons, List.sum_cons, List.sum_cons, List.sum_cons, List.length_cons, ← hsup]
            simp only [Nat.mul_add]
            omega
        · split at h
          · have := ih h
            rw [List.sum_cons, List.length_cons, ← hsup]
            simp only [Nat.mul_add]
            omega
          · cases h

/-! ## Decisions, tables -/

theorem decision_bound {K : Nat} (hK : 10000 ≤ K) {ig : Bool} {items : List Item} {ns : List Nat}
    (hf : List.Forall₂ (ItemB K) items ns) : ∀ {l : List Val}, decisionBlocks ig items = .ok l →
    (l.map (vw wM 4)).sum ≤ (ns.map fun n => 300 * n - 1).sum ∧
    (l.map (vw wW 20)).sum ≤ (ns.map fun n => K * phi 0 n - 16).sum := by
  induction hf with
  | nil => intro l h; cases h; simp
  | @cons it n items ns hi _ ih =>
    intro l h
    unfold decisionBlocks at h
    simp only [List.map_cons, List.sum_cons]
    split at h
    · cases h
    · have := ih h; omega
    · split at h
      · rename_i md hmd
        split at h
        · cases h
        · rename_i rest hr
          cases h
          have := ih hr
          have h1 := kid_one (lv' := none) hi.kid (Nat.le_refl _) hmd
          rw [show lvl none = 0 from rfl] at h1
          simp only [List.map_cons, List.sum_cons]
          omega
      · split at h
        · have := ih h; omega
        · cases h

theorem row_bound {K : Nat} {ig : Bool} {items : List Item} {ns : List Nat}
    (hf : List.Forall₂ (ItemB K) items ns) : ∀ {l : List Val}, rowCells ig items = .ok l →
    (l.map (vw wM 4)).sum ≤ (ns.map fun n => 300 * n - 1).sum ∧
    (l.map (vw wW 20)).sum ≤ (ns.map fun n => K * phi 0 n - 16).sum := by
  induction hf with
  | nil => intro l h; cases h; simp
  | @cons it n items ns hi _ ih =>
    intro l h
    unfold rowCells at h
    simp only [List.map_cons, List.sum_cons]
    split at h
    · cases h
    · rename_i md hmd
      split at h
      · cases h
      · rename_i rest hr
        cases h
        have := ih hr
        have h1 := kid_one (lv' := none) hi.kid (Nat.le_refl _) hmd
        rw [show lvl none = 0 from rfl] at h1
        simp only [List.map_cons, List.sum_cons]
        omega

theorem separator_ws (n : Nat) : ws wM (separatorLine (n + 1)) = n + 2 ∧ ws wW (separatorLine (n + 1)) = 16 * n + 17 := by
  unfold separatorLine pipeRow
  have key : ∀ n, ws wM (Str.join [' ', '|', ' '] (List.replicate (n + 1) ['-', '-', '-'])) = n ∧
      ws wW (Str.join [' ', '|', ' '] (List.replicate (n + 1) ['-', '-', '-'])) = 16 * n + 3 := by
    intro n
    induction n with
    | zero => decide
    | succ n ih =>
      rw [List.replicate_succ, List.replicate_succ]
      rw [List.replicate_succ] at ih
      simp only [Str.join, ws_append]
      rw [ih.1, ih.2]
      have e1 : ws wM ['-', '-', '-'] = 0 := by decide
      have e2 : ws wW ['-', '-', '-'] = 3 := by decide
      have e3 : ws wM [' ', '|', ' '] = 1 := by decide
      have e4 : ws wW [' ', '|', ' '] = 13 := by decide
      omega
  simp only [ws_append]
  rw [(key n).1, (key n).2]
  have e1 : ws wM ['|', ' '] = 1 := by decide
  have e2 : ws wW ['|', ' '] = 7 := by decide
  have e3 : ws wM [' ', '|'] = 1 := by decide
  have e4 : ws wW [' ', '|'] = 7 := by decide
  omega

theorem headerWidth_kids {c : Slot (List Kid)} {n : Nat} (h : headerWidth c = .ok (some n)) :
    kidCount c = n ∧ ∃ k, n = k + 1 := by
  unfold headerWidth at h
  split at h <;> try cases h
  rename_i k ks
  split at h <;> try cases h
  exact ⟨rfl, _, rfl⟩

theorem table_bound {K : Nat} (hK : 10000 ≤ K) {ig : Bool} {items : List Item} {ns : List Nat}
    (hf : List.Forall₂ (ItemB K) items ns) : ∀ {l : List Val}, tableLines ig items = .ok l →
    (l.map (vw wM 1)).sum ≤ (ns.map fun n => 300 * n - 1).sum ∧
    (l.map (vw wW 4)).sum ≤ (ns.map fun n => K * phi 0 n - 16).sum ∨ ∃ v ∈ l, v.asStr? = none := by
  induction hf with
  | nil => intro l h; cases h; simp
  | @cons it n items ns hi _ ih =>
    intro l h
    unfold tableLines at h
    simp only [List.map_cons, List.sum_cons]
    split at h
    · split at h
      · rcases ih h with h | h
        · left; omega
        · exact .inr h
      · cases h
    · rename_i md hmd
      cases hs : md.asStr? with
      | none =>
        right
        have : md ∈ l := by
          split at h
          · split at h
            · split at h
              · cases h
              · cases h; exact List.mem_cons_self
            · cases h
          · split at h
            · cases h
            · split at h <;> cases h <;> exact List.mem_cons_self
        exact ⟨md, this, hs⟩
      | some s =>
        have e : md = .str s := by cases md <;> first | (cases hs; rfl) | cases hs
        subst e
        have ho := hi.out none false s hmd
        rw [show lvl none = 0 from rfl] at ho
        split at h
        · split at h
          · split at h
            · cases h
            · rename_i rest hr
              cases h
              rcases ih hr with h | ⟨v, hv, h⟩
              · left
                simp only [List.map_cons, List.sum_cons, vw]
                omega
              · exact .inr ⟨v, List.mem_cons_of_mem _ hv, h⟩
          · cases h
        · rename_i w hw
          split at h
          · cases h
          · rename_i rest hr
            split at h
            · rename_i k
              cases h
              obtain ⟨h1, j, rfl⟩ := headerWidth_kids hw
              have hsep := separator_ws j
              rcases ih hr with h | ⟨v, hv, h⟩
              · left
                simp only [List.map_cons, List.sum_cons, vw]
                omega
              · exact .inr ⟨v, by simp [hv], h⟩
            · cases h
              rcases ih hr with h | ⟨v, hv, h⟩
              · left
                simp only [List.map_cons, List.sum_cons, vw]
                omega
              · exact .inr ⟨v, List.mem_cons_of_mem _ hv, h⟩

theorem strJoin_str {sep : Str} {l : List Val} {s : Str} (h : strJoin sep l = .ok s) : ¬ ∃ v ∈ l, v.asStr? = none := by
  rintro ⟨v, hv, hn⟩
  unfold strJoin at h
  split at h
  · rename_i ha
    have := List.all_eq_true.mp ha v hv
    rw [hn] at this
    cases this
  · cases h

end Verif.Size
