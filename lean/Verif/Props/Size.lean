import Verif.Lemmas.SizeTree
/-!
# C97: the length of the Markdown
-/

namespace Verif.Props.Size
open Verif Verif.Weight Verif.Size Verif.Spec.Size

/-- C97 in full: the Markdown is at most quadratic in the size of the document. -/
def AtMostQuadratic : Prop :=
  ∃ C : Nat, ∀ (env : Env), EnvOk env → ∀ (n : Node) (ig : Bool) (s : Str), n.toMarkdown env ig = .ok (.str s) →
    s.length ≤ C * nodeSize env n ^ 2

/-- C97 for documents whose headings and indentations are at most `L` deep (six in Atlassian's schema): the Markdown of a
document of size `N` has at most `(10000 + L) * N²` characters. -/
theorem C97_partial (env : Env) (he : EnvOk env) (L : Nat) (n : Node) (hL : Levels L n) (ig : Bool) (s : Str)
    (h : n.toMarkdown env ig = .ok (.str s)) : s.length ≤ (10000 + L) * nodeSize env n ^ 2 := by
  have b := ((item_bound he (Nat.le_refl _) n hL).out none ig s h).2
  have l := le_ws wW_pos s
  have e : phi (lvl none) (nodeSize env n) = nodeSize env n ^ 2 := by
    show nodeSize env n * (nodeSize env n + 0) = _
    rw [Nat.add_zero, Nat.pow_two]
  rw [e] at b
  omega

/-! ## A heading of any level -/

/-- `{"type": "heading", "attrs": {"level": k}}` -/
def heading (k : Nat) : Node :=
  .mk { cls := .heading, type := .str "heading".toList, version := none, text := none,
        attrs := .val ⟨[("level", .int k)]⟩, marks := .opt } .opt

theorem heading_md (env : Env) (k : Nat) (ig : Bool) : ∃ s, (heading k).toMarkdown env ig = .ok (.str s) ∧ k ≤ s.length := by
  refine ⟨['\n', '\n'] ++ (Str.rep ['#'] k ++ [' '] ++ []) ++ ['\n', '\n'], rfl, ?_⟩
  have : (Str.rep ['#'] (k : Int)).length = k := by unfold Str.rep; simp
  rw [List.length_append, List.length_append, List.length_append, List.length_append, this]
  omega

theorem heading_size (env : Env) (k : Nat) : nodeSize env (heading k) = 1 + (Nat.toDigits 10 k).length := by
  show 1 + 0 + ((Nat.toDigits 10 k).length + 0) + 0 + 0 = _
  omega

theorem pow_bound (k : Nat) : (k + 3) ^ 2 ≤ 9 * 2 ^ k := by
  induction k with
  | zero => decide
  | succ k ih =>
    have e : (k + 1 + 3) ^ 2 + (k * k + 4 * k + 2) = 2 * (k + 3) ^ 2 := by ring
    have : 2 ^ (k + 1) = 2 * 2 ^ k := by rw [Nat.pow_succ 2 k]; omega
    rw [this]
    omega

def env0 : Env :=
  { strOther := fun _ => "OPT".toList, upperOther := fun c => [c], digitOther := fun _ => none,
    floatToInt := fun _ => .error .valueError }

theorem env0_ok : EnvOk env0 := ⟨by decide, fun c => by simp [env0]⟩

/-- C97 in full is false: the level of a heading is not checked. -/
theorem C97_false : ¬ AtMostQuadratic := by
  rintro ⟨C, h⟩
  obtain ⟨s, hs, hl⟩ := heading_md env0 (10 ^ (C + 2)) false
  have h1 := h env0 env0_ok _ false s hs
  rw [heading_size] at h1
  have h2 : (Nat.toDigits 10 (10 ^ (C + 2))).length ≤ C + 3 := by
    rw [Nat.length_toDigits_le_iff (by decide) (by omega)]
    exact Nat.pow_lt_pow_right (by decide) (by omega)
  have h3 : (1 + (Nat.toDigits 10 (10 ^ (C + 2))).length) ^ 2 ≤ (C + 1 + 3) ^ 2 := Nat.pow_le_pow_left (by omega) 2
  have h4 := pow_bound (C + 1)
  have h5 : C ≤ 2 ^ C := Nat.le_of_lt Nat.lt_two_pow_self
  have h6 : C * (1 + (Nat.toDigits 10 (10 ^ (C + 2))).length) ^ 2 ≤ 2 ^ C * (9 * 2 ^ (C + 1)) :=
    Nat.mul_le_mul h5 (Nat.le_trans h3 h4)
  have h7 : 2 ^ C * (9 * 2 ^ (C + 1)) = 18 * 4 ^ C := by
    rw [show (4 : Nat) = 2 * 2 from rfl, Nat.mul_pow, Nat.pow_succ]; ring
  have h8 : 4 ^ C ≤ 10 ^ C := Nat.pow_le_pow_left (by decide) C
  have h9 : 10 ^ (C + 2) = 100 * 10 ^ C := by rw [Nat.pow_add]; ring
  have h10 : 1 ≤ 10 ^ C := Nat.one_le_pow _ _ (by decide)
  omega

/-! ## The bound is attained, up to the constant -/

/-- A node with nothing but a type. -/
def bare (c : NodeCls) (t : String) : Hd :=
  { cls := c, type := .str t.toList, version := none, text := none, attrs := .opt, marks := .opt }

/-- `depth` lists in one another. -/
def nested : Nat → Node
  | 0 => .mk (bare .bulletList "bulletList") (.val [])
  | d + 1 => .mk (bare .bulletList "bulletList") (.val [.mk (bare .listItem "listItem") (.val [nested d])])

theorem nested_size (env : Env) (d : Nat) : nodeSize env (nested d) = 2 * d + 1 := by
  induction d with
  | zero => rfl
  | succ d ih =>
    show 1 + 0 + 0 + 0 + (1 + 0 + 0 + 0 + (nodeSize env (nested d) + 0) + 0) = _
    rw [ih]; omega

theorem split_single {s : Str} (h : Str.nl ∉ s) : Str.splitNL s = [s] := by
  induction s with
  | nil => rfl
  | cons c s ih =>
    unfold Str.splitNL
    rw [if_neg (fun e => h (by rw [e]; exact List.mem_cons_self)), ih (fun e => h (List.mem_cons_of_mem _ e))]

theorem nested_type (env : Env) (d : Nat) : ((nested d).item env).toKid.isTypeOf [.bulletList] = .ok true := by
  cases d <;> rfl

/-- The Markdown of nested lists: one line, the marker of every level in front of the next. -/
theorem nested_md (env : Env) (d : Nat) : ∀ (l : Nat) (ig : Bool), ∃ s, (nested d).toMarkdownAt env (some l) ig = .ok (.str s) ∧
    Str.nl ∉ s ∧ s.length = 2 * d * d + 4 * l * d := by
  induction d with
  | zero => intro l ig; exact ⟨[], rfl, by simp, by simp⟩
  | succ d ih =>
    intro l ig
    obtain ⟨t, ht, hn, hlen⟩ := ih (l + 1) false
    refine ⟨(indentOf l ++ ['-', ' ']) ++ t, ?_, ?_, ?_⟩
    · have hc : listItemContent .bulletList l ig (Node.item env (.mk (bare .listItem "listItem") (.val [nested d]))) = .ok t := by
        have hr : ((nested d).item env).toKid.render (some ((l : Int) + 1)) false = .ok (.str t) := ht
        unfold listItemContent
        simp only [Node.item, slotItems, listItems, kidsOf, iterSlot, List.map_cons, List.map_nil, collectPre]
        rw [nested_type]
        simp only [listItemChild, if_true, hr]
        rfl
      have hb : bulletLines l ig (listItems env [.mk (bare .listItem "listItem") (.val [nested d])]) =
          .ok [(indentOf l ++ ['-', ' ']) ++ t] := by
        simp only [listItems, bulletLines]
        rw [hc]
        simp only [itemLines, split_single hn]
        rfl
      show strVal (bulletListMd (.val (listItems env _)) l ig) = _
      unfold bulletListMd
      simp only [iterSlot]
      rw [hb]
      rfl
    · intro h
      rcases List.mem_append.mp h with h | h
      · rcases List.mem_append.mp h with h | h
        · unfold indentOf Str.rep at h
          obtain ⟨x, hx, h⟩ := List.mem_flatten.mp h
          rw [List.eq_of_mem_replicate hx] at h
          revert h; decide
        · revert h; decide
      · exact hn h
    · rw [List.length_append, List.length_append, hlen]
      have : (indentOf (l : Int)).length = 4 * l := by
        unfold indentOf Str.rep
        rw [List.length_flatten, List.map_replicate, List.sum_replicate_nat]
        simp; omega
      rw [this]
      show 4 * l + 2 + (2 * d * d + 4 * (l + 1) * d) = _
      ring

/-- C97: less than quadratic it cannot be: `d` lists in one another, of size `2 d + 1`, become `2 d²` characters. -/
theorem C97_partial_attained (env : Env) (d : Nat) (ig : Bool) : ∃ n s, n.toMarkdown env ig = .ok (.str s) ∧ Levels 0 n ∧
    nodeSize env n = 2 * d + 1 ∧ s.length = 2 * d ^ 2 := by
  obtain ⟨s, hs, _, hl⟩ := nested_md env d 0 ig
  refine ⟨nested d, s, ?_, ?_, nested_size env d, by rw [hl]; ring⟩
  · rw [← hs]
    cases d <;> rfl
  · clear hs hl
    induction d with
    | zero => exact ⟨⟨fun h => (by cases h), fun ms h => (by cases h)⟩, trivial⟩
    | succ d ih =>
      exact ⟨⟨fun h => (by cases h), fun ms h => (by cases h)⟩,
        ⟨⟨fun h => (by cases h), fun ms h => (by cases h)⟩, ih, trivial⟩, trivial⟩

/-- The hypotheses of `C97_partial` hold for a heading of level 2. -/
example : Levels 6 (heading 2) ∧ ∃ s, (heading 2).toMarkdown env0 false = .ok (.str s) := by
  refine ⟨⟨⟨fun _ => ?_, fun ms h => (by cases h)⟩, trivial⟩, (heading_md env0 2 false).imp fun _ h => h.1⟩
  intro o v n ho hv hn
  cases ho
  cases hv
  cases hn
  decide

end Verif.Props.Size
