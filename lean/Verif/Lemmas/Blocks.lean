import Verif.Lemmas.Md
import Verif.Lemmas.Runs
/-!
# The two shared loops, in terms of the children's conversions
-/

namespace Verif
open Spec

theorem forall2_map_str {α : Type} {R : α → Val → Prop} {l : List α} {vs : List Str} :
    List.Forall₂ R l (vs.map .str) ↔ List.Forall₂ (fun a s => R a (.str s)) l vs := by
  rw [List.forall₂_map_right_iff]

/-- Strict plain loop: all children convert to strings, the text is their concatenation. -/
theorem content_iff (env : Env) (sep : Str) (kids : List Node) (s : Str) :
    contentToMarkdown sep false (slotItems env (.val kids)) = .ok s ↔
      ∃ ss, MdAll env kids ss ∧ s = Str.join sep ss := by
  rw [content_val]
  constructor
  · intro h
    cases hc : collect false (fun (k : Node) => k.toMarkdown env false) kids with
    | error e => rw [hc] at h; simp at h
    | ok l =>
      rw [hc] at h
      obtain ⟨l', rfl, rfl⟩ := strJoin_ok h
      exact ⟨l', forall2_map_str.mp ((collect_false _ _ _).mp hc), rfl⟩
  · rintro ⟨ss, h, rfl⟩
    rw [(collect_false _ _ (ss.map .str)).mpr (forall2_map_str (R := fun (a : Node) b => a.toMarkdown env false = .ok b).mpr h)]
    exact strJoin_str _ _

theorem padded_eq (n : Node) (s : Str) :
    padded n s = if n.cls.typeEnum ∈ [TypeEnum.bulletList, .orderedList, .codeBlock] then
      ['\n'] ++ s ++ ['\n'] else s := by
  unfold padded
  generalize n.cls = c
  cases c <;> rfl

theorem docBlockOf_ok (env : Env) {n : Node} (h : HasType n) (s : Str) :
    docBlockOf env n = .ok (.str s) ↔ ∃ t, Md env n t ∧ s = padded n t := by
  rw [docBlockOf_eq env h]
  split
  · next hc =>
    constructor
    · intro h
      cases hm : n.toMarkdown env false with
      | error e => rw [hm] at h; simp at h
      | ok v =>
        rw [hm] at h
        cases v <;> simp [padNewlines] at h
        next t => exact ⟨t, hm, by rw [padded_eq, if_pos hc, ← h]; rfl⟩
    · rintro ⟨t, ht, rfl⟩
      unfold Md at ht
      rw [ht, padded_eq, if_pos hc]; rfl
  · next hc =>
    constructor
    · intro h; exact ⟨s, h, by rw [padded_eq, if_neg hc]⟩
    · rintro ⟨t, ht, rfl⟩; rw [padded_eq, if_neg hc]; exact ht

theorem forall2_docBlock (env : Env) {kids : List Node} (hk : ∀ k ∈ kids, HasType k)
    (l : List Str) :
    List.Forall₂ (fun k s => docBlockOf env k = .ok (.str s)) kids l ↔
      ∃ ss, MdAll env kids ss ∧ l = List.zipWith padded kids ss := by
  induction kids generalizing l with
  | nil =>
    constructor
    · intro h; cases h; exact ⟨[], .nil, rfl⟩
    · rintro ⟨ss, h, rfl⟩; exact .nil
  | cons k kids ih =>
    have ih := ih (fun k hk' => hk k (by simp [hk']))
    constructor
    · intro h
      cases h with
      | cons h1 h2 =>
        obtain ⟨t, ht, rfl⟩ := (docBlockOf_ok env (hk k (by simp)) _).mp h1
        obtain ⟨ss, hs, rfl⟩ := (ih _).mp h2
        exact ⟨t :: ss, .cons ht hs, rfl⟩
    · rintro ⟨ss, h, rfl⟩
      cases h with
      | cons h1 h2 =>
        exact .cons ((docBlockOf_ok env (hk k (by simp)) _).mpr ⟨_, h1, rfl⟩) ((ih _).mpr ⟨_, h2, rfl⟩)

/-- Strict block loop. -/
theorem docContent_iff (env : Env) (kids : List Node) (hk : ∀ k ∈ kids, HasType k) (s : Str) :
    docContentToMarkdown false (slotItems env (.val kids)) = .ok s ↔
      ∃ ss, MdAll env kids ss ∧ s = docText kids ss := by
  rw [docContent_val]
  constructor
  · intro h
    cases hc : collect false (docBlockOf env) kids with
    | error e => rw [hc] at h; simp at h
    | ok l =>
      rw [hc] at h
      simp only at h
      cases hj : strJoin ['\n'] l with
      | error e => rw [hj] at h; simp at h
      | ok t =>
        rw [hj] at h
        obtain ⟨l', rfl, rfl⟩ := strJoin_ok hj
        obtain ⟨ss, h1, rfl⟩ := (forall2_docBlock env hk l').mp
          (forall2_map_str.mp ((collect_false _ _ _).mp hc))
        exact ⟨ss, h1, by rw [← Except.ok.inj h, strip_eq, join_eq]; rfl⟩
  · rintro ⟨ss, h, rfl⟩
    rw [(collect_false _ _ _).mpr (forall2_map_str.mpr ((forall2_docBlock env hk _).mpr ⟨ss, h, rfl⟩))]
    simp only [strJoin_str, strip_eq, join_eq]
    rfl

/-- A list or code block converts to a string. -/
theorem padded_block_str (env : Env) {n : Node}
    (hc : n.cls.typeEnum ∈ [TypeEnum.bulletList, .orderedList, .codeBlock]) {v : Val}
    (h : n.toMarkdown env false = .ok v) : ∃ s, v = .str s := by
  apply toMarkdownAt_str env n _ none false v h
  intro ht; rw [ht] at hc; exact absurd hc (by decide)

theorem docBlockOf_isOk (env : Env) {n : Node} (h : HasType n) :
    (docBlockOf env n).toOption.isSome = converts env n := by
  rw [docBlockOf_eq env h]
  unfold converts
  split
  · next hc =>
    cases hm : n.toMarkdown env false with
    | error e => rfl
    | ok v =>
      obtain ⟨s, rfl⟩ := padded_block_str env hc hm
      rfl
  · cases n.toMarkdown env false <;> rfl

theorem filter_congr_mem {α : Type} {p q : α → Bool} {l : List α} (h : ∀ a ∈ l, p a = q a) :
    l.filter p = l.filter q := List.filter_congr h

/-- Lenient block loop = strict block loop without the failing blocks. -/
theorem docContent_lenient (env : Env) (kids : List Node) (hk : ∀ k ∈ kids, HasType k) :
    docContentToMarkdown true (slotItems env (.val kids)) =
      docContentToMarkdown false (slotItems env (.val (kids.filter (converts env)))) := by
  rw [docContent_val, docContent_val, collect_filter,
    List.filter_congr (fun a ha => docBlockOf_isOk env (hk a ha))]

theorem content_lenient (env : Env) (sep : Str) (kids : List Node) :
    contentToMarkdown sep true (slotItems env (.val kids)) =
      contentToMarkdown sep false (slotItems env (.val (kids.filter (converts env)))) := by
  rw [content_val, content_val, collect_filter]
  have : (kids.filter fun (a : Node) => (a.toMarkdown env false).toOption.isSome) =
      kids.filter (converts env) := by
    apply List.filter_congr
    intro a _
    unfold converts
    cases a.toMarkdown env false <;> rfl
  rw [this]

end Verif
