import Verif.Lemmas.HeapOutCostLow
import Verif.Props.HeapOut
import Verif.Spec.Md
import Mathlib.Tactic.Linarith
/-!
# C98: how many objects parsing and serialising create

The claim one would like is a linear one, in the number of lists and dicts of the input (`objects`) for parsing, and in the
number of objects of the node (`treeSize`) for `to_dict`.  It is false of the code (`C98_false`, `C98_false_to_dict`): every
level copies everything below it again.  What holds is a bound by the depth times the number of objects.
-/

namespace Verif.Props.Cost
open Verif Verif.Spec Verif.Props

theorem created_of_most {α : Type} {m : HM α} {h : Heap} {log : List Warn} {k : Nat} (hm : Most m ⟨h, log⟩ k) :
    created h (m ⟨h, log⟩).2.heap ≤ k := by
  unfold created; unfold Most at hm; simp only at hm; omega

/-- C98: parsing a JSON value (whose parts may be shared) creates at most five objects per level of nesting and list or dict,
whether it succeeds or not. -/
theorem C98_partial (e : Entry) (fuel : Nat) (w : Bool) (u : Val) (x : HV) (h : Heap) (log : List Warn)
    (hj : Json anywhere h u x) (hf : depth u ≤ fuel) :
    created h (e.call fuel w x h log).2.heap ≤ 5 * depth u * objects u := by
  have h5 : 5 * objects u ≤ 5 * depth u * objects u := Nat.mul_le_mul_right _ (by have := depth_pos' u; omega)
  cases e with
  | parseNode => exact created_of_most (parseNode_most (s := ⟨h, log⟩) fuel w hj hf)
  | node c =>
    exact created_of_most (node_most (s := ⟨h, log⟩) fuel w _ c hj hf fun u y t hu hs =>
      ⟨parseNode_sim fuel w hu (by omega), parseNode_most fuel w hu (by omega)⟩)
  | parseMark =>
    have := created_of_most (parseMark_most (s := ⟨h, log⟩) fuel hj hf)
    exact Nat.le_trans this (by omega)
  | mark c =>
    by_cases h0 : objects u = 0
    · have hd : ∀ d, u ≠ .dict d := fun d e => by rw [e, objects] at h0; omega
      have h1 := copyDict_most (s := ⟨h, log⟩) hj hf
      obtain ⟨s', h2, _⟩ := copy_not_dict (s := ⟨h, log⟩) hj hf hd
      show created h (markFromDictH fuel c x ⟨h, log⟩).2.heap ≤ _
      unfold markFromDictH
      rw [bind_run]
      unfold Most at h1
      rw [h2] at h1 ⊢
      simp only at h1 ⊢
      unfold created
      omega
    · have := created_of_most (mark_most (s := ⟨h, log⟩) fuel c hj hf)
      exact Nat.le_trans this (by omega)

/-- C98: `to_dict` on an instance whose objects form a tree of at most `n` levels creates at most six objects per level and
object, whatever the recursion limit. -/
theorem C98_partial_to_dict (fuel n : Nat) (x : HV) (h : Heap) (log : List Warn) (hx : TreeOf n h x) :
    created h (callToDict fuel x h log).2.heap ≤ 6 * n * treeSize n h x :=
  created_of_most (toDict_most (S := h) fuel n x ⟨h, log⟩ hx
    ⟨fun _ _ h => h, fun a o ha ho => absurd (lt_of_get ho) (by show ¬ a < h.length; omega)⟩)

/-- Quadratic growth does occur: a paragraph inside `k` blockquotes consists of `2 k + 1` lists and dicts, and parsing it creates
at least `(k + 1)²` objects, wherever it is in memory. -/
theorem C98_partial_attained (fuel : Nat) (w : Bool) (k : Nat) (x : HV) (h : Heap) (log : List Warn)
    (hj : Json anywhere h (inQuotes k) x) (hf : 2 * k + 2 ≤ fuel) :
    objects (inQuotes k) = 2 * k + 1 ∧ depth (inQuotes k) = 2 * k + 2 ∧
    (k + 1) * (k + 1) ≤ created h (Entry.parseNode.call fuel w x h log).2.heap := by
  refine ⟨quote_objects k, quote_depth k, ?_⟩
  have := quote_least (s := ⟨h, log⟩) k fuel w hj (by rw [quote_depth]; exact hf)
  unfold Least at this
  unfold created
  show _ ≤ (parseNodeH fuel w x ⟨h, log⟩).2.heap.length - _
  simp only at this
  omega

theorem square_large (C : Nat) : C * (2 * (3 * C + 1) + 1) < (3 * C + 1 + 1) * (3 * C + 1 + 1) := by nlinarith

/-- C98: no constant number of objects per list and dict suffices for parsing. -/
theorem C98_false (w : Bool) (C : Nat) : ∃ (u : Val) (x : HV) (h : Heap), Json anywhere h u x ∧
    ∀ fuel log, depth u ≤ fuel → C * objects u < created h (Entry.parseNode.call fuel w x h log).2.heap := by
  refine ⟨inQuotes (3 * C + 1), _, _, nestedHeap_json (3 * C + 1), fun fuel log hf => ?_⟩
  rw [quote_depth] at hf
  obtain ⟨h1, _, h2⟩ := C98_partial_attained fuel w (3 * C + 1) _ _ log (nestedHeap_json (3 * C + 1)) hf
  rw [h1]
  exact Nat.lt_of_lt_of_le (square_large C) h2

/-- What parsing `inQuotes k` returns. -/
def quotesNode : Nat → Node
  | 0 => .mk ⟨.paragraph, .str "paragraph".toList, none, none, .opt, .opt⟩ .opt
  | k + 1 => .mk ⟨.blockquote, .str "blockquote".toList, none, none, .opt, .absent⟩ (.val [quotesNode k])

theorem quotesNode_parsed (w : Bool) : ∀ k, parseNode w (inQuotes k) = .ok (quotesNode k)
  | 0 => rfl
  | k + 1 => by
    have ih := quotesNode_parsed w k
    have h1 : contentStep w [("type", .str "blockquote".toList), ("content", .list [inQuotes k])] = .ok (some (.val [quotesNode k])) := by
      rw [contentStep, if_neg (by decide), contentStep, if_pos rfl, parseNodes, ih]
      · rfl
      · nofun
    rw [inQuotes, parseNode]
    have h2 : lookupKey [("type", .str "blockquote".toList), ("content", .list [inQuotes k])] "type" = some (.str "blockquote".toList) := rfl
    have h3 : registryLookup nodeRegistry (.str "blockquote".toList) = .ok (some .blockquote) := rfl
    simp only [h2, h3, h1]
    rfl

theorem quotesNode_is {k : Nat} {S : Heap} (h : Starts k S) : IsNode anywhere S (quotesNode k) (.ref (2 * k)) := by
  induction k with
  | zero =>
    have h0 := h 0 _ rfl
    refine ⟨0, _, rfl, trivial, h0, ⟨rfl, ⟨_, rfl, ⟨_, rfl, by unfold paraT; rfl⟩⟩, rfl, rfl, rfl, rfl⟩, rfl⟩
  | succ k ih =>
    refine ⟨_, _, rfl, trivial, starts_node h, ⟨rfl, ⟨_, rfl, ⟨_, rfl, by unfold quoteT; rfl⟩⟩, rfl, rfl, rfl, rfl⟩, ?_⟩
    exact ⟨_, _, rfl, trivial, starts_list h, _, _, rfl, ih (starts_down h), rfl⟩

/-- C98: no constant number of objects per object of the node suffices for `to_dict`, even of nodes that `parse_node` returned
and that consist of different objects. -/
theorem C98_false_to_dict (C : Nat) : ∃ (n : Node) (x : HV) (h : Heap) (m : Nat), Parsed n ∧ IsNode anywhere h n x ∧ TreeOf m h x ∧
    ∀ fuel log, m ≤ fuel → C * treeSize m h x < created h (callToDict fuel x h log).2.heap := by
  have hst : Starts (3 * C + 1) (nodeHeap (3 * C + 1)) := fun _ _ h => h
  obtain ⟨h1, h2⟩ := starts_tree hst (Nat.le_refl _)
  refine ⟨quotesNode (3 * C + 1), .ref (2 * (3 * C + 1)), nodeHeap (3 * C + 1), 2 * (3 * C + 1) + 1,
    ⟨true, _, by rw [quotesNode_parsed]; rfl⟩, quotesNode_is hst, h1, fun fuel log hf => ?_⟩
  have := nested_dict_least (s := ⟨nodeHeap (3 * C + 1), log⟩) (3 * C + 1) fuel hst hf (fun _ _ h => h)
  unfold Least at this
  rw [h2]
  refine Nat.lt_of_lt_of_le (square_large C) ?_
  unfold created
  show _ ≤ (toDictH fuel _ ⟨_, log⟩).2.heap.length - _
  simp only at this
  omega

/-- The paragraph of `Props/Heap.lean`, whose two children are one dict: four lists and dicts (the shared one counts twice), four
levels; what parsing creates is counted. -/
example : objects para0 = 4 ∧ depth para0 = 4 ∧ created heap0 (Entry.parseNode.call 4 true (.ref 2) heap0 []).2.heap ≤ 80 := by
  refine ⟨rfl, rfl, ?_⟩
  exact C98_partial .parseNode 4 true para0 (.ref 2) heap0 [] heap0_para (by decide)

example : TreeOf 5 (nodeHeap 2) (.ref 4) ∧ treeSize 5 (nodeHeap 2) (.ref 4) = 5 := starts_tree (fun _ _ h => h) (by decide)

example : created (nodeHeap 2) (callToDict 9 (.ref 4) (nodeHeap 2) []).2.heap ≤ 150 := by
  have := C98_partial_to_dict 9 5 (.ref 4) (nodeHeap 2) [] (starts_tree (fun _ _ h => h) (by decide)).1
  rw [(starts_tree (k := 2) (n := 5) (fun _ _ h => h) (by decide)).2] at this
  exact this

end Verif.Props.Cost
