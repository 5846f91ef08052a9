import Verif.Props.Heap
import Verif.Lemmas.HeapOutDict
/-!
# C49: `to_dict` neither changes the object nor returns anything of it

The programs of `Model/HeapOut.lean` run on a heap `h` holding the object (and anything else) at
addresses below `h.length`, with arbitrary sharing and even cycles; `fuel` is Python's recursion limit.
-/

namespace Verif.Props
open Verif Verif.Spec

/-- `x.to_dict()`, from heap `h` and log `log`. -/
def callToDict (fuel : Nat) (x : HV) (h : Heap) (log : List Warn) : Except HErr HV × St :=
  toDictH fuel x ⟨h, log⟩

theorem toDict_safe (fuel : Nat) (x : HV) (h : Heap) (log : List Warn) :
    (∀ a, a < h.length → (callToDict fuel x h log).2.heap[a]? = h[a]?) ∧
    h.length ≤ (callToDict fuel x h log).2.heap.length ∧ Sep h.length (callToDict fuel x h log).2.heap ∧
    ∀ r, (callToDict fuel x h log).1 = .ok r → Fresh h.length (callToDict fuel x h log).2.heap.length r :=
  safe_toDict h.length h.length fuel x ⟨h, log⟩
    (fun a o ha ho => absurd (lt_of_get ho) (by show ¬ a < h.length; omega)) (Nat.le_refl _) (Nat.le_refl _)

/-- Whatever the call does — return, raise, or hit the recursion limit half-way — every object that
existed before it is exactly as it was, and nothing is logged. -/
theorem C49_unchanged (fuel : Nat) (x : HV) (h : Heap) (log : List Warn) :
    (∀ a, a < h.length → (callToDict fuel x h log).2.heap[a]? = h[a]?) ∧
      (callToDict fuel x h log).2.log = log :=
  ⟨(toDict_safe fuel x h log).1, quiet_toDict fuel x ⟨h, log⟩⟩

/-- Nothing reachable from the returned dict existed before the call. -/
theorem C49_fresh (fuel : Nat) (x : HV) (h : Heap) (log : List Warn) (r : HV)
    (hr : (callToDict fuel x h log).1 = .ok r) (a : Nat)
    (ha : Reach (callToDict fuel x h log).2.heap r a) : h.length ≤ a := by
  obtain ⟨_, _, h3, h4⟩ := toDict_safe fuel x h log
  exact (reach_fresh h3 (h4 r hr) ha).1

/-- Later changes to any objects other than those created by the call — in particular to the node, its
attrs, its content list or its children — cannot be seen through the returned dict. -/
theorem C49_result_isolated (fuel : Nat) (x : HV) (h : Heap) (log : List Warn) (r : HV)
    (hr : (callToDict fuel x h log).1 = .ok r) (later : Heap)
    (hl : ∀ a, h.length ≤ a → a < (callToDict fuel x h log).2.heap.length →
      later[a]? = (callToDict fuel x h log).2.heap[a]?) (n : Nat) :
    observe n later r = observe n (callToDict fuel x h log).2.heap r := by
  obtain ⟨_, _, h3, h4⟩ := toDict_safe fuel x h log
  exact observe_fresh h3 hl n (h4 r hr)

/-- And the other way round: after the call, whatever is done to the objects created by it (the returned
dict and everything inside), what can be seen of `y` — the node itself or anything else that existed — is
what could be seen before the call. -/
theorem C49_object_isolated (fuel : Nat) (x : HV) (h : Heap) (log : List Warn) (later : Heap)
    (hl : ∀ a, a < h.length → later[a]? = (callToDict fuel x h log).2.heap[a]?)
    (y : HV) (hy : ∀ a, Reach h y a → a < h.length) (n : Nat) :
    observe n later y = observe n h y := by
  have hu : ∀ a, a < h.length → later[a]? = h[a]? := fun a ha =>
    (hl a ha).trans ((C49_unchanged fuel x h log).1 a ha)
  induction n generalizing y with
  | zero => rfl
  | succ n ih =>
    match y with
    | .imm _ => rfl
    | .ref a =>
      rw [observe, observe, hu a (hy a (.here a))]
      cases ho : h[a]? with
      | none => rfl
      | some o =>
        simp only
        congr 1
        refine List.map_congr_left fun e he => ?_
        rw [ih e.2 fun b hb => hy b (.step ho he hb)]

theorem outSim_agrees {m : HM HV} {h : Heap} {log : List Warn} {o : Except PyErr Val} :
    OutSim m ⟨h, log⟩ o →
    match o with
    | .ok v => ∃ r, (m ⟨h, log⟩).1 = .ok r ∧ Json (fun a => h.length ≤ a) (m ⟨h, log⟩).2.heap v r
    | .error e => (m ⟨h, log⟩).1 = .error (.py e) := by
  intro hs
  cases o with
  | ok v => obtain ⟨x, s', h1, _, h2⟩ := hs; exact ⟨x, by rw [h1], by rw [h1]; exact h2⟩
  | error e =>
    obtain ⟨s', h1, _⟩ := hs
    show (m ⟨h, log⟩).1 = _
    rw [h1]

/-- The value model agrees: `to_dict` of a node instance that fits the recursion limit raises what
`n.toDict` raises, or returns a newly built JSON value equal to it. -/
theorem C49_agrees_node (fuel : Nat) (n : Node) (x : HV) (h : Heap) (log : List Warn)
    (hx : IsNode anywhere h n x) (hf : depthNode n ≤ fuel) :
    match n.toDict with
    | .ok v => ∃ r, (callToDict fuel x h log).1 = .ok r ∧
        Json (fun a => h.length ≤ a) (callToDict fuel x h log).2.heap v r
    | .error e => (callToDict fuel x h log).1 = .error (.py e) :=
  outSim_agrees (toDict_sim fuel n x h ⟨h, log⟩ hx hf fun _ _ h => h)

/-- The same for marks, which cannot fail. -/
theorem C49_agrees_mark (fuel : Nat) (m : Mark) (x : HV) (h : Heap) (log : List Warn)
    (hx : IsMark anywhere h m x) (hf : depthMark m ≤ fuel) :
    ∃ r, (callToDict fuel x h log).1 = .ok r ∧
      Json (fun a => h.length ≤ a) (callToDict fuel x h log).2.heap m.toDict r :=
  outSim_agrees (markToDict_sim hx hf ⟨h, log⟩ fun _ _ h => h)

/-- `parse_node(d).to_dict()`: the two calls one after the other on a JSON value (sub-objects may be
shared).  If the value model says that the document parses and serialises to `v`, the second call returns
`v` made of objects that neither the caller nor the parsed node owns. -/
theorem C49_parse_then_serialise (fuel fuel' : Nat) (w : Bool) (u : Val) (x : HV) (h : Heap) (log : List Warn)
    (hj : Json anywhere h u x) (hf : depth u ≤ fuel) (n : Node) (hn : (parseNode w u).out = .ok n)
    (hf' : depthNode n ≤ fuel') (v : Val) (hv : n.toDict = .ok v) :
    ∃ r r', (Entry.parseNode.call fuel w x h log).1 = .ok r ∧
      (callToDict fuel' r (Entry.parseNode.call fuel w x h log).2.heap
        (Entry.parseNode.call fuel w x h log).2.log).1 = .ok r' ∧
      Json (fun a => (Entry.parseNode.call fuel w x h log).2.heap.length ≤ a)
        (callToDict fuel' r (Entry.parseNode.call fuel w x h log).2.heap
          (Entry.parseNode.call fuel w x h log).2.log).2.heap v r' := by
  have h1 := (C11_agrees_node fuel w u x h log hj hf).2
  rw [hn] at h1
  obtain ⟨r, h2, h3⟩ := h1
  have h4 := C49_agrees_node fuel' n r _ (Entry.parseNode.call fuel w x h log).2.log
    (isNode_mono (fun _ _ _ h => h) (fun _ _ => trivial) n r h3) hf'
  rw [hv] at h4
  obtain ⟨r', h5, h6⟩ := h4
  exact ⟨r, r', h2, h5, h6⟩

/-! ## Non-vacuity: the paragraph of `Props/Heap.lean`, whose two children were one dict. -/

example : ∃ r r', (Entry.parseNode.call 1000 true (.ref 2) heap0 []).1 = .ok r ∧
    (callToDict 1000 r (Entry.parseNode.call 1000 true (.ref 2) heap0 []).2.heap
      (Entry.parseNode.call 1000 true (.ref 2) heap0 []).2.log).1 = .ok r' ∧
    Json (fun a => (Entry.parseNode.call 1000 true (.ref 2) heap0 []).2.heap.length ≤ a)
      (callToDict 1000 r (Entry.parseNode.call 1000 true (.ref 2) heap0 []).2.heap
        (Entry.parseNode.call 1000 true (.ref 2) heap0 []).2.log).2.heap para0 r' := by
  have h1 : Json anywhere heap0 text0 (.ref 0) :=
    ⟨0, _, rfl, trivial, rfl, _, _, rfl, ⟨_, rfl, rfl⟩, _, _, rfl, ⟨_, rfl, rfl⟩, rfl⟩
  have hj : Json anywhere heap0 para0 (.ref 2) := ⟨2, _, rfl, trivial, rfl, _, _, rfl, ⟨_, rfl, rfl⟩, _, _, rfl,
    ⟨1, _, rfl, trivial, rfl, _, _, rfl, h1, _, _, rfl, h1, rfl⟩, rfl⟩
  have hp : ∃ n, (parseNode true para0).out = .ok n ∧ depthNode n ≤ 1000 ∧ n.toDict = .ok para0 :=
    ⟨_, rfl, by decide, rfl⟩
  obtain ⟨n, hn, hd, hv⟩ := hp
  exact C49_parse_then_serialise 1000 1000 true para0 (.ref 2) heap0 [] hj (by decide) n hn hd para0 hv

/-! ### The theorems on the paragraph built from the sample -/

/-- The heap after parsing the sample, and the node object in it. -/
theorem para0_built : ∃ (r : HV) (n : Node) (h : Heap), (parseNode true para0).out = .ok n ∧ depthNode n ≤ 1000 ∧
    n.toDict = .ok para0 ∧ IsNode anywhere h n r := by
  have hp : ∃ n, (parseNode true para0).out = .ok n ∧ depthNode n ≤ 1000 ∧ n.toDict = .ok para0 :=
    ⟨_, rfl, by decide, rfl⟩
  obtain ⟨n, hn, hd, hv⟩ := hp
  have := (C11_agrees_node 1000 true para0 (.ref 2) heap0 [] heap0_para (by decide)).2
  rw [hn] at this
  obtain ⟨r, h2, h3⟩ := this
  exact ⟨r, n, (Entry.parseNode.call 1000 true (HV.ref 2) heap0 []).snd.heap, hn, hd, hv,
    isNode_mono (fun _ _ _ h => h) (fun _ _ => trivial) n r h3⟩

example : True := by
  obtain ⟨r, n, h, hn, hd, hv, hi⟩ := para0_built
  have h1 := C49_agrees_node 1000 n r h [] hi hd
  rw [hv] at h1
  obtain ⟨r', h2, h3⟩ := h1
  -- the result refers to something: its own address
  obtain ⟨a, -, rfl, -⟩ := h3
  have h4 := C49_fresh 1000 r h [] (.ref a) h2 a (.here a)
  have h5 := C49_result_isolated 1000 r h [] (.ref a) h2 (callToDict 1000 r h []).2.heap (fun _ _ _ => rfl) 7
  trivial

example := C49_object_isolated 1000 (.ref 2) heap0 [] (callToDict 1000 (.ref 2) heap0 []).2.heap (fun _ _ => rfl)
  (.ref 2) heap0_closed 4

/-- A mark object with its attrs object. -/
def markHeap : Heap :=
  [⟨.inst .attrs, [("color", .imm (.str "#fff".toList))]⟩,
   ⟨.inst (.mark .textColor), [("type", .imm (.str "textColor".toList)), ("attrs", .ref 0)]⟩]

example := C49_agrees_mark 1000
  ⟨.textColor, .str "textColor".toList, .val ⟨[("color", .str "#fff".toList)]⟩⟩ (.ref 1) markHeap []
  ⟨1, _, rfl, trivial, rfl, rfl, ⟨_, rfl, _, rfl, rfl⟩, _, rfl, 0, _, rfl, trivial, rfl, _, _, rfl, ⟨_, rfl, rfl⟩, rfl⟩
  (by decide)

end Verif.Props
