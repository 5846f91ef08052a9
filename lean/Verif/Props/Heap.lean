import Verif.Lemmas.HeapParse
/-!
# C11: `from_dict` neither changes nor keeps anything of the caller's

The programs of `Model/Heap.lean` run on a heap `h` holding the caller's objects at addresses below
`h.length`, with arbitrary sharing and even cycles; `fuel` is Python's recursion limit.
-/

namespace Verif.Props
open Verif Verif.Spec

/-- The four entry points. -/
inductive Entry where
  | parseNode
  | parseMark
  | node (c : NodeCls)
  | mark (c : MarkCls)

/-- Call an entry point on `v`, from heap `h` and log `log`. -/
def Entry.call (e : Entry) (fuel : Nat) (w : Bool) (v : HV) (h : Heap) (log : List Warn) :
    Except HErr HV × St :=
  match e with
  | .parseNode => parseNodeH fuel w v ⟨h, log⟩
  | .parseMark => parseMarkH fuel v ⟨h, log⟩
  | .node c => c.fromDictH fuel w v ⟨h, log⟩
  | .mark c => c.fromDictH fuel v ⟨h, log⟩

theorem entry_safe (e : Entry) (fuel : Nat) (w : Bool) (v : HV) (h : Heap) (log : List Warn) :
    (∀ a, a < h.length → (e.call fuel w v h log).2.heap[a]? = h[a]?) ∧
    h.length ≤ (e.call fuel w v h log).2.heap.length ∧ Sep h.length (e.call fuel w v h log).2.heap ∧
    ∀ r, (e.call fuel w v h log).1 = .ok r → Fresh h.length (e.call fuel w v h log).2.heap.length r := by
  have hs : Sep h.length h := by
    intro a o ha ho
    exact absurd (lt_of_get ho) (by omega)
  have key : ∀ m : HM HV, Safe h.length h.length m (Fresh h.length) →
      (∀ a, a < h.length → (m ⟨h, log⟩).2.heap[a]? = h[a]?) ∧ h.length ≤ (m ⟨h, log⟩).2.heap.length ∧
      Sep h.length (m ⟨h, log⟩).2.heap ∧
      ∀ r, (m ⟨h, log⟩).1 = .ok r → Fresh h.length (m ⟨h, log⟩).2.heap.length r :=
    fun m hm => hm ⟨h, log⟩ hs (Nat.le_refl _) (Nat.le_refl _)
  cases e with
  | parseNode => exact key _ (safe_parseNode _ _ _ _ _)
  | parseMark => exact key _ (safe_parseMark _ _ _ _)
  | node c => exact key _ (safe_node _ _ _ _ (fun L v => safe_parseNode _ L _ _ v) c v)
  | mark c => exact key _ (safe_mark _ _ _ c v)

/-- Whatever the call does — return, raise, or hit the recursion limit half-way — every object that
existed before it is exactly as it was. -/
theorem C11_unchanged (e : Entry) (fuel : Nat) (w : Bool) (v : HV) (h : Heap) (log : List Warn) :
    ∀ a, a < h.length → (e.call fuel w v h log).2.heap[a]? = h[a]? :=
  (entry_safe e fuel w v h log).1

/-- So everything that can be seen of the caller's data is the same before and after. -/
theorem C11_input_same (e : Entry) (fuel : Nat) (w : Bool) (v : HV) (h : Heap) (log : List Warn)
    (x : HV) (hx : ∀ a, Reach h x a → a < h.length) (n : Nat) :
    observe n (e.call fuel w v h log).2.heap x = observe n h x := by
  have hu := C11_unchanged e fuel w v h log
  induction n generalizing x with
  | zero => rfl
  | succ n ih =>
    match x with
    | .imm _ => rfl
    | .ref a =>
      rw [observe, observe, hu a (hx a (.here a))]
      cases ho : h[a]? with
      | none => rfl
      | some o =>
        simp only
        congr 1
        refine List.map_congr_left fun e he => ?_
        rw [ih e.2 fun b hb => hx b (.step ho he hb)]

/-- Nothing reachable from the returned object existed before the call. -/
theorem C11_fresh (e : Entry) (fuel : Nat) (w : Bool) (v : HV) (h : Heap) (log : List Warn)
    (r : HV) (hr : (e.call fuel w v h log).1 = .ok r) (a : Nat)
    (ha : Reach (e.call fuel w v h log).2.heap r a) : h.length ≤ a := by
  obtain ⟨_, _, h3, h4⟩ := entry_safe e fuel w v h log
  exact (reach_fresh h3 (h4 r hr) ha).1

/-- Later changes to any objects other than those created by the call — in particular any change the
caller makes to the dict passed in, or to anything inside it — cannot be seen through the returned
object. -/
theorem C11_isolated (e : Entry) (fuel : Nat) (w : Bool) (v : HV) (h : Heap) (log : List Warn)
    (r : HV) (hr : (e.call fuel w v h log).1 = .ok r) (later : Heap)
    (hl : ∀ a, h.length ≤ a → a < (e.call fuel w v h log).2.heap.length →
      later[a]? = (e.call fuel w v h log).2.heap[a]?) (n : Nat) :
    observe n later r = observe n (e.call fuel w v h log).2.heap r := by
  obtain ⟨_, _, h3, h4⟩ := entry_safe e fuel w v h log
  exact observe_fresh h3 hl n (h4 r hr)

/-- The value model agrees: on a JSON value `u` (sub-objects may be shared) that fits the recursion
limit, `parse_node` on the heap raises what `parseNode u` raises, or returns a newly created instance
equal to what `parseNode u` returns; it logs the same warnings. -/
theorem C11_agrees_node (fuel : Nat) (w : Bool) (u : Val) (x : HV) (h : Heap) (log : List Warn)
    (hj : Json anywhere h u x) (hf : depth u ≤ fuel) :
    (Entry.parseNode.call fuel w x h log).2.log = log ++ (parseNode w u).log ∧
    match (parseNode w u).out with
    | .ok n => ∃ r, (Entry.parseNode.call fuel w x h log).1 = .ok r ∧
        IsNode (fun a => h.length ≤ a) (Entry.parseNode.call fuel w x h log).2.heap n r
    | .error e => (Entry.parseNode.call fuel w x h log).1 = .error (.py e) := by
  obtain ⟨s', h1, _, _, h4⟩ := parseNode_sim (s := ⟨h, log⟩) fuel w hj hf
  show (parseNodeH fuel w x ⟨h, log⟩).2.log = _ ∧ _
  cases hr : (parseNode w u).out with
  | ok n =>
    rw [hr] at h4
    obtain ⟨r, h5, h6⟩ := h4
    refine ⟨by rw [h5]; exact h1, r, ?_, ?_⟩
    · show (parseNodeH fuel w x ⟨h, log⟩).1 = _
      rw [h5]
    · show IsNode _ (parseNodeH fuel w x ⟨h, log⟩).2.heap _ _
      rw [h5]; exact h6
  | error e =>
    rw [hr] at h4
    simp only at h4
    refine ⟨by rw [h4]; exact h1, ?_⟩
    show (parseNodeH fuel w x ⟨h, log⟩).1 = _
    rw [h4]

/-- The same for `NodeXxx.from_dict`. -/
theorem C11_agrees_class (c : NodeCls) (fuel : Nat) (w : Bool) (u : Val) (x : HV) (h : Heap)
    (log : List Warn) (hj : Json anywhere h u x) (hf : depth u ≤ fuel) :
    ((Entry.node c).call fuel w x h log).2.log = log ++ (c.fromDict w u).log ∧
    match (c.fromDict w u).out with
    | .ok n => ∃ r, ((Entry.node c).call fuel w x h log).1 = .ok r ∧
        IsNode (fun a => h.length ≤ a) ((Entry.node c).call fuel w x h log).2.heap n r
    | .error e => ((Entry.node c).call fuel w x h log).1 = .error (.py e) := by
  obtain ⟨s', h1, _, _, h4⟩ := node_sim (s := ⟨h, log⟩) fuel w (parseNodeH fuel w) c hj hf
    fun u y t hu hs => parseNode_sim fuel w hu (by omega)
  show (nodeFromDictH fuel w (parseNodeH fuel w) c x ⟨h, log⟩).2.log = _ ∧ _
  cases hr : (c.fromDict w u).out with
  | ok n =>
    rw [hr] at h4
    obtain ⟨r, h5, h6⟩ := h4
    refine ⟨by rw [h5]; exact h1, r, ?_, ?_⟩
    · show (nodeFromDictH fuel w (parseNodeH fuel w) c x ⟨h, log⟩).1 = _
      rw [h5]
    · show IsNode _ (nodeFromDictH fuel w (parseNodeH fuel w) c x ⟨h, log⟩).2.heap _ _
      rw [h5]; exact h6
  | error e =>
    rw [hr] at h4
    simp only at h4
    refine ⟨by rw [h4]; exact h1, ?_⟩
    show (nodeFromDictH fuel w (parseNodeH fuel w) c x ⟨h, log⟩).1 = _
    rw [h4]

theorem mark_agrees {m : HM HV} {h : Heap} {log : List Warn} {o : Except PyErr Mark} :
    Sim (IsMark fun a => h.length ≤ a) m ⟨h, log⟩ (Res.ofExcept o) →
    (m ⟨h, log⟩).2.log = log ∧
    match o with
    | .ok k => ∃ r, (m ⟨h, log⟩).1 = .ok r ∧ IsMark (fun a => h.length ≤ a) (m ⟨h, log⟩).2.heap k r
    | .error e => (m ⟨h, log⟩).1 = .error (.py e) := by
  rintro ⟨s', h1, _, _, h4⟩
  have h1' : s'.log = log := by rw [h1]; simp [Res.ofExcept]
  cases o with
  | ok k =>
    obtain ⟨r, h5, h6⟩ := h4
    exact ⟨by rw [h5]; exact h1', r, by rw [h5], by rw [h5]; exact h6⟩
  | error e =>
    have h5 : m ⟨h, log⟩ = (.error (.py e), s') := h4
    exact ⟨by rw [h5]; exact h1', by rw [h5]⟩

/-- The same for `parse_mark` and `MarkXxx.from_dict` (which log nothing). -/
theorem C11_agrees_mark (fuel : Nat) (w : Bool) (u : Val) (x : HV) (h : Heap) (log : List Warn)
    (hj : Json anywhere h u x) (hf : depth u ≤ fuel) :
    ((Entry.parseMark.call fuel w x h log).2.log = log ∧
      match parseMark u with
      | .ok k => ∃ r, (Entry.parseMark.call fuel w x h log).1 = .ok r ∧
          IsMark (fun a => h.length ≤ a) (Entry.parseMark.call fuel w x h log).2.heap k r
      | .error e => (Entry.parseMark.call fuel w x h log).1 = .error (.py e)) ∧
    ∀ c : MarkCls, ((Entry.mark c).call fuel w x h log).2.log = log ∧
      match c.fromDict u with
      | .ok k => ∃ r, ((Entry.mark c).call fuel w x h log).1 = .ok r ∧
          IsMark (fun a => h.length ≤ a) ((Entry.mark c).call fuel w x h log).2.heap k r
      | .error e => ((Entry.mark c).call fuel w x h log).1 = .error (.py e) :=
  ⟨mark_agrees (parseMark_sim (s := ⟨h, log⟩) fuel hj hf),
    fun c => mark_agrees (mark_sim (s := ⟨h, log⟩) fuel c hj hf)⟩

/-- The boundary of the guarantee: calling an attrs class's own `from_dict` copies nothing, so the
returned object shares the caller's nested objects.  Here `NodeTableCellAttrs.from_dict(d)` with
`d = {"colwidth": [100]}`: the list (address 0) is the caller's. -/
theorem C11_attrs_class_shares :
    ∃ (fs : List Field) (h : Heap) (r : HV) (s' : St), NodeCls.tableCell.attrsFields = some fs ∧
      baseFromDictH .attrs fs (.ref 1) ⟨h, []⟩ = (.ok r, s') ∧ Reach s'.heap r 0 ∧ 0 < h.length := by
  refine ⟨_, [⟨.list, [("", .imm (.int 100))]⟩, ⟨.dict, [("colwidth", .ref 0)]⟩], .ref 2, _, rfl, rfl,
    ?_, by decide⟩
  exact .step (o := ⟨.inst .attrs, [("colspan", .imm .opt), ("rowspan", .imm .opt), ("colwidth", .ref 0),
    ("background", .imm .opt), ("localId", .imm .opt)]⟩) rfl (e := ("colwidth", .ref 0)) (by simp) (.here 0)

/-! ## Non-vacuity -/

/-- `t = {"type": "text", "text": "hi"}; l = [t, t]; p = {"type": "paragraph", "content": l}`: the same
dict twice. -/
def heap0 : Heap :=
  [⟨.dict, [("type", .imm (.str "text".toList)), ("text", .imm (.str "hi".toList))]⟩,
   ⟨.list, [("", .ref 0), ("", .ref 0)]⟩,
   ⟨.dict, [("type", .imm (.str "paragraph".toList)), ("content", .ref 1)]⟩]

def text0 : Val := .dict [("type", .str "text".toList), ("text", .str "hi".toList)]

def para0 : Val := .dict [("type", .str "paragraph".toList), ("content", .list [text0, text0])]

theorem heap0_para : Json anywhere heap0 para0 (.ref 2) := by
  have h1 : Json anywhere heap0 text0 (.ref 0) :=
    ⟨0, _, rfl, trivial, rfl, _, _, rfl, ⟨_, rfl, rfl⟩, _, _, rfl, ⟨_, rfl, rfl⟩, rfl⟩
  exact ⟨2, _, rfl, trivial, rfl, _, _, rfl, ⟨_, rfl, rfl⟩, _, _, rfl,
    ⟨1, _, rfl, trivial, rfl, _, _, rfl, h1, _, _, rfl, h1, rfl⟩, rfl⟩

/-- The call succeeds on it (hypothesis of `C11_fresh`, `C11_isolated`), with a paragraph as result. -/
example : ∃ r n, (Entry.parseNode.call 1000 true (.ref 2) heap0 []).1 = .ok r ∧
    IsNode (fun a => 3 ≤ a) (Entry.parseNode.call 1000 true (.ref 2) heap0 []).2.heap n r ∧
    ∃ t1 t2, n = .mk ⟨.paragraph, .str "paragraph".toList, none, none, .opt, .opt⟩ (.val [t1, t2]) := by
  have h1 : Json anywhere heap0 text0 (.ref 0) :=
    ⟨0, _, rfl, trivial, rfl, _, _, rfl, ⟨_, rfl, rfl⟩, _, _, rfl, ⟨_, rfl, rfl⟩, rfl⟩
  have hj : Json anywhere heap0 para0 (.ref 2) := ⟨2, _, rfl, trivial, rfl, _, _, rfl, ⟨_, rfl, rfl⟩, _, _, rfl,
    ⟨1, _, rfl, trivial, rfl, _, _, rfl, h1, _, _, rfl, h1, rfl⟩, rfl⟩
  have hp : ∃ n, (parseNode true para0).out = .ok n ∧
      ∃ t1 t2, n = .mk ⟨.paragraph, .str "paragraph".toList, none, none, .opt, .opt⟩ (.val [t1, t2]) :=
    ⟨_, rfl, _, _, rfl⟩
  obtain ⟨n, hn, hshape⟩ := hp
  have := (C11_agrees_node 1000 true para0 (.ref 2) heap0 [] hj (by decide)).2
  rw [hn] at this
  obtain ⟨r, h2, h3⟩ := this
  exact ⟨r, n, h2, h3, hshape⟩

/-- Addresses reachable from the sample are those of its heap. -/
theorem heap0_closed (a : Nat) (h : Reach heap0 (.ref 2) a) : a < heap0.length := by
  have key : ∀ x : HV, Reach heap0 x a → (∀ b, x = .ref b → b < 3) → a < 3 := by
    intro x hx
    clear h
    induction hx with
    | here c => exact fun h => h c rfl
    | @step c d o e ho he hr ih =>
      intro h
      have hc := h c rfl
      refine ih fun b hb => ?_
      match c, hc with
      | 0, _ => cases ho; simp at he; rcases he with rfl | rfl <;> cases hb
      | 1, _ => cases ho; simp at he; subst he; cases hb; decide
      | 2, _ => cases ho; simp at he; rcases he with rfl | rfl <;> cases hb; decide
  exact key _ h fun b hb => by cases hb; decide

example := C11_unchanged .parseNode 1000 true (.ref 2) heap0 [] 1 (by decide)

example := C11_input_same .parseNode 1000 true (.ref 2) heap0 [] (.ref 2) heap0_closed 5

example := C11_agrees_class .paragraph 1000 true para0 (.ref 2) heap0 [] heap0_para (by decide)

example := C11_agrees_mark 1000 true (.dict [("type", .str "em".toList)]) (.ref 0)
  [⟨.dict, [("type", .imm (.str "em".toList))]⟩] [] ⟨0, _, rfl, trivial, rfl, _, _, rfl, ⟨_, rfl, rfl⟩, rfl⟩ (by decide)

end Verif.Props
