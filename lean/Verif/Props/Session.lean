import Verif.Props.HeapMd
import Verif.Lemmas.HeapBound
/-!
# C106: histories

A program that uses the library for as long as it likes: it parses, converts and serialises, in any order, on any objects, with any of the
calls failing; and in between it does whatever it wants with its own objects.
-/

namespace Verif.Props
open Verif Verif.Spec

/-- What can happen next.  `P` are the objects that the program itself leaves alone. -/
inductive Next (P : Nat → Prop) : St → St → Prop where
  /-- `parse_node`, `parse_mark` or `from_dict` of a class, on anything -/
  | parse (e : Entry) (fuel : Nat) (w : Bool) (x : HV) (s : St) : Next P s (e.call fuel w x s.heap s.log).2
  /-- `x.to_dict()` -/
  | toDict (fuel : Nat) (x : HV) (s : St) : Next P s (callToDict fuel x s.heap s.log).2
  /-- `x.to_markdown(...)` -/
  | toMarkdown (env : Env) (fuel : Nat) (x : HV) (level : Option Int) (ig : Bool) (s : St) :
      Next P s (callMarkdown env fuel x level ig s.heap s.log).2
  /-- The program creates objects, changes objects (but none of `P`), logs. -/
  | other (s s' : St) (h : ∀ a o, P a → s.heap[a]? = some o → s'.heap[a]? = some o) : Next P s s'

/-- Any number of such steps. -/
inductive History (P : Nat → Prop) : St → St → Prop where
  | done (s : St) : History P s s
  | step {s s' s'' : St} (h : Next P s s') (hs : History P s' s'') : History P s s''

theorem next_keeps {P : Nat → Prop} {s s' : St} (h : Next P s s') (a : Nat) (o : HObj) (ha : P a) (ho : s.heap[a]? = some o) :
    s'.heap[a]? = some o := by
  cases h with
  | parse e fuel w x => rw [C11_unchanged e fuel w x s.heap s.log a (HeapMd.get_lt ho)]; exact ho
  | toDict fuel x => rw [(C49_unchanged fuel x s.heap s.log).1 a (HeapMd.get_lt ho)]; exact ho
  | toMarkdown env fuel x level ig => rw [(C105_unchanged env fuel x level ig s.heap s.log).1 a (HeapMd.get_lt ho)]; exact ho
  | other _ _ h => exact h a o ha ho

/-- An object that the program leaves alone stays as it is through any history. -/
theorem C106_keeps {P : Nat → Prop} {s s' : St} (h : History P s s') (a : Nat) (o : HObj) (ha : P a) (ho : s.heap[a]? = some o) :
    s'.heap[a]? = some o := by
  induction h with
  | done _ => exact ho
  | step hn _ ih => exact ih (next_keeps hn a o ha ho)

/-- A node whose objects the program leaves alone is the same node after any history: it converts to the same Markdown and serialises to the
same dict. -/
theorem C106_node {P : Nat → Prop} {s s' : St} (n : Node) (x : HV) (hx : IsNode P s.heap n x) (h : History P s s') :
    IsNode P s'.heap n x ∧
    (∀ (env : Env) (fuel : Nat) (level : Option Int) (ig : Bool), depthNode n ≤ fuel →
      match n.toMarkdownAt env level ig with
      | .ok v => ∃ r, (callMarkdown env fuel x level ig s'.heap s'.log).1 = .ok r ∧ Json anywhere s'.heap v r
      | .error e => (callMarkdown env fuel x level ig s'.heap s'.log).1 = .error (.py e)) ∧
    ∀ fuel : Nat, depthNode n ≤ fuel →
      match n.toDict with
      | .ok v => ∃ r, (callToDict fuel x s'.heap s'.log).1 = .ok r ∧
          Json (fun a => s'.heap.length ≤ a) (callToDict fuel x s'.heap s'.log).2.heap v r
      | .error e => (callToDict fuel x s'.heap s'.log).1 = .error (.py e) := by
  have h1 : IsNode P s'.heap n x := isNode_mono (fun a o ha ho => C106_keeps h a o ha ho) (fun _ h => h) n x hx
  have h2 : IsNode anywhere s'.heap n x := isNode_mono (fun _ _ _ h => h) (fun _ _ => trivial) n x h1
  exact ⟨h1, fun env fuel level ig hf => C105_agrees env fuel n x level ig s'.heap s'.log h2 hf,
    fun fuel hf => C49_agrees_node fuel n x s'.heap s'.log h2 hf⟩

/-- A parsed document: the program may do what it likes with the dict it passed to `parse_node`, with everything it had before and with
everything made later, and use the library as it likes: as long as it does not itself write to the objects that this call created, the node
still converts and serialises to what the value model says of the JSON value that was passed. -/
theorem C106_parsed (fuel : Nat) (w : Bool) (u : Val) (x : HV) (s s' : St) (hj : Json anywhere s.heap u x) (hf : depth u ≤ fuel)
    (n : Node) (hn : (parseNode w u).out = .ok n)
    (h : History (fun a => s.heap.length ≤ a ∧ a < (Entry.parseNode.call fuel w x s.heap s.log).2.heap.length)
      (Entry.parseNode.call fuel w x s.heap s.log).2 s') :
    ∃ r, (Entry.parseNode.call fuel w x s.heap s.log).1 = .ok r ∧ IsNode anywhere s'.heap n r ∧
    (∀ (env : Env) (fuel : Nat) (level : Option Int) (ig : Bool), depthNode n ≤ fuel →
      match n.toMarkdownAt env level ig with
      | .ok v => ∃ r', (callMarkdown env fuel r level ig s'.heap s'.log).1 = .ok r' ∧ Json anywhere s'.heap v r'
      | .error e => (callMarkdown env fuel r level ig s'.heap s'.log).1 = .error (.py e)) ∧
    ∀ fuel : Nat, depthNode n ≤ fuel →
      match n.toDict with
      | .ok v => ∃ r', (callToDict fuel r s'.heap s'.log).1 = .ok r' ∧
          Json (fun a => s'.heap.length ≤ a) (callToDict fuel r s'.heap s'.log).2.heap v r'
      | .error e => (callToDict fuel r s'.heap s'.log).1 = .error (.py e) := by
  have h1 := (C11_agrees_node fuel w u x s.heap s.log hj hf).2
  rw [hn] at h1
  obtain ⟨r, h2, h3⟩ := h1
  have h4 : IsNode (fun a => s.heap.length ≤ a ∧ a < (Entry.parseNode.call fuel w x s.heap s.log).2.heap.length)
      (Entry.parseNode.call fuel w x s.heap s.log).2.heap n r :=
    isNode_bound (fun _ _ h1 h2 => ⟨h1, HeapMd.get_lt h2⟩) n r h3
  obtain ⟨h5, h6, h7⟩ := C106_node n r h4 h
  exact ⟨r, h2, isNode_mono (fun _ _ _ h => h) (fun _ _ => trivial) n r h5, h6, h7⟩

/-- A history of calls alone: nothing that existed changes, so the dicts passed in are what they were. -/
theorem C106_calls_only (s s' : St) (h : History anywhere s s') (a : Nat) (ha : a < s.heap.length) : s'.heap[a]? = s.heap[a]? := by
  rw [List.getElem?_eq_getElem ha]
  exact C106_keeps h a _ trivial (List.getElem?_eq_getElem ha)

/-- Parsing has no memory: in any two states, whatever led there, parsing equal JSON values (wherever they lie) has the same outcome, with
equal nodes and the same warnings. -/
theorem C106_parse_again (fuel : Nat) (w : Bool) (u : Val) (s1 s2 : St) (x y : HV) (hx : Json anywhere s1.heap u x) (hy : Json anywhere s2.heap u y) (hf : depth u ≤ fuel) :
    (∃ ws, (Entry.parseNode.call fuel w x s1.heap s1.log).2.log = s1.log ++ ws ∧
      (Entry.parseNode.call fuel w y s2.heap s2.log).2.log = s2.log ++ ws) ∧
    ((∃ n r1 r2, (Entry.parseNode.call fuel w x s1.heap s1.log).1 = .ok r1 ∧ (Entry.parseNode.call fuel w y s2.heap s2.log).1 = .ok r2 ∧
        IsNode anywhere (Entry.parseNode.call fuel w x s1.heap s1.log).2.heap n r1 ∧
        IsNode anywhere (Entry.parseNode.call fuel w y s2.heap s2.log).2.heap n r2) ∨
      ∃ e, (Entry.parseNode.call fuel w x s1.heap s1.log).1 = .error (.py e) ∧
        (Entry.parseNode.call fuel w y s2.heap s2.log).1 = .error (.py e)) := by
  obtain ⟨l1, o1⟩ := C11_agrees_node fuel w u x s1.heap s1.log hx hf
  obtain ⟨l2, o2⟩ := C11_agrees_node fuel w u y s2.heap s2.log hy hf
  refine ⟨⟨_, l1, l2⟩, ?_⟩
  cases hn : (parseNode w u).out with
  | ok n =>
    rw [hn] at o1 o2
    obtain ⟨r1, h3, h4⟩ := o1
    obtain ⟨r2, h5, h6⟩ := o2
    exact .inl ⟨n, r1, r2, h3, h5, isNode_mono (fun _ _ _ h => h) (fun _ _ => trivial) n r1 h4,
      isNode_mono (fun _ _ _ h => h) (fun _ _ => trivial) n r2 h6⟩
  | error e =>
    rw [hn] at o1 o2
    exact .inr ⟨e, o1, o2⟩

/-! ## Non-vacuity: parse the paragraph of `Props/Heap.lean`, empty the dicts it was made from, call other things, convert -/

/-- The program's own three objects are emptied; everything else stays. -/
def emptied (s : St) : St := { s with heap := ⟨.list, []⟩ :: ⟨.list, []⟩ :: ⟨.dict, []⟩ :: s.heap.drop 3 }

theorem emptied_get (s : St) (h : 3 ≤ s.heap.length) (a : Nat) (ha : 3 ≤ a) : (emptied s).heap[a]? = s.heap[a]? := by
  obtain ⟨b, rfl⟩ : ∃ b, a = b + 3 := ⟨a - 3, by omega⟩
  show (s.heap.drop 3)[b]? = _
  rw [List.getElem?_drop, Nat.add_comm]

example (env : Env) : ∃ (r : HV) (s : St), (Entry.parseNode.call 1000 true (.ref 2) heap0 []).1 = .ok r ∧ s.heap[2]? = some ⟨.dict, []⟩ ∧
    (callMarkdown env 1000 r none false s.heap s.log).1 = .ok (.imm (.str "hihi\n".toList)) := by
  obtain ⟨n, hn, hd, hm⟩ := para0_md
  let s0 := (Entry.parseNode.call 1000 true (.ref 2) heap0 []).2
  let s1 := emptied s0
  let s2 := ((Entry.node .table).call 7 false (.ref 2) s1.heap s1.log).2
  let s3 := (callToDict 1000 (.ref 5) s2.heap s2.log).2
  let s4 := (callMarkdown env 3 (.ref 4) (some 2) true s3.heap s3.log).2
  have hlen : 3 ≤ s0.heap.length := (entry_safe .parseNode 1000 true (.ref 2) heap0 []).2.1
  have hist : History (fun a => heap0.length ≤ a ∧ a < s0.heap.length) s0 s4 :=
    .step (.other s0 s1 fun a o ha ho => (emptied_get s0 hlen a ha.1).trans ho)
      (.step (.parse (.node .table) 7 false (.ref 2) s1) (.step (.toDict 1000 (.ref 5) s2)
        (.step (.toMarkdown env 3 (.ref 4) (some 2) true s3) (.done s4))))
  obtain ⟨r, h1, h2, h3, _⟩ := C106_parsed 1000 true para0 (.ref 2) ⟨heap0, []⟩ s4 heap0_para (by decide) n hn hist
  have h4 := h3 env 1000 none false hd
  rw [hm env] at h4
  obtain ⟨r', h5, i, rfl, hi⟩ := h4
  cases i <;> cases hi
  refine ⟨r, s4, h1, ?_, h5⟩
  have hl1 : 2 < s1.heap.length := by show 2 < (emptied s0).heap.length; simp [emptied]
  have e2 : s2.heap[2]? = some ⟨.dict, []⟩ := C11_unchanged (.node .table) 7 false (.ref 2) s1.heap s1.log 2 hl1
  have e3 : s3.heap[2]? = some ⟨.dict, []⟩ := ((C49_unchanged 1000 (.ref 5) s2.heap s2.log).1 2 (HeapMd.get_lt e2)).trans e2
  exact ((C105_unchanged env 3 (.ref 4) (some 2) true s3.heap s3.log).1 2 (HeapMd.get_lt e3)).trans e3

example := C106_parse_again 1000 true para0 ⟨heap0, []⟩ ⟨heap0 ++ [⟨.list, [("", .ref 2)]⟩], []⟩ (.ref 2) (.ref 2) heap0_para
  (json_mono (fun a _ _ ho => (List.getElem?_append_left (HeapMd.get_lt ho)).trans ho) (fun _ h => h) para0 (.ref 2) heap0_para) (by decide)

example := C106_calls_only ⟨heap0, []⟩ _ (.step (.toDict 9 (.ref 1) _) (.step (.parse .parseNode 9 true (.ref 2) _) (.done _))) 2 (by decide)

end Verif.Props
