import Verif.Props.HeapOut
import Verif.Lemmas.CycleParse
import Verif.Lemmas.CycleMdOnly
import Verif.Lemmas.CycleData
import Verif.Props.Heap
import Verif.Props.HeapMd
/-!
# C111: objects that contain themselves

JSON text cannot contain itself, but Python objects can: a node appended to its own `content`, or a dict put into its own list.
`fuel` is Python's recursion limit, `h` the heap at the time of the call, with any sharing.
-/

namespace Verif.Props
open Verif Verif.Spec

/-- `to_dict` of a node, mark or attrs instance from which an object can be reached that contains itself: RecursionError, whatever the
recursion limit. -/
theorem C111_to_dict_cycle (fuel : Nat) (a : Nat) (t : Tag) (items : List (String × HV)) (h : Heap) (log : List Warn)
    (hi : h[a]? = some ⟨.inst t, items⟩) (hx : NoDangling h (.ref a)) (hc : HasCycle h (.ref a)) :
    (callToDict fuel (.ref a) h log).1 = .error .recursion := by
  have i0 : Intact h ⟨h, log⟩ := ⟨fun _ _ h => h, fun a o ha ho => absurd (lt_of_get ho) (by show ¬ a < h.length; exact Nat.not_lt.mpr ha)⟩
  unfold callToDict
  cases fuel with
  | zero => rw [toDictH]; rfl
  | succ fuel =>
    rcases asdict_cyc h (fuel + 1) (.ref a) ⟨h, log⟩ hx i0 with ⟨_, _, _, _, hn⟩ | ⟨s', hr⟩
    · exact absurd hc hn
    · rw [toDictH, read_bind (s := ⟨h, log⟩) hi]
      cases t with
      | node c => simp only; rw [bind_run, hr]
      | mark c => simp only [baseToDictH]; rw [bind_run, hr]
      | attrs => simp only [baseToDictH]; rw [bind_run, hr]

/-- Only then: with a recursion limit no smaller than the number of objects, `to_dict` raises RecursionError exactly when an object can be
reached that contains itself.  Sharing objects (one mark in two texts, one node in two lists) is no reason. -/
theorem C111_to_dict (fuel : Nat) (a : Nat) (t : Tag) (items : List (String × HV)) (h : Heap) (log : List Warn)
    (hi : h[a]? = some ⟨.inst t, items⟩) (hx : NoDangling h (.ref a)) (hf : h.length ≤ fuel) :
    (callToDict fuel (.ref a) h log).1 = .error .recursion ↔ HasCycle h (.ref a) := by
  refine ⟨fun hr => ?_, C111_to_dict_cycle fuel a t items h log hi hx⟩
  by_contra hn
  have i0 : Intact h ⟨h, log⟩ := ⟨fun _ _ h => h, fun a o ha ho => absurd (lt_of_get ho) (by show ¬ a < h.length; exact Nat.not_lt.mpr ha)⟩
  exact toDict_norec fuel (.ref a) ⟨h, log⟩ (fin_mono hf (fin_length hx hn)) i0 hr

/-- Parsing a node that is its own descendant, or has such a descendant, never returns a node, whatever the recursion limit and the setting
of the warnings; nor is the exception one that the parsing of a surrounding node would skip. -/
theorem C111_parse (fuel : Nat) (w : Bool) (x : HV) (h : Heap) (log : List Warn) (hx : NoDangling h x) (hc : HasNodeCycle h x) :
    ∃ e, (parseNodeH fuel w x ⟨h, log⟩).1 = .error e ∧ ∀ t c, e ≠ .py (.unimplementedType t c) :=
  parse_stuck fuel w x ⟨h, log⟩ (loop_of_cycle hc) hx

/-- The same for `NodeXxx.from_dict`, whatever the class. -/
theorem C111_from_dict (fuel : Nat) (w : Bool) (c : NodeCls) (x : HV) (h : Heap) (log : List Warn) (hx : NoDangling h x) (hc : HasNodeCycle h x) :
    ∃ e, (c.fromDictH fuel w x ⟨h, log⟩).1 = .error e ∧ ∀ t c, e ≠ .py (.unimplementedType t c) :=
  nodeFromDict_stuck fuel w (fun N L v => safe_parseNode N L fuel w v) (fun v s => parse_stuck fuel w v s) c
    (s := ⟨h, log⟩) (loop_of_cycle hc) hx

/-- Lists and dicts, however shared, are a JSON value exactly when none of them contains itself; and then it is nested no deeper than there are
objects.  So what is proved of JSON values is true of them. -/
theorem C111_data (h : Heap) (x : HV) (hx : NoDangling h x) (hd : ListsAndDicts h x) :
    (∃ v, Json anywhere h v x ∧ depth v ≤ h.length + 1) ↔ ¬ HasCycle h x :=
  ⟨fun ⟨_, hj, _⟩ => acyclic_of_json hj, json_data hx hd⟩

/-- What parsing a JSON value gives: a tree, or an exception that is no RecursionError. -/
theorem parsed_tree (e : Entry) (fuel : Nat) (w : Bool) (u : Val) (x : HV) (h : Heap) (log : List Warn) (hj : Json anywhere h u x)
    (df : depth u ≤ fuel) : match (e.call fuel w x h log).1 with
      | .ok r => ∃ n, Fin n (e.call fuel w x h log).2.heap r
      | .error er => er ≠ .recursion := by
  have node : ∀ {P : Nat → Prop} {H : Heap} {n : Node} {r : HV}, IsNode P H n r → ∃ k, Fin k H r := fun hn =>
    ⟨_, fin_node _ (isNode_mono (fun _ _ _ h => h) (fun _ _ => trivial) _ _ hn) (Nat.le_refl _)⟩
  have mark : ∀ {P : Nat → Prop} {H : Heap} {m : Mark} {r : HV}, IsMark P H m r → ∃ k, Fin k H r := fun hn =>
    ⟨_, fin_mark (isMark_mono (fun _ _ _ h => h) (fun _ _ => trivial) hn) (Nat.le_refl _)⟩
  cases e with
  | parseNode =>
    have := (C11_agrees_node fuel w u x h log hj df).2
    cases ho : (parseNode w u).out <;> simp only [ho] at this
    · rw [this]; exact nofun
    · obtain ⟨_, h1, h2⟩ := this; rw [h1]; exact node h2
  | node c =>
    have := (C11_agrees_class c fuel w u x h log hj df).2
    cases ho : (c.fromDict w u).out <;> simp only [ho] at this
    · rw [this]; exact nofun
    · obtain ⟨_, h1, h2⟩ := this; rw [h1]; exact node h2
  | parseMark =>
    have := (C11_agrees_mark fuel w u x h log hj df).1.2
    cases ho : parseMark u <;> simp only [ho] at this
    · rw [this]; exact nofun
    · obtain ⟨_, h1, h2⟩ := this; rw [h1]; exact mark h2
  | mark c =>
    have := ((C11_agrees_mark fuel w u x h log hj df).2 c).2
    cases ho : c.fromDict u <;> simp only [ho] at this
    · rw [this]; exact nofun
    · obtain ⟨_, h1, h2⟩ := this; rw [h1]; exact mark h2

/-- In particular sharing is no reason for a RecursionError: with a recursion limit larger than the number of objects, parsing raises none. -/
theorem C111_parse_shared (e : Entry) (fuel : Nat) (w : Bool) (x : HV) (h : Heap) (log : List Warn) (hx : NoDangling h x)
    (hd : ListsAndDicts h x) (hc : ¬ HasCycle h x) (hf : h.length < fuel) : (e.call fuel w x h log).1 ≠ .error .recursion := by
  obtain ⟨u, hj, du⟩ := (C111_data h x hx hd).mpr hc
  have ht := parsed_tree e fuel w u x h log hj (Nat.le_trans du hf)
  intro hr
  rw [hr] at ht
  exact ht rfl

/-- And the node, mark or attrs object that is returned does not contain itself, nor does anything in it: it can be serialised and converted. -/
theorem C111_parsed (e : Entry) (fuel : Nat) (w : Bool) (x : HV) (h : Heap) (log : List Warn) (hx : NoDangling h x)
    (hd : ListsAndDicts h x) (hc : ¬ HasCycle h x) (hf : h.length < fuel) (r : HV) (hr : (e.call fuel w x h log).1 = .ok r) :
    NoDangling (e.call fuel w x h log).2.heap r ∧ ¬ HasCycle (e.call fuel w x h log).2.heap r := by
  obtain ⟨u, hj, du⟩ := (C111_data h x hx hd).mpr hc
  have ht := parsed_tree e fuel w u x h log hj (Nat.le_trans du hf)
  rw [hr] at ht
  obtain ⟨n, hn⟩ := ht
  refine ⟨fun a ha => ?_, acyclic_fin hn⟩
  obtain ⟨m, hm⟩ := fin_reach hn ha
  match m, hm with
  | m + 1, ⟨o, ho, _⟩ => exact lt_of_get ho

/-- `to_markdown` (with `ignore_error=False`) of a node that would have to convert itself, or convert a node that would, never returns a text,
whatever the recursion limit, the `level` and the other nodes. -/
theorem C111_to_markdown (env : Env) (fuel : Nat) (x : HV) (level : Option Int) (h : Heap) (log : List Warn) (hc : ConvertsItself h x) :
    ∃ e, (callMarkdown env fuel x level false h log).1 = .error e :=
  HeapMd.markdown_fails env fuel x level ⟨h, log⟩ (HeapMd.mdLoop_of hc) (fun _ _ h => h)

/-- Sharing is no reason here either: if nothing that can be reached from the node contains itself, a recursion limit larger than the number of
objects is never hit, with any `level` and `ignore_error`. -/
theorem C111_to_markdown_shared (env : Env) (fuel : Nat) (x : HV) (level : Option Int) (ig : Bool) (h : Heap) (log : List Warn)
    (hx : NoDangling h x) (hc : ¬ HasCycle h x) (hf : h.length < fuel) : (callMarkdown env fuel x level ig h log).1 ≠ .error .recursion := by
  obtain ⟨n, rfl⟩ : ∃ n, fuel = n + 1 := ⟨fuel - 1, by omega⟩
  obtain ⟨_, h2⟩ := HeapMd.small_markdown (S := h) env n x level ig (fin_mono (by omega) (fin_length hx hc)) ⟨h, log⟩ (fun _ _ h => h)
  intro hr
  unfold callMarkdown at hr
  rw [hr] at h2
  exact h2 rfl

/-! ## The hypotheses are met -/

/-- A blockquote instance whose content list (1) holds a paragraph instance (2) whose content list (3) holds the blockquote. -/
def cycleHeap : Heap :=
  [⟨.inst (.node .blockquote), [("type", .imm (.str "blockquote".toList)), ("content", .ref 1)]⟩,
   ⟨.list, [("", .ref 2)]⟩,
   ⟨.inst (.node .paragraph), [("type", .imm (.str "paragraph".toList)), ("attrs", .imm .opt), ("content", .ref 3), ("marks", .imm .opt)]⟩,
   ⟨.list, [("", .ref 0)]⟩]

theorem exists_of_closed {h : Heap} (hc : ∀ o ∈ h, ∀ e ∈ o.items, ∀ a, e.2 = .ref a → a < h.length) {x : HV}
    (hx : ∀ a, x = .ref a → a < h.length) : NoDangling h x := by
  intro b hb
  induction hb with
  | here a => exact hx a rfl
  | step ho he _ ih => exact ih (hc _ (List.mem_of_getElem? ho) _ he)

theorem cycleHeap_exists : NoDangling cycleHeap (.ref 0) := by
  refine exists_of_closed ?_ (by intro a h; cases h; decide)
  intro o ho e he a ha
  simp only [cycleHeap, List.mem_cons, List.not_mem_nil, or_false] at ho
  rcases ho with rfl | rfl | rfl | rfl <;> simp only [List.mem_cons, List.not_mem_nil, or_false] at he
  · rcases he with rfl | rfl <;> cases ha; decide
  · subst he; cases ha; decide
  · rcases he with rfl | rfl | rfl | rfl <;> cases ha; decide
  · subst he; cases ha; decide

/-- It cannot be converted. -/
example : (callToDict 1000 (.ref 0) cycleHeap []).1 = .error .recursion := by
  refine C111_to_dict_cycle 1000 0 (.node .blockquote) _ cycleHeap [] rfl cycleHeap_exists ⟨0, .here 0, ?_⟩
  refine .deeper (k := "content") (c := 1) rfl (.tail _ (.head _)) ?_
  refine .deeper (k := "") (c := 2) rfl (.head _) ?_
  refine .deeper (k := "content") (c := 3) rfl (.tail _ (.tail _ (.head _))) ?_
  exact .item (k := "") rfl (.head _)

/-- Nor can its markdown be written. -/
example (env : Env) : ∃ e, (callMarkdown env 1000 (.ref 0) none false cycleHeap []).1 = .error e := by
  have ab : Converts cycleHeap 2 0 := .each (c := .blockquote) (type := "blockquote") (by decide) ⟨_, _, 1, "", rfl, rfl, rfl, rfl, .head _⟩
  have ba : Converts cycleHeap 0 2 := .each (c := .paragraph) (type := "paragraph") (by decide) ⟨_, _, 3, "", rfl, rfl, rfl, rfl, .head _⟩
  exact C111_to_markdown env 1000 (.ref 0) none cycleHeap [] ⟨0, 0, rfl, .inl rfl, .deeper ab (.one ba)⟩

/-- A paragraph whose two children are the same text. -/
def sharedHeap : Heap :=
  [⟨.inst (.node .paragraph), [("type", .imm (.str "paragraph".toList)), ("attrs", .imm .opt), ("content", .ref 1), ("marks", .imm .opt)]⟩,
   ⟨.list, [("", .ref 2), ("", .ref 2)]⟩,
   ⟨.inst (.node .text), [("type", .imm (.str "text".toList)), ("text", .imm (.str "a".toList)), ("marks", .imm .opt)]⟩]

theorem sharedHeap_exists : NoDangling sharedHeap (.ref 0) := by
  refine exists_of_closed ?_ (by intro a h; cases h; decide)
  intro o ho e he a ha
  simp only [sharedHeap, List.mem_cons, List.not_mem_nil, or_false] at ho
  rcases ho with rfl | rfl | rfl <;> simp only [List.mem_cons, List.not_mem_nil, or_false] at he
  · rcases he with rfl | rfl | rfl | rfl <;> cases ha; decide
  · rcases he with rfl | rfl <;> cases ha <;> decide
  · rcases he with rfl | rfl | rfl <;> cases ha

theorem sharedHeap_acyclic : ¬ HasCycle sharedHeap (.ref 0) := by
  -- references go to higher addresses only
  have up : ∀ (a : Nat) (o : HObj) (k : String) (b : Nat), sharedHeap[a]? = some o → (k, HV.ref b) ∈ o.items → a < b := by
    intro a o k b ho he
    match a with
    | 0 => cases ho; simp only [List.mem_cons, Prod.mk.injEq, HV.ref.injEq, reduceCtorEq, and_false, List.not_mem_nil, or_false, false_or] at he; omega
    | 1 => cases ho; simp only [List.mem_cons, Prod.mk.injEq, HV.ref.injEq, reduceCtorEq, and_false, List.not_mem_nil, or_false, false_or] at he; omega
    | 2 => cases ho; simp only [List.mem_cons, Prod.mk.injEq, HV.ref.injEq, reduceCtorEq, and_false, List.not_mem_nil, or_false, false_or] at he
    | _ + 3 => cases ho
  have lt : ∀ a b, Inside sharedHeap b a → a < b := by
    intro a b h
    induction h with
    | item ho he => exact up _ _ _ _ ho he
    | deeper ho he _ ih => exact Nat.lt_trans (up _ _ _ _ ho he) ih
  rintro ⟨a, _, hi⟩
  exact absurd (lt a a hi) (Nat.lt_irrefl _)

/-- It is converted (the recursion limit is no reason not to). -/
example : (callToDict 1000 (.ref 0) sharedHeap []).1 ≠ .error .recursion := fun h =>
  sharedHeap_acyclic ((C111_to_dict 1000 0 (.node .paragraph) _ sharedHeap [] rfl sharedHeap_exists (by decide)).mp h)

example (env : Env) : (callMarkdown env 1000 (.ref 0) none true sharedHeap []).1 ≠ .error .recursion :=
  C111_to_markdown_shared env 1000 (.ref 0) none true sharedHeap [] sharedHeap_exists sharedHeap_acyclic (by decide)

/-- A blockquote dict whose content list holds a text dict and the blockquote dict itself. -/
def cycleDict : Heap :=
  [⟨.dict, [("type", .imm (.str "blockquote".toList)), ("content", .ref 1)]⟩,
   ⟨.list, [("", .ref 2), ("", .ref 0)]⟩,
   ⟨.dict, [("type", .imm (.str "text".toList)), ("text", .imm (.str "a".toList))]⟩]

example : ∃ e, (parseNodeH 1000 true (.ref 0) ⟨cycleDict, []⟩).1 = .error e ∧ ∀ t c, e ≠ .py (.unimplementedType t c) := by
  refine C111_parse 1000 true (.ref 0) cycleDict [] (exists_of_closed ?_ (by intro a h; cases h; decide)) ⟨0, 0, rfl, .inl rfl, .child ?_⟩
  · intro o ho e he a ha
    simp only [cycleDict, List.mem_cons, List.not_mem_nil, or_false] at ho
    rcases ho with rfl | rfl | rfl <;> simp only [List.mem_cons, List.not_mem_nil, or_false] at he
    · rcases he with rfl | rfl <;> cases ha; decide
    · rcases he with rfl | rfl <;> cases ha <;> decide
    · rcases he with rfl | rfl <;> cases ha
  · exact ⟨_, _, "blockquote", .blockquote, 1, "", rfl, rfl, by decide, rfl, rfl, .tail _ (.head _)⟩

theorem heap0_data : ListsAndDicts heap0 (.ref 2) := fun a o _ ho => by
  have := List.mem_of_getElem? ho
  simp only [heap0, List.mem_cons, List.not_mem_nil, or_false] at this
  rcases this with rfl | rfl | rfl
  · exact .inr rfl
  · exact .inl rfl
  · exact .inr rfl

/-- The paragraph with the same text dict twice (`heap0`) is parsed, the node does not contain itself, and its markdown can be written. -/
example (env : Env) : ∃ r s', Entry.parseNode.call 1000 true (.ref 2) heap0 [] = (.ok r, s') ∧ ¬ HasCycle s'.heap r ∧
    ∀ fuel, s'.heap.length < fuel → (callMarkdown env fuel r none false s'.heap s'.log).1 ≠ .error .recursion := by
  have hp : ∃ n, (parseNode true para0).out = .ok n := ⟨_, rfl⟩
  obtain ⟨n, hn⟩ := hp
  have := (C11_agrees_node 1000 true para0 (.ref 2) heap0 [] heap0_para (by decide)).2
  rw [hn] at this
  obtain ⟨r, h2, _⟩ := this
  obtain ⟨h3, h4⟩ := C111_parsed .parseNode 1000 true (.ref 2) heap0 [] heap0_closed heap0_data (acyclic_of_json heap0_para) (by decide) r h2
  exact ⟨r, _, Prod.ext h2 rfl, h4, fun fuel hf => C111_to_markdown_shared env fuel r none false _ _ h3 h4 hf⟩

end Verif.Props
