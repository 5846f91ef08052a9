import Verif.Props.HeapOut
import Verif.Lemmas.Threads
/-!
# C105: converting changes nothing

The programs of `Model/HeapMd.lean` run on a heap `h` that holds the node and anything else, with arbitrary sharing and even cycles;
`fuel` is Python's recursion limit.
-/

namespace Verif.Props
open Verif Verif.Spec

/-- `x.to_markdown(level=level, ignore_error=ig)`, from heap `h` and log `log`. -/
def callMarkdown (env : Env) (fuel : Nat) (x : HV) (level : Option Int) (ig : Bool) (h : Heap) (log : List Warn) : Except HErr HV × St :=
  (HeapMd.markdownH env fuel x level ig).run ⟨h, log⟩

/-- Whatever the call does — return, raise, swallow errors of children, or hit the recursion limit half-way — every object that existed
before it is exactly as it was, and nothing is logged. -/
theorem C105_unchanged (env : Env) (fuel : Nat) (x : HV) (level : Option Int) (ig : Bool) (h : Heap) (log : List Warn) :
    (∀ a, a < h.length → (callMarkdown env fuel x level ig h log).2.heap[a]? = h[a]?) ∧
      (callMarkdown env fuel x level ig h log).2.log = log := by
  obtain ⟨_, h2, h3⟩ := Prog.writes_run (HeapMd.keep_markdown (loud := False) env fuel x level ig (fun _ => False) fun _ h => h) ⟨h, log⟩
  exact ⟨fun a ha => h3 a ha id, h2 id⟩

/-- So what can be seen of the node, or of anything else that existed, is the same before and after. -/
theorem C105_object_same (env : Env) (fuel : Nat) (x : HV) (level : Option Int) (ig : Bool) (h : Heap) (log : List Warn)
    (y : HV) (hy : ∀ a, Reach h y a → a < h.length) (n : Nat) :
    observe n (callMarkdown env fuel x level ig h log).2.heap y = observe n h y := by
  have hu := (C105_unchanged env fuel x level ig h log).1
  induction n generalizing y with
  | zero => rfl
  | succ n ih =>
    match y with
    | .imm _ => rfl
    | .ref a =>
      rw [observe, observe, hu a (hy a (.here a))]
      cases ho : h[a]? with
      | none => rfl
      | some o =>
        simp only
        congr 1
        refine List.map_congr_left fun e he => ?_
        rw [ih e.2 fun b hb => hy b (.step ho he hb)]

/-- The value model agrees: `to_markdown` of a node instance that fits the recursion limit raises what the value model raises, or returns
that value; if it is no string, it is something that existed before the call (the unconverted `text` of the node). -/
theorem C105_agrees (env : Env) (fuel : Nat) (n : Node) (x : HV) (level : Option Int) (ig : Bool) (h : Heap) (log : List Warn)
    (hx : IsNode anywhere h n x) (hf : depthNode n ≤ fuel) :
    match n.toMarkdownAt env level ig with
    | .ok v => ∃ r, (callMarkdown env fuel x level ig h log).1 = .ok r ∧ Json anywhere h v r
    | .error e => (callMarkdown env fuel x level ig h log).1 = .error (.py e) := by
  obtain ⟨_, _, ho⟩ := HeapMd.wp_run ⟨h, log⟩ (HeapMd.renders env anywhere h fuel n x hx hf level ig fun _ => none)
    ⟨Nat.le_refl _, fun _ _ _ h => h, nofun⟩
  show match (n.item env).render level ig with | .ok v => _ | .error e => _
  cases hr : (n.item env).render level ig with
  | ok v => rw [hr] at ho; exact ho
  | error e => rw [hr] at ho; exact ho

/-- A Markdown string is returned as that string. -/
theorem C105_string (env : Env) (fuel : Nat) (n : Node) (x : HV) (level : Option Int) (ig : Bool) (h : Heap) (log : List Warn)
    (hx : IsNode anywhere h n x) (hf : depthNode n ≤ fuel) (s : Str) (hs : n.toMarkdownAt env level ig = .ok (.str s)) :
    (callMarkdown env fuel x level ig h log).1 = .ok (.imm (.str s)) := by
  have h1 := C105_agrees env fuel n x level ig h log hx hf
  rw [hs] at h1
  obtain ⟨r, h2, i, rfl, hi⟩ := h1
  cases i <;> cases hi
  exact h2

/-- The boundary: a text node whose `text` is no string returns that very object, so what is done to it later is done to the node. -/
theorem C105_text_object (env : Env) : ∃ (h : Heap) (n : Node), IsNode anywhere h n (.ref 1) ∧ Reach h (.ref 1) 0 ∧
    (callMarkdown env 10 (.ref 1) none false h []).1 = .ok (.ref 0) := by
  have hn : IsNode anywhere [⟨.list, [("", .imm (.str ['a']))]⟩,
      ⟨.inst (.node .text), [("type", .imm (.str "text".toList)), ("text", .ref 0), ("marks", .imm .opt)]⟩]
      (.mk ⟨.text, .str "text".toList, none, some (.list [.str ['a']]), .absent, .opt⟩ .absent) (.ref 1) :=
    ⟨1, _, rfl, trivial, rfl, ⟨rfl, ⟨_, rfl, _, rfl, rfl⟩, rfl, ⟨_, rfl, 0, _, rfl, trivial, rfl, _, _, rfl, ⟨_, rfl, rfl⟩, rfl⟩, rfl, rfl⟩, rfl⟩
  refine ⟨_, _, hn, .step rfl (e := ("text", .ref 0)) (by simp) (.here 0), ?_⟩
  obtain ⟨r, h1, a, items, rfl, _, ha, _⟩ := C105_agrees env 10 _ _ none false _ [] hn (by decide)
  rw [h1]
  match a, ha with
  | 0, _ => rfl
  | 1, ha => cases ha
  | n + 2, ha => cases ha

/-- Converting twice: the second call returns or raises what the first did. -/
theorem C105_again (env : Env) (fuel : Nat) (n : Node) (x : HV) (level : Option Int) (ig : Bool) (h : Heap) (log : List Warn)
    (hx : IsNode anywhere h n x) (hf : depthNode n ≤ fuel) (s' : St) (hs : s' = (callMarkdown env fuel x level ig h log).2) :
    IsNode anywhere s'.heap n x ∧
    ∀ (env' : Env) (fuel' : Nat) (level' : Option Int) (ig' : Bool), depthNode n ≤ fuel' →
      match n.toMarkdownAt env' level' ig' with
      | .ok v => ∃ r, (callMarkdown env' fuel' x level' ig' s'.heap s'.log).1 = .ok r ∧ Json anywhere s'.heap v r
      | .error e => (callMarkdown env' fuel' x level' ig' s'.heap s'.log).1 = .error (.py e) := by
  have hn : IsNode anywhere s'.heap n x := isNode_mono
    (fun a o _ ho => by rw [hs, (C105_unchanged env fuel x level ig h log).1 a (HeapMd.get_lt ho)]; exact ho) (fun _ h => h) n x hx
  exact ⟨hn, fun env' fuel' level' ig' hf' => C105_agrees env' fuel' n x level' ig' s'.heap s'.log hn hf'⟩

/-! ## Non-vacuity: the paragraph of `Props/Heap.lean`, whose two children were one dict -/

theorem para0_md : ∃ n : Node, (parseNode true para0).out = .ok n ∧ depthNode n ≤ 1000 ∧
    ∀ env, n.toMarkdownAt env none false = .ok (.str "hihi\n".toList) := ⟨_, rfl, by decide, fun _ => rfl⟩

example (env : Env) : ∃ (r : HV) (h : Heap), (callMarkdown env 1000 r none false h []).1 = .ok (.imm (.str "hihi\n".toList)) := by
  obtain ⟨n, hn, hd, hm⟩ := para0_md
  obtain ⟨r, n', h, hn', _, _, hi⟩ := para0_built
  cases hn.symm.trans hn'
  exact ⟨r, h, C105_string env 1000 n r none false h [] hi hd _ (hm env)⟩

example (env : Env) : True := by
  obtain ⟨r, n, h, _, hd, _, hi⟩ := para0_built
  have h1 := C105_agrees env 1000 n r none false h [] hi hd
  have h2 := C105_again env 1000 n r none false h [] hi hd _ rfl
  trivial

example (env : Env) := C105_object_same env 1000 (.ref 2) none false heap0 [] (.ref 2) heap0_closed 4

end Verif.Props
