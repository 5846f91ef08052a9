import Verif.Lemmas.CycleMd
/-!
# `to_markdown` of finite trees of objects never hits the recursion limit
-/

namespace Verif.HeapMd
open Verif Verif.Spec

variable {α β γ : Type} {S : Heap} {Q : α → Prop} {R : β → Prop}

/-- Started when the objects of `S` are there, the program leaves them as they are, does not hit the limit, and returns something of which `Q` holds. -/
def Small (S : Heap) (m : Prog α) (Q : α → Prop) : Prop := ∀ s, Has S s →
  Has S (m.run s).2 ∧ match (m.run s).1 with
    | .ok a => Q a
    | .error e => e ≠ .recursion

theorem small_pure {a : α} (h : Q a) : Small S (Prog.pure a) Q := fun _ hs => ⟨hs, h⟩
theorem small_py (e : PyErr) : Small S (Prog.throw (.py e)) Q := fun _ hs => ⟨hs, nofun⟩
theorem small_of (x : Except PyErr α) : Small S (Prog.ofExcept x) (fun _ => True) := fun _ hs => by
  cases x with
  | ok a => exact ⟨hs, trivial⟩
  | error e => exact ⟨hs, nofun⟩

theorem small_weak {Q' : α → Prop} {m : Prog α} (h : Small S m Q) (hq : ∀ a, Q a → Q' a) : Small S m Q' := fun s hs => by
  obtain ⟨h1, h2⟩ := h s hs
  refine ⟨h1, ?_⟩
  cases hr : (m.run s).1 with
  | ok a => rw [hr] at h2; exact hq a h2
  | error e => rw [hr] at h2; exact h2

theorem small_any {m : Prog α} (h : Small S m Q) : Small S m (fun _ => True) := small_weak h fun _ _ => trivial

theorem small_try {m : Prog α} {f : α → Prog β} {g : HErr → Prog β} (h : Small S m Q) (hf : ∀ a, Q a → Small S (f a) R)
    (hg : ∀ e, e ≠ .recursion → Small S (g e) R) : Small S (m.tryElse f g) R := fun s hs => by
  obtain ⟨h1, h2⟩ := h s hs
  rw [HeapProg.run_try]
  cases hr : m.run s with
  | mk r s' =>
    rw [hr] at h1 h2
    cases r with
    | ok a => exact hf a h2 s' h1
    | error e => exact hg e h2 s' h1

theorem small_throw {e : HErr} (he : e ≠ .recursion) : Small S (Prog.throw e) Q := fun _ hs => ⟨hs, he⟩

theorem small_bind {m : Prog α} {f : α → Prog β} (h : Small S m Q) (hf : ∀ a, Q a → Small S (f a) R) : Small S (m.bind f) R :=
  small_try h hf fun _ he => small_throw he

theorem small_if {c : Bool} {x y : Prog α} (hx : Small S x Q) (hy : Small S y Q) : Small S (if c then x else y) Q := by
  cases c
  · exact hy
  · exact hx

theorem small_read {a : Nat} : Small S (Prog.read a) (fun o => ∀ o', S[a]? = some o' → o = o') := fun s hs => by
  rw [HeapProg.run_read]
  unfold HM.read
  cases ho : s.heap[a]? with
  | none => exact ⟨hs, nofun⟩
  | some o =>
    refine ⟨hs, fun o' h' => ?_⟩
    have := hs a o' h'
    rw [ho] at this
    cases this
    rfl

theorem small_new : Small S newList (fun lst => S.length ≤ lst) := fun s hs => by
  refine ⟨fun a o ho => ?_, has_lt hs⟩
  show (s.heap ++ [_])[a]? = _
  rw [List.getElem?_append_left (lt_of_get (hs a o ho))]
  exact hs a o ho

theorem small_push {lst : Nat} (hl : S.length ≤ lst) (x : HV) : Small S (push lst x) (fun _ => True) := fun s hs => by
  have hr : (push lst x).run s = match s.heap[lst]? with
      | some o => (.ok (), { s with heap := s.heap.set lst { o with items := o.items ++ [("", x)] } })
      | none => (.error (.py .typeError), s) := by
    show (match s.heap[lst]? with | some o => _ | none => _) = _
    cases s.heap[lst]? <;> rfl
  rw [hr]
  cases ho : s.heap[lst]? with
  | none => exact ⟨hs, nofun⟩
  | some o =>
    refine ⟨fun a p hp => ?_, trivial⟩
    have hne : lst ≠ a := fun h => by have := lt_of_get hp; omega
    show (s.heap.set lst _)[a]? = _
    rw [List.getElem?_set_ne hne]
    exact hs a p hp

theorem small_pushAll {lst : Nat} (hl : S.length ≤ lst) : (l : List Str) → Small S (pushAll lst l) (fun _ => True)
  | [] => small_pure trivial
  | _ :: l => small_bind (small_push hl _) fun _ _ => small_pushAll hl l

theorem small_join (sep : Str) (lst : Nat) : Small S (joinH sep lst) (fun _ => True) := small_bind small_read fun _ _ => small_of _

/-! ## Reading -/

/-- The values among them are finite trees. -/
def OptFin (n : Nat) (S : Heap) (o : Option HV) : Prop := ∀ x, o = some x → Fin n S x
def AllFin (n : Nat) (S : Heap) (items : List (String × HV)) : Prop := ∀ e ∈ items, Fin n S e.2

theorem allFin_mono {n n' : Nat} (hn : n ≤ n') {items : List (String × HV)} (h : AllFin n S items) : AllFin n' S items :=
  fun e he => fin_mono hn (h e he)

theorem optFin {n : Nat} {items : List (String × HV)} (h : AllFin n S items) (k : String) : OptFin n S (itemGet items k) :=
  fun _ hx => h _ (itemGet_in hx)

theorem small_obj {n a : Nat} (h : Fin (n + 1) S (.ref a)) : Small S (Prog.read a) (fun o => AllFin n S o.items) := by
  obtain ⟨o, ho, hi⟩ := h
  exact small_weak small_read fun o' h' => by rw [h' o ho]; exact hi

/-- The same, when the limit is not used up. -/
theorem small_obj' {n a : Nat} (h : Fin n S (.ref a)) : Small S (Prog.read a) (fun o => AllFin n S o.items) := by
  cases n with
  | zero => exact h.elim
  | succ n => exact small_weak (small_obj h) fun _ h => allFin_mono (Nat.le_succ n) h

mutual
theorem small_val : (fuel : Nat) → (x : HV) → Fin fuel S x → Small S (readVal fuel x) (fun _ => True)
  | _, .imm i, _ => by rw [readVal]; exact small_pure trivial
  | 0, .ref _, h => h.elim
  | fuel + 1, .ref a, h => by
    rw [readVal]
    refine small_bind (small_obj h) fun o ho => ?_
    cases o.kind with
    | list => exact small_bind (small_items fuel o.items ho) fun _ _ => small_pure trivial
    | dict => exact small_bind (small_items fuel o.items ho) fun _ _ => small_pure trivial
    | inst t => exact small_py _
termination_by fuel => (fuel, 0)

theorem small_items : (fuel : Nat) → (items : List (String × HV)) → AllFin fuel S items → Small S (readItems fuel items) (fun _ => True)
  | _, [], _ => by rw [readItems]; exact small_pure trivial
  | fuel, (k, x) :: rest, h => by
    rw [readItems]
    exact small_bind (small_val fuel x (h _ (.head _))) fun _ _ =>
      small_bind (small_items fuel rest fun e he => h e (.tail _ he)) fun _ _ => small_pure trivial
termination_by fuel items => (fuel, items.length + 1)
end

theorem small_plain {fuel : Nat} {x : Option HV} (h : OptFin fuel S x) : Small S (readPlain fuel x) (fun _ => True) := by
  cases x with
  | none => exact small_pure trivial
  | some x => exact small_bind (small_val fuel x (h x rfl)) fun _ _ => small_pure trivial

theorem small_attrs {fuel : Nat} {x : Option HV} (h : OptFin fuel S x) : Small S (readAttrs fuel x) (fun _ => True) := by
  match x with
  | none => exact small_pure trivial
  | some (.imm i) => exact small_pure trivial
  | some (.ref a) =>
    refine small_bind (small_obj' (h _ rfl)) fun o ho => ?_
    match o.kind with
    | .inst .attrs => exact small_bind (small_items fuel o.items ho) fun _ _ => small_pure trivial
    | .inst (.node _) => exact small_py _
    | .inst (.mark _) => exact small_py _
    | .list => exact small_bind (small_val fuel _ (h _ rfl)) fun _ _ => small_pure trivial
    | .dict => exact small_bind (small_val fuel _ (h _ rfl)) fun _ _ => small_pure trivial

theorem small_mark {fuel : Nat} {x : HV} (h : Fin fuel S x) : Small S (readMark fuel x) (fun _ => True) := by
  match x with
  | .imm i => exact small_pure trivial
  | .ref a =>
    refine small_bind (small_obj' h) fun o ho => ?_
    match o.kind with
    | .inst (.mark c) =>
      exact small_bind (small_plain (optFin ho _)) fun _ _ => small_bind (small_attrs (optFin ho _)) fun _ _ => small_pure trivial
    | .inst .attrs => exact small_pure trivial
    | .inst (.node _) => exact small_pure trivial
    | .list => exact small_pure trivial
    | .dict => exact small_pure trivial

theorem small_markList {fuel : Nat} {items : List (String × HV)} (h : AllFin fuel S items) : Small S (readMarkList fuel items) (fun _ => True) := by
  induction items with
  | nil => exact small_pure trivial
  | cons e rest ih =>
    refine small_bind (small_mark (h e (.head _))) fun o _ => ?_
    cases o with
    | none => exact small_pure trivial
    | some m => exact small_bind (ih fun e he => h e (.tail _ he)) fun _ _ => small_pure trivial

theorem small_marks {fuel : Nat} {x : Option HV} (h : OptFin fuel S x) : Small S (readMarks fuel x) (fun _ => True) := by
  match x with
  | none => exact small_pure trivial
  | some (.imm i) => exact small_pure trivial
  | some (.ref a) =>
    refine small_bind (small_obj' (h _ rfl)) fun o ho => ?_
    match o.kind with
    | .list => exact small_bind (small_markList ho) fun _ _ => small_pure trivial
    | .dict => exact small_bind (small_val fuel _ (h _ rfl)) fun _ _ => small_pure trivial
    | .inst _ => exact small_bind (small_val fuel _ (h _ rfl)) fun _ _ => small_pure trivial

theorem small_hd {fuel : Nat} (c : NodeCls) {items : List (String × HV)} (h : AllFin fuel S items) (marks : Slot (List Mark)) :
    Small S (readHd fuel c items marks) (fun _ => True) :=
  small_bind (small_plain (optFin h _)) fun _ _ => small_bind (small_plain (optFin h _)) fun _ _ =>
    small_bind (small_plain (optFin h _)) fun _ _ => small_bind (small_attrs (optFin h _)) fun _ _ => small_pure trivial

theorem small_nodeOf {n : Nat} {x : HV} (h : Fin n S x) : Small S (nodeOf x) (fun p => AllFin n S p.2) := by
  match x with
  | .imm i => exact small_py _
  | .ref a =>
    refine small_bind (small_obj' h) fun o ho => ?_
    match o.kind with
    | .inst (.node c) => exact small_pure ho
    | .inst .attrs => exact small_py _
    | .inst (.mark _) => exact small_py _
    | .list => exact small_py _
    | .dict => exact small_py _

theorem small_type {fuel : Nat} {x : HV} (h : Fin fuel S x) (ex : List TypeEnum) : Small S (isTypeOfH fuel x ex) (fun _ => True) :=
  small_bind (small_nodeOf h) fun _ hp => small_bind (small_plain (optFin hp _)) fun _ _ => small_pure trivial

/-- The elements a loop visits. -/
def EachFin (n : Nat) (S : Heap) (xs : List HV) : Prop := ∀ x ∈ xs, Fin n S x

theorem small_iter {n : Nat} {c : Option HV} (h : OptFin n S c) : Small S (iterH c) (EachFin n S) := by
  have imm : ∀ {β : Type} (l : List β) (f : β → Imm), EachFin n S (l.map fun b => .imm (f b)) := fun l f x hx => by
    obtain ⟨_, _, rfl⟩ := List.mem_map.mp hx
    cases n <;> trivial
  match c with
  | none => exact small_py _
  | some (.imm (.str s)) => exact small_pure (imm s fun ch => .str [ch])
  | some (.imm .none) => exact small_py _
  | some (.imm (.bool _)) => exact small_py _
  | some (.imm (.int _)) => exact small_py _
  | some (.imm (.float _)) => exact small_py _
  | some (.imm .opt) => exact small_py _
  | some (.ref a) =>
    refine small_bind (small_obj' (h _ rfl)) fun o ho => ?_
    match o.kind with
    | .list => exact small_pure fun x hx => by obtain ⟨e, he, rfl⟩ := List.mem_map.mp hx; exact ho e he
    | .dict => exact small_pure (imm o.items fun e => .str e.1.toList)
    | .inst _ => exact small_py _

theorem small_iterContent {n : Nat} {x : HV} (h : Fin n S x) : Small S (iterContentH x) (EachFin n S) :=
  small_bind (small_nodeOf h) fun _ hp => small_iter (optFin hp _)

/-! ## The conversions -/

section
variable {fuel n : Nat} {call : Call} (hn : n ≤ fuel) (hcall : ∀ x level ig, Fin n S x → Small S (call x level ig) (fun _ => True))
include hn hcall

theorem small_collect {ig : Bool} {pre : HV → Prog γ} {f : γ → HV → Prog HV} {lst : Nat} (hl : S.length ≤ lst)
    (hp : ∀ x, Fin n S x → Small S (pre x) (fun _ => True)) (hf : ∀ c x, Fin n S x → Small S (f c x) (fun _ => True)) :
    (xs : List HV) → EachFin n S xs → Small S (collectH ig pre f lst xs) (fun _ => True)
  | [], _ => small_pure trivial
  | x :: xs, h => by
    have hx := h x (.head _)
    have rest := small_collect (ig := ig) hl hp hf xs fun y hy => h y (.tail _ hy)
    refine small_bind (hp x hx) fun c _ => small_try (hf c x hx) (fun r _ => small_bind (small_push hl r) fun _ _ => rest) fun e he => ?_
    exact small_if rest (small_throw he)

theorem small_content (concat : Str) (ig : Bool) {c : Option HV} (h : OptFin n S c) : Small S (contentToMarkdownH call concat ig c) (fun _ => True) := by
  have go : Small S (newList.bind fun lst => (iterH c).bind fun xs =>
      (collectH ig (fun _ => Prog.pure ()) (fun _ x => call x none false) lst xs).bind fun _ => joinH concat lst) (fun _ => True) :=
    small_bind small_new fun lst hl => small_bind (small_iter h) fun xs hxs =>
      small_bind (small_collect hn hcall hl (fun _ _ => small_pure trivial) (fun _ x hx => hcall x none false hx) xs hxs) fun _ _ => small_join _ _
  unfold contentToMarkdownH
  split
  · exact small_pure trivial
  · exact go

theorem small_pad (x : HV) : Small S (padH x) (fun _ => True) := by
  unfold padH
  split
  · exact small_pure trivial
  · exact small_py _

theorem small_docBlock {x : HV} (hx : Fin n S x) : Small S (docBlockH fuel call x) (fun _ => True) :=
  small_bind (small_type (fin_mono hn hx) _) fun _ _ => small_if (small_bind (hcall x none false hx) fun _ _ => small_pad hn hcall _) (hcall x none false hx)

theorem small_docContent (ig : Bool) {c : Option HV} (h : OptFin n S c) : Small S (docContentToMarkdownH fuel call ig c) (fun _ => True) := by
  unfold docContentToMarkdownH
  split
  · exact small_pure trivial
  · exact small_bind small_new fun lst hl => small_bind (small_iter h) fun xs hxs =>
      small_bind (small_collect hn hcall hl (fun _ _ => small_pure trivial) (fun _ x hx => small_docBlock hn hcall hx) xs hxs) fun _ _ =>
        small_bind (small_join _ _) fun _ _ => small_pure trivial

theorem small_rstrip (x : HV) : Small S (rstripH x) (fun _ => True) := by
  unfold rstripH
  split
  · exact small_pure trivial
  · exact small_py _

theorem small_listItemContent (kind : TypeEnum) (level : Int) (ig : Bool) {x : HV} (hx : Fin n S x) :
    Small S (listItemContentH fuel call kind level ig x) (fun _ => True) :=
  small_bind small_new fun lst hl => small_bind (small_iterContent hx) fun xs hxs =>
    small_bind (small_collect hn hcall hl (fun x hx => small_type (fin_mono hn hx) _)
      (fun _ x hx => small_if (hcall x _ _ hx) (small_bind (hcall x _ _ hx) fun _ _ => small_rstrip hn hcall _)) xs hxs) fun _ _ => small_join _ _

theorem small_bulletLines (level : Int) (ig : Bool) {lines : Nat} (hl : S.length ≤ lines) :
    (xs : List HV) → EachFin n S xs → Small S (bulletLinesH fuel call level ig lines xs) (fun _ => True)
  | [], _ => small_pure trivial
  | x :: xs, h => by
    have hx := h x (.head _)
    have rest := small_bulletLines level ig hl xs fun y hy => h y (.tail _ hy)
    exact small_bind (small_type (fin_mono hn hx) _) fun _ _ => small_if
      (small_bind (small_listItemContent hn hcall _ _ _ hx) fun _ _ => small_bind (small_pushAll hl _) fun _ _ => rest) rest

theorem small_orderedLines (env : Env) (level : Int) (ig : Bool) {lines : Nat} (hl : S.length ≤ lines) :
    (num : Val) → (xs : List HV) → EachFin n S xs → Small S (orderedLinesH env fuel call level ig lines num xs) (fun _ => True)
  | _, [], _ => small_pure trivial
  | num, x :: xs, h => by
    have hx := h x (.head _)
    have rest := fun num => small_orderedLines env level ig hl num xs fun y hy => h y (.tail _ hy)
    exact small_bind (small_type (fin_mono hn hx) _) fun _ _ => small_if
      (small_bind (small_listItemContent hn hcall _ _ _ hx) fun _ _ => small_bind (small_pushAll hl _) fun _ _ => rest _) (rest _)

theorem small_state {x : HV} (hx : Fin n S x) : Small S (stateH fuel x) (fun _ => True) :=
  small_bind (small_nodeOf hx) fun _ hp => small_bind (small_attrs fun y hy => fin_mono hn (optFin hp _ y hy)) fun _ _ => small_of _

theorem small_taskItemLine (level : Int) (ig : Bool) {x : HV} (hx : Fin n S x) : Small S (taskItemLineH fuel call level ig x) (fun _ => True) :=
  small_bind small_new fun lst hl => small_bind (small_iterContent hx) fun xs hxs =>
    small_bind (small_collect hn hcall hl (fun _ _ => small_pure trivial) (fun _ x hx => hcall x none false hx) xs hxs) fun _ _ =>
      small_bind (small_join _ _) fun _ _ => small_bind (small_state hn hcall hx) fun _ _ => small_pure trivial

theorem small_taskLines (level : Int) (ig : Bool) {lines : Nat} (hl : S.length ≤ lines) :
    (xs : List HV) → EachFin n S xs → Small S (taskLinesH fuel call level ig lines xs) (fun _ => True)
  | [], _ => small_pure trivial
  | x :: xs, h => by
    have hx := h x (.head _)
    have rest := small_taskLines level ig hl xs fun y hy => h y (.tail _ hy)
    refine small_bind (small_type (fin_mono hn hx) _) fun _ _ => small_if
      (small_bind (small_taskItemLine hn hcall _ _ hx) fun _ _ => small_bind (small_push hl _) fun _ _ => rest) ?_
    refine small_bind (small_type (fin_mono hn hx) _) fun _ _ => small_if ?_ rest
    exact small_try (hcall x _ _ hx) (fun _ _ => small_bind (small_push hl _) fun _ _ => rest) fun e he => small_if rest (small_throw he)

theorem small_decisionBlocks (ig : Bool) {lines : Nat} (hl : S.length ≤ lines) :
    (xs : List HV) → EachFin n S xs → Small S (decisionBlocksH fuel call ig lines xs) (fun _ => True)
  | [], _ => small_pure trivial
  | x :: xs, h => by
    have hx := h x (.head _)
    have rest := small_decisionBlocks ig hl xs fun y hy => h y (.tail _ hy)
    refine small_bind (small_type (fin_mono hn hx) _) fun _ _ => small_if ?_ rest
    exact small_try (hcall x _ _ hx) (fun _ _ => small_bind (small_push hl _) fun _ _ => rest) fun e he => small_if rest (small_throw he)

theorem small_rowCells (ig : Bool) {cells : Nat} (hl : S.length ≤ cells) :
    (xs : List HV) → EachFin n S xs → Small S (rowCellsH call ig cells xs) (fun _ => True)
  | [], _ => small_pure trivial
  | x :: xs, h => small_bind (hcall x _ _ (h x (.head _))) fun _ _ => small_bind (small_push hl _) fun _ _ =>
      small_rowCells ig hl xs fun y hy => h y (.tail _ hy)

theorem small_headerWidth {x : HV} (hx : Fin n S x) : Small S (headerWidthH fuel x) (fun _ => True) := by
  refine small_bind (small_nodeOf hx) fun p hp => ?_
  have hc := optFin hp "content"
  generalize itemGet p.2 "content" = c at hc ⊢
  match c with
  | none => exact small_py _
  | some (.imm (.str [])) => exact small_py _
  | some (.imm (.str (_ :: _))) => exact small_py _
  | some (.imm .none) => exact small_py _
  | some (.imm (.bool _)) => exact small_py _
  | some (.imm (.int _)) => exact small_py _
  | some (.imm (.float _)) => exact small_py _
  | some (.imm .opt) => exact small_py _
  | some (.ref a) =>
    refine small_bind (small_obj' (hc _ rfl)) fun o ho => ?_
    match o.kind with
    | .dict => exact small_py _
    | .inst _ => exact small_py _
    | .list =>
      obtain ⟨kind, items⟩ := o
      cases items with
      | nil => exact small_py _
      | cons e rest => exact small_bind (small_type (fin_mono hn (ho e (.head _))) _) fun _ _ => small_pure trivial

theorem small_tableLines (ig : Bool) {lines : Nat} (hl : S.length ≤ lines) :
    (xs : List HV) → EachFin n S xs → Small S (tableLinesH fuel call ig lines xs) (fun _ => True)
  | [], _ => small_pure trivial
  | x :: xs, h => by
    have hx := h x (.head _)
    have rest := small_tableLines ig hl xs fun y hy => h y (.tail _ hy)
    refine small_try (Q := fun _ => True) ?_ (fun _ _ => rest) fun e he => small_if rest (small_throw he)
    refine small_bind (hcall x _ _ hx) fun _ _ => small_bind (small_push hl _) fun _ _ => small_bind (small_headerWidth hn hcall hx) fun w _ => ?_
    cases w with
    | none => exact small_pure trivial
    | some n => exact small_push hl _

theorem small_str {m : Prog Str} (h : Small S m (fun _ => True)) : Small S (strValH m) (fun _ => True) := small_bind h fun _ _ => small_pure trivial

theorem small_cell (ig : Bool) {c : Option HV} (h : OptFin n S c) : Small S (cellMdH call c ig) (fun _ => True) :=
  small_bind (small_content hn hcall _ _ h) fun _ _ => small_pure trivial

/-- A list that is filled in a loop and joined. -/
theorem small_loop {c : Option HV} (h : OptFin n S c) {f : Nat → List HV → Prog Unit} {g : Nat → Prog α}
    (hf : ∀ lst, S.length ≤ lst → ∀ xs, EachFin n S xs → Small S (f lst xs) (fun _ => True)) (hg : ∀ lst, Small S (g lst) (fun _ => True)) :
    Small S (newList.bind fun lst => (iterH c).bind fun xs => (f lst xs).bind fun _ => g lst) (fun _ => True) :=
  small_bind small_new fun lst hl => small_bind (small_iter h) fun xs hxs => small_bind (hf lst hl xs hxs) fun _ _ => hg lst

theorem small_body (env : Env) (hd : Hd) {items : List (String × HV)} (level : Option Int) (ig : Bool) (h : AllFin n S items) :
    Small S (bodyH env fuel call hd items level ig) (fun _ => True) := by
  have hc := optFin h "content"
  have cell := small_str hn hcall (small_cell hn hcall ig hc)
  have doc := small_docContent hn hcall ig hc
  have leaf : Small S ((Prog.ofExcept (dispatch env hd .absent level ig)).bind fun v => Prog.pure (strOr (.imm .none) v)) (fun _ => True) :=
    small_bind (small_of _) fun _ _ => small_pure trivial
  have content := small_content hn hcall [] ig hc
  unfold bodyH
  cases hd.cls
  case doc => exact small_str hn hcall doc
  case text =>
    have ht := optFin h "text"
    simp only [textMdH]
    generalize itemGet items "text" = t at ht ⊢
    cases t with
    | none => exact small_py _
    | some x => exact small_bind (small_val _ _ (fin_mono hn (ht x rfl))) fun _ _ => small_bind (small_of _) fun _ _ => small_pure trivial
  case listItem => exact small_str hn hcall content
  case bulletList => exact small_str hn hcall (small_loop hn hcall hc (fun _ hl => small_bulletLines hn hcall _ _ hl) fun _ => small_join _ _)
  case orderedList =>
    exact small_str hn hcall (small_bind small_new fun _ hl => small_bind (small_of _) fun _ _ => small_bind (small_iter hc) fun xs hxs =>
      small_bind (small_orderedLines hn hcall env _ _ hl _ xs hxs) fun _ _ => small_join _ _)
  case paragraph =>
    refine small_str hn hcall (small_bind content fun _ _ => small_bind (small_of _) fun v _ => ?_)
    split
    · exact small_pure trivial
    · exact small_py _
  case taskItem => exact small_str hn hcall content
  case taskList => exact small_str hn hcall (small_loop hn hcall hc (fun _ hl => small_taskLines hn hcall _ _ hl) fun _ => small_join _ _)
  case decisionItem => exact small_str hn hcall (small_bind content fun _ _ => small_pure trivial)
  case decisionList => exact small_str hn hcall (small_loop hn hcall hc (fun _ hl => small_decisionBlocks hn hcall _ hl) fun _ => small_join _ _)
  case heading =>
    refine small_str hn hcall (small_bind (small_of _) fun v _ => ?_)
    split
    · exact small_py _
    · exact small_bind content fun _ _ => small_pure trivial
  case codeBlock => exact small_str hn hcall (small_bind content fun _ _ => small_bind (small_of _) fun _ _ => small_pure trivial)
  case mediaSingle => exact small_str hn hcall content
  case panel =>
    refine small_str hn hcall (small_bind (small_of _) fun v _ => ?_)
    split
    · exact small_py _
    · exact small_bind doc fun _ _ => small_pure trivial
  case blockquote => exact small_str hn hcall (small_bind doc fun _ _ => small_pure trivial)
  case expand => exact small_bind doc fun _ _ => small_bind (small_of _) fun _ _ => small_pure trivial
  case nestedExpand => exact small_str hn hcall doc
  case tableCell => exact cell
  case tableHeader => exact cell
  case tableRow =>
    exact small_str hn hcall (small_loop hn hcall hc (fun _ hl => small_rowCells hn hcall _ hl) fun _ => small_bind (small_join _ _) fun _ _ => small_pure trivial)
  case table => exact small_str hn hcall (small_loop hn hcall hc (fun _ hl => small_tableLines hn hcall _ hl) fun _ => small_join _ _)
  all_goals exact leaf

end

theorem small_markdown (env : Env) : (fuel : Nat) → (x : HV) → (level : Option Int) → (ig : Bool) → Fin fuel S x →
    Small S (markdownH env (fuel + 1) x level ig) (fun _ => True)
  | 0, .imm _, level, ig, _ => by
    rw [markdownH]
    exact small_bind (small_py _) (Q := fun _ => False) fun _ h => h.elim
  | fuel + 1, x, level, ig, h => by
    rw [markdownH]
    refine small_bind (Q := fun p => AllFin fuel S p.2) ?_ fun p hp => small_if (small_py _) ?_
    · match x with
      | .imm i => exact small_py _
      | .ref a =>
        refine small_bind (small_obj h) fun o ho => ?_
        match o.kind with
        | .inst (.node c) => exact small_pure ho
        | .inst .attrs => exact small_py _
        | .inst (.mark _) => exact small_py _
        | .list => exact small_py _
        | .dict => exact small_py _
    · have hp' := allFin_mono (Nat.le_succ fuel) hp
      exact small_bind (small_marks (optFin hp' _)) fun marks _ => small_bind (small_hd p.1 hp' marks) fun hd _ =>
        small_body (Nat.le_succ fuel) (fun x level ig hx => small_markdown env fuel x level ig hx) env hd level ig hp

end Verif.HeapMd
