import Verif.Lemmas.NodeGen
/-!
# Lemmas about the node generator: the schema and what generating does to it
-/

namespace Verif.NodeGen
open Verif

/-! ## Dicts -/

theorem lookup_setKey (k k' : String) (v : Val) (d : List (String × Val)) :
    lookupKey (setKey k v d) k' = if k = k' then some v else lookupKey d k' := by
  induction d with
  | nil => simp [setKey, lookupKey]
  | cons p d ih =>
    obtain ⟨a, b⟩ := p
    rw [setKey]
    by_cases h : a = k
    · subst h
      rw [if_pos rfl, lookupKey, lookupKey]
      split <;> rfl
    · rw [if_neg h, lookupKey, lookupKey, ih]
      by_cases h1 : a = k'
      · subst h1; simp [Ne.symm h]
      · simp [h1]

theorem setKey_self {k : String} {v : Val} {d : List (String × Val)} (h : lookupKey d k = some v) : setKey k v d = d := by
  induction d with
  | nil => simp [lookupKey] at h
  | cons p d ih =>
    obtain ⟨a, b⟩ := p
    rw [lookupKey] at h
    rw [setKey]
    split
    · rename_i e; rw [if_pos e] at h; simp_all
    · rename_i e; rw [if_neg e] at h; rw [ih h]

theorem setKey_twice (k : String) (v v' : Val) (d : List (String × Val)) : setKey k v (setKey k v' d) = setKey k v d := by
  induction d with
  | nil => simp [setKey]
  | cons p d ih =>
    obtain ⟨a, b⟩ := p
    rw [setKey, setKey]
    split
    · rename_i e; rw [setKey, if_pos e]
    · rename_i e; rw [setKey, if_neg e, ih]

theorem setKey_comm {k k' : String} {v v' : Val} {d : List (String × Val)} (h : k ≠ k') (hk : (lookupKey d k).isSome)
    (hk' : (lookupKey d k').isSome) : setKey k v (setKey k' v' d) = setKey k' v' (setKey k v d) := by
  induction d with
  | nil => simp [lookupKey] at hk
  | cons p d ih =>
    obtain ⟨a, b⟩ := p
    rw [lookupKey] at hk hk'
    by_cases h1 : a = k
    · subst h1
      simp [setKey, h]
    · by_cases h2 : a = k'
      · subst h2
        simp [setKey, h1]
      · rw [if_neg h1] at hk
        rw [if_neg h2] at hk'
        simp only [setKey, if_neg h1, if_neg h2]
        rw [ih hk hk']

theorem update_cons (d : List (String × Val)) (p : String × Val) (l : List (String × Val)) :
    update d (p :: l) = update (setKey p.1 p.2 d) l := rfl

theorem update_append (d l m : List (String × Val)) : update d (l ++ m) = update (update d l) m := by
  simp [update, List.foldl_append]

theorem present_update {d : List (String × Val)} {k : String} (h : (lookupKey d k).isSome) (l : List (String × Val)) :
    (lookupKey (update d l) k).isSome := by
  induction l generalizing d with
  | nil => exact h
  | cons p l ih =>
    rw [update_cons]
    apply ih
    rw [lookup_setKey]
    split
    · rfl
    · exact h

theorem present_of_mem {d l : List (String × Val)} {p : String × Val} (h : p ∈ l) : (lookupKey (update d l) p.1).isSome := by
  induction l generalizing d with
  | nil => simp at h
  | cons q l ih =>
    rw [update_cons]
    rcases List.mem_cons.1 h with rfl | h
    · exact present_update (by simp [lookup_setKey]) l
    · exact ih h

theorem lookup_update_of_not_mem {d l : List (String × Val)} {k : String} (h : k ∉ l.map (·.1)) :
    lookupKey (update d l) k = lookupKey d k := by
  induction l generalizing d with
  | nil => rfl
  | cons q l ih =>
    simp only [List.map_cons, List.mem_cons, not_or] at h
    rw [update_cons, ih h.2, lookup_setKey, if_neg (Ne.symm h.1)]

/-- Setting a key before an update that sets it too changes nothing; otherwise it can be done after the update. -/
theorem update_setKey {d : List (String × Val)} {k : String} {v : Val} (l : List (String × Val)) (hk : (lookupKey d k).isSome)
    (hl : ∀ p ∈ l, (lookupKey d p.1).isSome) :
    update (setKey k v d) l = if k ∈ l.map (·.1) then update d l else setKey k v (update d l) := by
  induction l generalizing d with
  | nil => rfl
  | cons q l ih =>
    have hp : ∀ k', (lookupKey d k').isSome → (lookupKey (setKey q.1 q.2 d) k').isSome := by
      intro k' h; rw [lookup_setKey]; split <;> simp_all
    rw [update_cons, update_cons]
    by_cases e : q.1 = k
    · subst e
      rw [setKey_twice, if_pos (by simp)]
    · rw [setKey_comm e (hl q (by simp)) hk, ih (hp _ hk) fun p h => hp _ (hl p (by simp [h]))]
      have : k ∈ (q :: l).map (·.1) ↔ k ∈ l.map (·.1) := by
        rw [List.map_cons, List.mem_cons]
        exact ⟨fun h => h.resolve_left (Ne.symm e), .inr⟩
      by_cases h : k ∈ l.map (·.1)
      · rw [if_pos h, if_pos (this.2 h)]
      · rw [if_neg h, if_neg (fun x => h (this.1 x))]

theorem update_twice (d l : List (String × Val)) : update (update d l) l = update d l := by
  induction l generalizing d with
  | nil => rfl
  | cons p l ih =>
    rw [update_cons, update_cons]
    rw [update_setKey l (present_update (by simp [lookup_setKey]) l) fun q hq => present_of_mem hq]
    split
    · exact ih _
    · rename_i h
      rw [ih, setKey_self]
      rw [lookup_update_of_not_mem h, lookup_setKey, if_pos rfl]

theorem lookup_putBack (k k' : String) (v : Val) (d : List (String × Val)) :
    lookupKey (putBack k v d) k' = if k = k' ∧ (lookupKey d k).isSome then some v else lookupKey d k' := by
  rw [putBack]
  split
  · rename_i h; rw [lookup_setKey]; simp [h]
  · rename_i h; simp [h]

theorem keys_setKey {k : String} {v : Val} {d : List (String × Val)} (h : (lookupKey d k).isSome) :
    (setKey k v d).map (·.1) = d.map (·.1) := by
  induction d with
  | nil => simp [lookupKey] at h
  | cons p d ih =>
    obtain ⟨a, b⟩ := p
    rw [lookupKey] at h
    rw [setKey]
    split
    · rfl
    · rename_i e; rw [if_neg e] at h; simp [ih h]

theorem keys_putBack (k : String) (v : Val) (d : List (String × Val)) : (putBack k v d).map (·.1) = d.map (·.1) := by
  rw [putBack]
  split
  · rename_i h; exact keys_setKey h
  · rfl

/-! ## Merging -/

/-- What an element of `allOf` adds. -/
def pairsOf (item : Val) : List (String × Val) :=
  match item with
  | .dict d => match lookupKey d "properties" with
    | some (.dict q) => q
    | _ => []
  | _ => []

theorem mergeProps_ok {p item P : Val} (h : mergeProps p item = .ok P) :
    (P = p ∧ pairsOf item = [] ∧ ∀ p', mergeProps p' item = .ok p') ∨
    ∃ d, p = .dict d ∧ P = .dict (update d (pairsOf item)) ∧ ∀ d', mergeProps (.dict d') item = .ok (.dict (update d' (pairsOf item))) := by
  unfold mergeProps at h
  cases h1 : pyIn "properties" item with
  | error e => rw [h1] at h; simp [bind, Except.bind] at h
  | ok b =>
    rw [h1] at h
    cases b with
    | false =>
      left
      simp only [bind, Except.bind, Bool.false_eq_true, if_false] at h
      cases h
      refine ⟨rfl, ?_, fun p' => by simp [mergeProps, h1, bind, Except.bind]⟩
      cases item with
      | dict d =>
        simp only [pyIn, Except.ok.injEq, Option.isSome_eq_false_iff, Option.isNone_iff_eq_none] at h1
        simp only [pairsOf, h1]
      | _ => rfl
    | true =>
      right
      simp only [bind, Except.bind, if_true] at h
      cases h2 : pyItem "properties" item with
      | error e => rw [h2] at h; simp at h
      | ok x =>
        rw [h2] at h
        simp only at h
        cases p <;> cases x <;> simp at h
        rename_i d q
        have hp : pairsOf item = q := by
          cases item with
          | dict d' =>
            simp only [pyItem] at h2
            cases h3 : lookupKey d' "properties" with
            | none => rw [h3] at h2; cases h2
            | some w =>
              rw [h3] at h2
              cases h2
              simp only [pairsOf, h3]
          | _ => cases h2
        exact ⟨d, rfl, by rw [hp, h], fun d' => by simp [mergeProps, h1, h2, hp, bind, Except.bind]⟩

theorem foldlM_nil' {α β : Type} (f : β → α → Except PyErr β) (b : β) : List.foldlM f b [] = (.ok b : Except PyErr β) := rfl

theorem foldlM_cons' {α β : Type} (f : β → α → Except PyErr β) (b : β) (a : α) (l : List α) :
    List.foldlM f b (a :: l) = (match f b a with | .ok x => List.foldlM f x l | .error e => .error e : Except PyErr β) := by
  rw [List.foldlM_cons]
  cases f b a <;> rfl

/-- Merging once more changes nothing, and the result does not depend on where one starts. -/
theorem mergeAll_ok {items : List Val} {p P : Val} (h : items.foldlM mergeProps p = .ok P) :
    (P = p ∧ items.flatMap pairsOf = [] ∧ ∀ p', items.foldlM mergeProps p' = .ok p') ∨
    ∃ d, p = .dict d ∧ P = .dict (update d (items.flatMap pairsOf)) ∧
      ∀ d', items.foldlM mergeProps (.dict d') = .ok (.dict (update d' (items.flatMap pairsOf))) := by
  induction items generalizing p with
  | nil =>
    cases h
    exact .inl ⟨rfl, rfl, fun _ => rfl⟩
  | cons a l ih =>
    rw [foldlM_cons'] at h
    cases ha : mergeProps p a with
    | error e => rw [ha] at h; simp at h
    | ok x =>
      rw [ha] at h
      simp only at h
      rcases mergeProps_ok ha with ⟨rfl, h1, h2⟩ | ⟨d, rfl, rfl, h2⟩
      · rcases ih h with ⟨rfl, h3, h4⟩ | ⟨d, rfl, h3, h4⟩
        · refine .inl ⟨rfl, by simp [h1, h3], fun p' => ?_⟩
          rw [foldlM_cons', h2]; exact h4 p'
        · refine .inr ⟨d, rfl, by simp [h1, h3], fun d' => ?_⟩
          rw [foldlM_cons', h2, List.flatMap_cons, h1, List.nil_append]; exact h4 d'
      · rcases ih h with ⟨rfl, h3, h4⟩ | ⟨d1, h0, h3, h4⟩
        · refine .inr ⟨d, rfl, by simp [h3], fun d' => ?_⟩
          rw [foldlM_cons', h2, List.flatMap_cons, h3, List.append_nil]; exact h4 _
        · cases h0
          refine .inr ⟨d, rfl, by rw [h3, List.flatMap_cons, update_append], fun d' => ?_⟩
          rw [foldlM_cons', h2, List.flatMap_cons, update_append]; exact h4 _

theorem mergeAll_again {items : List Val} {p P : Val} (h : items.foldlM mergeProps p = .ok P) : items.foldlM mergeProps P = .ok P := by
  rcases mergeAll_ok h with ⟨rfl, -, -⟩ | ⟨d, rfl, rfl, h2⟩
  · exact h
  · rw [h2, update_twice]

theorem mergeRequired_ok {r item R : Val} (h : mergeRequired r item = .ok R) :
    (R = r ∧ ∀ r', mergeRequired r' item = .ok r') ∨
    (∃ l l', r = .list l ∧ R = .list l') ∧ ∀ l, ∃ l', mergeRequired (.list l) item = .ok (.list l') := by
  unfold mergeRequired at h
  cases h1 : pyIn "required" item with
  | error e => rw [h1] at h; simp [bind, Except.bind] at h
  | ok b =>
    rw [h1] at h
    cases b with
    | false =>
      left
      simp only [bind, Except.bind, Bool.false_eq_true, if_false] at h
      cases h
      exact ⟨rfl, fun r' => by simp [mergeRequired, h1, bind, Except.bind]⟩
    | true =>
      right
      simp only [bind, Except.bind, if_true] at h
      cases h2 : pyItem "required" item with
      | error e => rw [h2] at h; simp at h
      | ok x =>
        rw [h2] at h
        simp only at h
        cases r <;> simp at h
        rename_i l
        cases h3 : pyIter x with
        | error e => rw [h3] at h; simp at h
        | ok y =>
          rw [h3] at h
          simp at h
          exact ⟨⟨l, l ++ y, rfl, h.symm⟩, fun l' => ⟨l' ++ y, by simp [mergeRequired, h1, h2, h3, bind, Except.bind]⟩⟩

theorem requireAll_ok {items : List Val} {r R : Val} (h : items.foldlM mergeRequired r = .ok R) :
    (R = r ∧ ∀ r', items.foldlM mergeRequired r' = .ok r') ∨
    (∃ l l', r = .list l ∧ R = .list l') ∧ ∀ l, ∃ l', items.foldlM mergeRequired (.list l) = .ok (.list l') := by
  induction items generalizing r with
  | nil => cases h; exact .inl ⟨rfl, fun _ => rfl⟩
  | cons a l ih =>
    rw [foldlM_cons'] at h
    cases ha : mergeRequired r a with
    | error e => rw [ha] at h; simp at h
    | ok x =>
      rw [ha] at h
      simp only at h
      rcases mergeRequired_ok ha with ⟨rfl, h2⟩ | ⟨⟨r1, r2, rfl, rfl⟩, h2⟩
      · rcases ih h with ⟨rfl, h4⟩ | ⟨⟨r1, r2, rfl, rfl⟩, h4⟩
        · exact .inl ⟨rfl, fun p' => by rw [foldlM_cons', h2]; exact h4 p'⟩
        · exact .inr ⟨⟨r1, r2, rfl, rfl⟩, fun l => by rw [foldlM_cons', h2]; exact h4 l⟩
      · rcases ih h with ⟨rfl, h4⟩ | ⟨⟨r3, r4, h0, rfl⟩, h4⟩
        · refine .inr ⟨⟨r1, r2, rfl, rfl⟩, fun l => ?_⟩
          obtain ⟨l', hl'⟩ := h2 l
          exact ⟨l', by rw [foldlM_cons', hl']; exact h4 _⟩
        · refine .inr ⟨⟨r1, r4, rfl, rfl⟩, fun l => ?_⟩
          obtain ⟨l', hl'⟩ := h2 l
          obtain ⟨l'', h5⟩ := h4 l'
          exact ⟨l'', by rw [foldlM_cons', hl']; exact h5⟩

theorem requireAll_again {items : List Val} {r R : Val} (h : items.foldlM mergeRequired r = .ok R) :
    ∃ R', items.foldlM mergeRequired R = .ok R' := by
  rcases requireAll_ok h with ⟨rfl, -⟩ | ⟨⟨l, l', rfl, rfl⟩, h2⟩
  · exact ⟨_, h⟩
  · obtain ⟨x, hx⟩ := h2 l'
    exact ⟨_, hx⟩

/-- If the properties can be merged, merging both fails exactly where merging the required names does. -/
theorem mergeBoth_eq {items : List Val} {p P r : Val} (h : items.foldlM mergeProps p = .ok P) :
    items.foldlM mergeBoth (p, r) = (items.foldlM mergeRequired r).map fun R => (P, R) := by
  induction items generalizing p r with
  | nil => cases h; rfl
  | cons a l ih =>
    rw [foldlM_cons'] at h
    rw [foldlM_cons', foldlM_cons', mergeBoth]
    cases ha : mergeProps p a with
    | error e => rw [ha] at h; simp at h
    | ok x =>
      rw [ha] at h
      simp only at h
      simp only [bind, Except.bind]
      cases hr : mergeRequired r a with
      | error e => rfl
      | ok y => exact ih h

theorem mergeBoth_ok {items : List Val} {p P r R : Val} (h : items.foldlM mergeBoth (p, r) = .ok (P, R)) :
    items.foldlM mergeProps p = .ok P ∧ items.foldlM mergeRequired r = .ok R := by
  induction items generalizing p r with
  | nil => cases h; exact ⟨rfl, rfl⟩
  | cons a l ih =>
    rw [foldlM_cons', mergeBoth] at h
    rw [foldlM_cons', foldlM_cons']
    simp only [bind, Except.bind] at h
    cases ha : mergeProps p a with
    | error e => rw [ha] at h; simp at h
    | ok x =>
      rw [ha] at h
      simp only at h
      cases hr : mergeRequired r a with
      | error e => rw [hr] at h; simp at h
      | ok y =>
        rw [hr] at h
        exact ih h

theorem allOf_putBack (k : String) (v : Val) (d : List (String × Val)) (h : k ≠ "allOf") : allOf (putBack k v d) = allOf d := by
  rw [allOf, lookup_putBack, if_neg (fun e => h e.1)]; rfl

/-! ## `get_type_enum_from_schema`, `extract_schema_info` -/

/-- What `get_type_enum_from_schema` makes of the merged properties. -/
def enumOf (props : Val) (name : Str) : Except PyErr Val := do
  let t ← pyGet "type" (.dict []) props
  if ← pyIn "enum" t then
    let e ← pyItem "enum" t
    if truthy e then return ← pyFirst e
  if Analyze.endsWith name "_mark".toList then return .str (chop name)
  else if Analyze.endsWith name "_node".toList then return .str (chop name)
  else return .str name

/-- What `extract_schema_info` makes of the merged properties. -/
def infoOf (props : Val) : Except PyErr Info := do
  let attrs ← attrsFields props
  let c ← pyIn "content" props
  let m ← pyIn "marks" props
  let t ← pyIn "text" props
  let v ← pyIn "version" props
  return ⟨attrs, c, m, t, v⟩

theorem typeEnum_eq (defs : Defs) (name : Str) : typeEnum defs name =
    match definition defs name with
    | .error e => .error e
    | .ok d => match mergedProps d with
      | .error e => .error e
      | .ok props => (enumOf props name).map fun e => (e, putBack (String.ofList name) (.dict (putBack "properties" props d)) defs) := by
  rw [typeEnum]
  simp only [bind, Except.bind, pure, Except.pure, enumOf]
  cases definition defs name with
  | error e => rfl
  | ok d =>
    simp only
    cases mergedProps d with
    | error e => rfl
    | ok props =>
      simp only
      cases pyGet "type" (.dict []) props with
      | error e => rfl
      | ok t =>
        simp only
        cases pyIn "enum" t with
        | error e => rfl
        | ok b =>
          cases b <;> simp only [Bool.false_eq_true, if_false, if_true]
          · split
            · rfl
            · split <;> rfl
          · cases pyItem "enum" t with
            | error e => rfl
            | ok x =>
              simp only
              split
              · cases pyFirst x <;> rfl
              · split
                · rfl
                · split <;> rfl

theorem extract_eq (defs : Defs) (name : Str) : extract defs name =
    match definition defs name with
    | .error e => .error e
    | .ok d => match merged d with
      | .error e => .error e
      | .ok (props, required) => (infoOf props).map fun i =>
          (i, putBack (String.ofList name) (.dict (putBack "required" required (putBack "properties" props d))) defs) := by
  rw [extract]
  simp only [bind, Except.bind, pure, Except.pure, infoOf]
  cases definition defs name with
  | error e => rfl
  | ok d =>
    simp only
    cases merged d with
    | error e => rfl
    | ok pr =>
      obtain ⟨props, required⟩ := pr
      simp only
      cases attrsFields props with
      | error e => rfl
      | ok a =>
        simp only
        cases pyIn "content" props with
        | error e => rfl
        | ok c =>
          simp only
          cases pyIn "marks" props with
          | error e => rfl
          | ok m =>
            simp only
            cases pyIn "text" props with
            | error e => rfl
            | ok t =>
              simp only
              cases pyIn "version" props <;> rfl

/-- The results for a definition, whatever happens to the schema. -/
def enumFor (defs : Defs) (name : Str) : Except PyErr Val := (typeEnum defs name).map (·.1)
def infoFor (defs : Defs) (name : Str) : Except PyErr Info := (extract defs name).map (·.1)

theorem enumFor_eq (defs : Defs) (name : Str) : enumFor defs name =
    match definition defs name with
    | .error e => .error e
    | .ok d => match mergedProps d with
      | .error e => .error e
      | .ok props => enumOf props name := by
  rw [enumFor, typeEnum_eq]
  cases definition defs name with
  | error e => rfl
  | ok d =>
    simp only
    cases mergedProps d with
    | error e => rfl
    | ok props => simp only; cases enumOf props name <;> rfl

theorem infoFor_eq (defs : Defs) (name : Str) : infoFor defs name =
    match definition defs name with
    | .error e => .error e
    | .ok d => match merged d with
      | .error e => .error e
      | .ok pr => infoOf pr.1 := by
  rw [infoFor, extract_eq]
  cases definition defs name with
  | error e => rfl
  | ok d =>
    simp only
    cases merged d with
    | error e => rfl
    | ok pr => simp only; cases infoOf pr.1 <;> rfl

/-- Generating from `defs'` is the same as generating from `defs`. -/
structure Eqv (defs defs' : Defs) : Prop where
  keys : defs'.map (·.1) = defs.map (·.1)
  enum : ∀ name, enumFor defs' name = enumFor defs name
  info : ∀ name, infoFor defs' name = infoFor defs name

theorem Eqv.refl (defs : Defs) : Eqv defs defs := ⟨rfl, fun _ => rfl, fun _ => rfl⟩
theorem Eqv.trans {a b c : Defs} (h : Eqv a b) (h' : Eqv b c) : Eqv a c :=
  ⟨h'.keys.trans h.keys, fun n => (h'.enum n).trans (h.enum n), fun n => (h'.info n).trans (h.info n)⟩

theorem definition_putBack (defs : Defs) (name name' : Str) (d : List (String × Val)) :
    definition (putBack (String.ofList name) (.dict d) defs) name' =
      if name = name' ∧ (lookupKey defs (String.ofList name)).isSome then .ok d else definition defs name' := by
  rw [definition, lookup_putBack]
  have : String.ofList name = String.ofList name' ↔ name = name' :=
    ⟨fun h => by simpa using congrArg String.toList h, fun h => by rw [h]⟩
  simp only [this]
  by_cases h : name = name' ∧ (lookupKey defs (String.ofList name)).isSome = true
  · rw [if_pos h, if_pos h]; rfl
  · rw [if_neg h, if_neg h]; rfl

theorem eqv_putBack {defs : Defs} {name : Str} {d d' : List (String × Val)} (hd : definition defs name = .ok d)
    (h1 : (match mergedProps d' with | .error e => .error e | .ok props => enumOf props name : Except PyErr Val) =
      (match mergedProps d with | .error e => .error e | .ok props => enumOf props name))
    (h2 : (match merged d' with | .error e => .error e | .ok pr => infoOf pr.1 : Except PyErr Info) =
      (match merged d with | .error e => .error e | .ok pr => infoOf pr.1)) :
    Eqv defs (putBack (String.ofList name) (.dict d') defs) := by
  refine ⟨keys_putBack _ _ _, fun n => ?_, fun n => ?_⟩
  · rw [enumFor_eq, enumFor_eq, definition_putBack]
    by_cases h : name = n ∧ (lookupKey defs (String.ofList name)).isSome = true
    · rw [if_pos h, ← h.1, hd]; exact h1
    · rw [if_neg h]
  · rw [infoFor_eq, infoFor_eq, definition_putBack]
    by_cases h : name = n ∧ (lookupKey defs (String.ofList name)).isSome = true
    · rw [if_pos h, ← h.1, hd]; exact h2
    · rw [if_neg h]

theorem mergedProps_of {d : List (String × Val)} {l : List Val} (h : allOf d = .ok l) :
    mergedProps d = l.foldlM mergeProps ((lookupKey d "properties").getD (.dict [])) := by rw [mergedProps, h]; rfl
theorem merged_of {d : List (String × Val)} {l : List Val} (h : allOf d = .ok l) :
    merged d = l.foldlM mergeBoth ((lookupKey d "properties").getD (.dict []), (lookupKey d "required").getD (.list [])) := by
  rw [merged, h]; rfl

theorem typeEnum_eqv {defs defs' : Defs} {name : Str} {e : Val} (h : typeEnum defs name = .ok (e, defs')) : Eqv defs defs' := by
  rw [typeEnum_eq] at h
  cases hd : definition defs name with
  | error e => rw [hd] at h; simp at h
  | ok d =>
    rw [hd] at h
    simp only at h
    cases hm : mergedProps d with
    | error e => rw [hm] at h; simp at h
    | ok P =>
      rw [hm] at h
      simp only at h
      have hdefs : defs' = putBack (String.ofList name) (.dict (putBack "properties" P d)) defs := by
        cases hx : enumOf P name with
        | error e => rw [hx] at h; simp [Except.map] at h
        | ok x => rw [hx] at h; simp [Except.map] at h; exact h.2.symm
      subst hdefs
      cases ha : allOf d with
      | error e => rw [mergedProps, ha] at hm; simp [bind, Except.bind] at hm
      | ok l =>
        rw [mergedProps_of ha] at hm
        have ha' : allOf (putBack "properties" P d) = .ok l := by rw [allOf_putBack _ _ _ (by decide), ha]
        have hp' : l.foldlM mergeProps ((lookupKey (putBack "properties" P d) "properties").getD (.dict [])) = .ok P := by
          rw [lookup_putBack]
          split
          · exact mergeAll_again hm
          · exact hm
        have hr' : lookupKey (putBack "properties" P d) "required" = lookupKey d "required" := by
          rw [lookup_putBack, if_neg (by simp)]
        apply eqv_putBack hd
        · rw [mergedProps_of ha', mergedProps_of ha, hp', hm]
        · rw [merged_of ha', merged_of ha, mergeBoth_eq hp', mergeBoth_eq hm, hr']

theorem extract_eqv {defs defs' : Defs} {name : Str} {i : Info} (h : extract defs name = .ok (i, defs')) : Eqv defs defs' := by
  rw [extract_eq] at h
  cases hd : definition defs name with
  | error e => rw [hd] at h; simp at h
  | ok d =>
    rw [hd] at h
    simp only at h
    cases hm : merged d with
    | error e => rw [hm] at h; simp at h
    | ok pr =>
      obtain ⟨P, R⟩ := pr
      rw [hm] at h
      simp only at h
      have hdefs : defs' = putBack (String.ofList name) (.dict (putBack "required" R (putBack "properties" P d))) defs := by
        cases hx : infoOf P with
        | error e => rw [hx] at h; simp [Except.map] at h
        | ok x => rw [hx] at h; simp [Except.map] at h; exact h.2.symm
      subst hdefs
      cases ha : allOf d with
      | error e => rw [merged, ha] at hm; simp [bind, Except.bind] at hm
      | ok l =>
        rw [merged_of ha] at hm
        obtain ⟨hp, hr⟩ := mergeBoth_ok hm
        have ha' : allOf (putBack "required" R (putBack "properties" P d)) = .ok l := by
          rw [allOf_putBack _ _ _ (by decide), allOf_putBack _ _ _ (by decide), ha]
        have hp' : l.foldlM mergeProps ((lookupKey (putBack "required" R (putBack "properties" P d)) "properties").getD (.dict [])) = .ok P := by
          rw [lookup_putBack, if_neg (by simp), lookup_putBack]
          split
          · exact mergeAll_again hp
          · exact hp
        have hr' : ∃ R', l.foldlM mergeRequired
            ((lookupKey (putBack "required" R (putBack "properties" P d)) "required").getD (.list [])) = .ok R' := by
          rw [lookup_putBack]
          split
          · exact requireAll_again hr
          · rw [lookup_putBack, if_neg (by simp)]; exact ⟨R, hr⟩
        obtain ⟨R', hr'⟩ := hr'
        apply eqv_putBack hd
        · rw [mergedProps_of ha', mergedProps_of ha, hp', hp]
        · rw [merged_of ha', merged_of ha, mergeBoth_eq hp', hr', hm]; rfl

end Verif.NodeGen
