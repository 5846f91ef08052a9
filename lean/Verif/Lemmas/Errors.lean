import Verif.Lemmas.Registry
/-!
# Which exceptions parsing can raise; the effect of the warning flag
-/

namespace Verif

/-- The exceptions a class's `from_dict` can raise. -/
def PyErr.isShape : PyErr → Bool
  | .keyError | .typeError | .paramError => true
  | _ => false

def PyErr.isUnimplemented : PyErr → Bool
  | .unimplementedType _ _ => true
  | _ => false

theorem checkRequired_error {fs : List Field} {g : String → Bool} {e : PyErr}
    (h : checkRequired fs g = .error e) : e = .typeError ∨ e = .paramError := by
  unfold checkRequired at h
  split at h
  · simp at h; exact .inl h.symm
  · split at h
    · simp at h; exact .inr h.symm
    · simp at h

theorem attrsFromDict_error {fs : List Field} {v : Val} {e : PyErr}
    (h : attrsFromDict fs v = .error e) : e.isShape = true := by
  cases v with
  | dict d =>
    simp only [attrsFromDict] at h
    split at h
    · next hc => simp at h; subst h; rcases checkRequired_error hc with rfl | rfl <;> rfl
    · simp at h
  | _ => simp [attrsFromDict] at h; subst h; rfl

theorem attrsStep_error {afs : Option (List Field)} {d : List (String × Val)} {e : PyErr}
    (h : attrsStep afs d = .error e) : e.isShape = true := by
  unfold attrsStep at h
  split at h
  · split at h
    · next hc => simp at h; subst h; exact attrsFromDict_error hc
    · simp at h
  · simp at h

theorem markFromDict_error {c : MarkCls} {d : List (String × Val)} {e : PyErr}
    (h : markFromDict c d = .error e) : e.isShape = true := by
  unfold markFromDict at h
  split at h
  · next hc => simp at h; subst h; exact attrsStep_error hc
  · split at h
    · next hc => simp at h; subst h; rcases checkRequired_error hc with rfl | rfl <;> rfl
    · simp at h

theorem Res.bind_error_cases {α β : Type} {x : Res α} {f : α → Res β} {e : PyErr}
    (h : (x.bind f).out = .error e) :
    x.out = .error e ∨ ∃ a, x.out = .ok a ∧ (f a).out = .error e := by
  rw [Res.bind_out] at h
  cases hx : x.out with
  | error e' => simp only [hx, Except.error.injEq] at h; exact .inl (by rw [h])
  | ok a => rw [hx] at h; exact .inr ⟨a, rfl, h⟩

theorem Res.map_error {α β : Type} {x : Res α} {g : α → β} {e : PyErr}
    (h : (x.map g).out = .error e) : x.out = .error e := by
  rw [Res.map_out] at h
  split at h
  · next hx => simp at h; subst h; exact hx
  · simp at h

theorem Res.skip_error {α : Type} {w : Bool} {x : Res α} {e : PyErr}
    (h : (x.skipUnimplemented w).out = .error e) :
    x.out = .error e ∧ e.isUnimplemented = false := by
  rw [Res.skip_out] at h
  split at h
  · simp at h
  · simp at h
  · next e' hx hne =>
    simp at h; subst h
    refine ⟨hne, ?_⟩
    cases e' <;> first | rfl | exact absurd rfl (hx _ _)

theorem parseMark_error {v : Val} {e : PyErr} (h : parseMark v = .error e)
    (hu : e.isUnimplemented = false) : e.isShape = true := by
  cases v with
  | dict d =>
    simp only [parseMark] at h
    split at h
    · simp at h; subst h; rfl
    · split at h
      · next hl => simp at h; subst h; rw [(registryLookup_error hl).1]; rfl
      · simp at h; subst h; simp [PyErr.isUnimplemented] at hu
      · exact markFromDict_error h
  | _ => simp [parseMark] at h; subst h; rfl

theorem parseMarks_error {w : Bool} {l : List Val} {e : PyErr}
    (h : (parseMarks w l).out = .error e) : e.isShape = true := by
  induction l with
  | nil => simp [parseMarks, Res.ok] at h
  | cons v vs ih =>
    rw [parseMarks] at h
    rcases Res.bind_error_cases h with h | ⟨o, _, h⟩
    · obtain ⟨h1, h2⟩ := Res.skip_error h
      exact parseMark_error h1 h2
    · exact ih (Res.map_error h)

theorem marksStep_error {w : Bool} {d : List (String × Val)} {e : PyErr}
    (h : (marksStep w d).out = .error e) : e.isShape = true := by
  unfold marksStep at h
  split at h
  · simp [Res.ok] at h
  · exact parseMarks_error (Res.map_error h)
  · simp [Res.ok] at h

theorem nodeFromDict_error {w : Bool} {c : NodeCls} {d : List (String × Val)}
    {r : Res (Option (Slot (List Node)))} {e : PyErr}
    (h : (nodeFromDict w c d r).out = .error e) (hr : ∀ e, r.out = .error e → e.isShape = true) :
    e.isShape = true := by
  unfold nodeFromDict at h
  rcases Res.bind_error_cases h with h | ⟨_, _, h⟩
  · exact attrsStep_error h
  rcases Res.bind_error_cases h with h | ⟨_, _, h⟩
  · exact hr e h
  rcases Res.bind_error_cases h with h | ⟨_, _, h⟩
  · exact marksStep_error h
  rcases Res.bind_error_cases h with h | ⟨_, _, h⟩
  · rcases checkRequired_error h with rfl | rfl <;> rfl
  · simp [Res.ok] at h

theorem parseNodes_error {w : Bool} {l : List Val} {e : PyErr}
    (hl : ∀ v ∈ l, ∀ e, (parseNode w v).out = .error e → e.isUnimplemented = false →
      e.isShape = true)
    (h : (parseNodes w l).out = .error e) : e.isShape = true := by
  induction l with
  | nil => simp [parseNodes, Res.ok] at h
  | cons v vs ih =>
    rw [parseNodes] at h
    rcases Res.bind_error_cases h with h | ⟨o, _, h⟩
    · obtain ⟨h1, h2⟩ := Res.skip_error h
      exact hl v (by simp) _ h1 h2
    · exact ih (fun v hv => hl v (List.mem_cons_of_mem _ hv)) (Res.map_error h)

theorem contentStep_error {w : Bool} {d : List (String × Val)} {e : PyErr}
    (hl : ∀ l, lookupKey d "content" = some (.list l) → ∀ v ∈ l, ∀ e,
      (parseNode w v).out = .error e → e.isUnimplemented = false → e.isShape = true)
    (h : (contentStep w d).out = .error e) : e.isShape = true := by
  rw [contentStep_eq] at h
  split at h
  · simp [Res.ok] at h
  · next l hlk => exact parseNodes_error (hl l hlk) (Res.map_error h)
  · simp [Res.ok] at h

theorem parseNode_error {w : Bool} (v : Val) : ∀ e, (parseNode w v).out = .error e →
    e.isUnimplemented = false → e.isShape = true := by
  induction v using Val.contentInduction with
  | h v ih =>
    intro e h hu
    cases v with
    | dict d =>
      rw [parseNode_dict] at h
      split at h
      · simp [Res.err] at h; subst h; rfl
      · split at h
        · next hl => simp [Res.err] at h; subst h; rw [(registryLookup_error hl).1]; rfl
        · simp [Res.err] at h; subst h; simp [PyErr.isUnimplemented] at hu
        · refine nodeFromDict_error h ?_
          intro e he
          exact contentStep_error (fun l hl v hv => ih d l v rfl hl hv) he
    | _ => simp [parseNode, Res.err] at h; subst h; rfl

theorem contentStep_error_shape {w : Bool} {d : List (String × Val)} {e : PyErr}
    (h : (contentStep w d).out = .error e) : e.isShape = true :=
  contentStep_error (fun _ _ v _ => parseNode_error v) h

/-! ## Independence of the flag -/

theorem Res.skip_out_congr {α : Type} {w w' : Bool} {x y : Res α} (h : x.out = y.out) :
    (x.skipUnimplemented w).out = (y.skipUnimplemented w').out := by
  rw [Res.skip_out, Res.skip_out, h]

theorem parseMarks_out (w w' : Bool) (l : List Val) :
    (parseMarks w l).out = (parseMarks w' l).out := by
  induction l with
  | nil => rfl
  | cons v vs ih =>
    rw [parseMarks, parseMarks]
    simp only [Res.bind_out, Res.map_out, Res.skip_out, ih]

theorem marksStep_out (w w' : Bool) (d : List (String × Val)) :
    (marksStep w d).out = (marksStep w' d).out := by
  unfold marksStep
  split
  · rfl
  · simp only [Res.map_out, parseMarks_out w w']
  · rfl

theorem parseNodes_out {w w' : Bool} {l : List Val}
    (hl : ∀ v ∈ l, (parseNode w v).out = (parseNode w' v).out) :
    (parseNodes w l).out = (parseNodes w' l).out := by
  induction l with
  | nil => rfl
  | cons v vs ih =>
    rw [parseNodes, parseNodes]
    simp only [Res.bind_out, Res.map_out, Res.skip_out, hl v (by simp),
      ih fun v hv => hl v (List.mem_cons_of_mem _ hv)]

theorem nodeFromDict_out {w w' : Bool} {c : NodeCls} {d : List (String × Val)}
    {r r' : Res (Option (Slot (List Node)))} (hr : r.out = r'.out) :
    (nodeFromDict w c d r).out = (nodeFromDict w' c d r').out := by
  unfold nodeFromDict
  simp only [Res.bind_out, hr, marksStep_out w w']

theorem parseNode_out (w w' : Bool) (v : Val) : (parseNode w v).out = (parseNode w' v).out := by
  induction v using Val.contentInduction with
  | h v ih =>
    cases v with
    | dict d =>
      rw [parseNode_dict, parseNode_dict]
      split
      · rfl
      · split
        · rfl
        · rfl
        · refine nodeFromDict_out ?_
          rw [contentStep_eq, contentStep_eq]
          split
          · rfl
          · next l hl => simp only [Res.map_out, parseNodes_out fun v hv => ih d l v rfl hl hv]
          · rfl
    | _ => rfl

theorem contentStep_out (w w' : Bool) (d : List (String × Val)) :
    (contentStep w d).out = (contentStep w' d).out := by
  rw [contentStep_eq, contentStep_eq]
  split
  · rfl
  · simp only [Res.map_out, parseNodes_out fun v _ => parseNode_out w w' v]
  · rfl

/-! ## Loop results -/

/-- `parse_node` on the entries of a list, keeping the results of those that parse. -/
theorem parseNodes_ok_iff (w : Bool) (l : List Val) (ns : List Node) :
    (parseNodes w l).out = .ok ns ↔
      (∀ v ∈ l, (∃ n, (parseNode w v).out = .ok n) ∨
        ∃ t c, (parseNode w v).out = .error (.unimplementedType t c)) ∧
      ns = l.filterMap fun v => match (parseNode w v).out with | .ok n => some n | _ => none := by
  induction l generalizing ns with
  | nil => simp [parseNodes, Res.ok, eq_comm]
  | cons v vs ih =>
    rw [parseNodes]
    simp only [Res.bind_out, Res.map_out, Res.skip_out]
    cases hv : (parseNode w v).out with
    | ok n =>
      simp only
      cases hvs : (parseNodes w vs).out with
      | ok ns' =>
        have := (ih ns').mp hvs
        simp only [Except.ok.injEq, List.mem_cons, forall_eq_or_imp, hv]
        constructor
        · intro h
          subst h
          refine ⟨⟨.inl ⟨n, rfl⟩, this.1⟩, ?_⟩
          simp [hv, ← this.2]
        · rintro ⟨-, h⟩
          rw [h]
          simp [hv, ← this.2]
      | error e =>
        simp only [reduceCtorEq, List.mem_cons, forall_eq_or_imp, false_iff, not_and]
        intro hh _
        have := (ih (vs.filterMap fun v => match (parseNode w v).out with
          | .ok n => some n | _ => none)).mpr ⟨hh.2, rfl⟩
        rw [hvs] at this
        simp at this
    | error e =>
      by_cases hu : ∃ t c, e = .unimplementedType t c
      · obtain ⟨t, c, rfl⟩ := hu
        simp only
        cases hvs : (parseNodes w vs).out with
        | ok ns' =>
          have := (ih ns').mp hvs
          simp only [Except.ok.injEq, List.mem_cons, forall_eq_or_imp, hv]
          constructor
          · intro h
            subst h
            refine ⟨⟨.inr ⟨t, c, rfl⟩, this.1⟩, ?_⟩
            simp [hv, ← this.2]
          · rintro ⟨-, h⟩
            rw [h]
            simp [hv, ← this.2]
        | error e =>
          simp only [reduceCtorEq, List.mem_cons, forall_eq_or_imp, false_iff, not_and]
          intro hh _
          have := (ih (vs.filterMap fun v => match (parseNode w v).out with
            | .ok n => some n | _ => none)).mpr ⟨hh.2, rfl⟩
          rw [hvs] at this
          simp at this
      · have hne : ∀ t c, e ≠ .unimplementedType t c := fun t c h => hu ⟨t, c, h⟩
        constructor
        · intro h
          cases e <;> first | (simp at h; done) | exact absurd rfl (hne _ _)
        · rintro ⟨h, -⟩
          rcases h v (by simp) with ⟨n, hn⟩ | ⟨t, c, hn⟩
          · rw [hv] at hn; simp at hn
          · rw [hv] at hn; simp at hn; exact absurd hn (hne _ _)

theorem parseMarks_ok_iff (w : Bool) (l : List Val) (ns : List Mark) :
    (parseMarks w l).out = .ok ns ↔
      (∀ v ∈ l, (∃ n, parseMark v = .ok n) ∨
        ∃ t c, parseMark v = .error (.unimplementedType t c)) ∧
      ns = l.filterMap fun v => match parseMark v with | .ok n => some n | _ => none := by
  induction l generalizing ns with
  | nil => simp [parseMarks, Res.ok, eq_comm]
  | cons v vs ih =>
    rw [parseMarks]
    simp only [Res.bind_out, Res.map_out, Res.skip_out, Res.ofExcept]
    cases hv : parseMark v with
    | ok n =>
      simp only
      cases hvs : (parseMarks w vs).out with
      | ok ns' =>
        have := (ih ns').mp hvs
        simp only [Except.ok.injEq, List.mem_cons, forall_eq_or_imp, hv]
        constructor
        · intro h
          subst h
          refine ⟨⟨.inl ⟨n, rfl⟩, this.1⟩, ?_⟩
          simp [hv, ← this.2]
        · rintro ⟨-, h⟩
          rw [h]
          simp [hv, ← this.2]
      | error e =>
        simp only [reduceCtorEq, List.mem_cons, forall_eq_or_imp, false_iff, not_and]
        intro hh _
        have := (ih (vs.filterMap fun v => match parseMark v with
          | .ok n => some n | _ => none)).mpr ⟨hh.2, rfl⟩
        rw [hvs] at this
        simp at this
    | error e =>
      by_cases hu : ∃ t c, e = .unimplementedType t c
      · obtain ⟨t, c, rfl⟩ := hu
        simp only
        cases hvs : (parseMarks w vs).out with
        | ok ns' =>
          have := (ih ns').mp hvs
          simp only [Except.ok.injEq, List.mem_cons, forall_eq_or_imp, hv]
          constructor
          · intro h
            subst h
            refine ⟨⟨.inr ⟨t, c, rfl⟩, this.1⟩, ?_⟩
            simp [hv, ← this.2]
          · rintro ⟨-, h⟩
            rw [h]
            simp [hv, ← this.2]
        | error e =>
          simp only [reduceCtorEq, List.mem_cons, forall_eq_or_imp, false_iff, not_and]
          intro hh _
          have := (ih (vs.filterMap fun v => match parseMark v with
            | .ok n => some n | _ => none)).mpr ⟨hh.2, rfl⟩
          rw [hvs] at this
          simp at this
      · have hne : ∀ t c, e ≠ .unimplementedType t c := fun t c h => hu ⟨t, c, h⟩
        constructor
        · intro h
          cases e <;> first | (simp at h; done) | exact absurd rfl (hne _ _)
        · rintro ⟨h, -⟩
          rcases h v (by simp) with ⟨n, hn⟩ | ⟨t, c, hn⟩
          · rw [hv] at hn; simp at hn
          · rw [hv] at hn; simp at hn; exact absurd hn (hne _ _)

end Verif
