import Verif.Lemmas.Size
/-!
# How long the Markdown of a node can be: the classes
-/

namespace Verif.Size
open Verif Verif.Weight Verif.Spec.Size

/-- What is assumed of Python's `str` and `upper`: the unset value is shown in at most 60 characters, the capital form of a
character has at most three. -/
structure EnvOk (env : Env) : Prop where
  opt : (env.strOther .opt).length ≤ 60
  upper : ∀ c, (env.upperOther c).length ≤ 3

variable {env : Env}

theorem val_len (he : EnvOk env) (v : Val) : (v.pyStr env).length ≤ 60 + valSize env v := by
  unfold valSize
  cases v with
  | opt =>
    have := he.opt
    show (env.strOther .opt).length ≤ _
    omega
  | _ => simp [Val.isOpt]

theorem attr_len (he : EnvOk env) {a : Slot AttrsObj} {name : String} {v : Val} (h : getAttr a name = .ok v) :
    (v.pyStr env).length ≤ 60 + attrsSize env a := by
  unfold getAttr at h
  split at h
  · rename_i o
    split at h
    · rename_i w hl
      cases h
      have key : ∀ d : List (String × Val), lookupKey d name = some v → valSize env v ≤ (d.map fun f => valSize env f.2).sum := by
        intro d
        induction d with
        | nil => intro h; cases h
        | cons f d ih =>
          intro h
          unfold lookupKey at h
          simp only [List.map_cons, List.sum_cons]
          split at h
          · cases h; omega
          · have := ih h; omega
      have := key _ hl
      have := val_len he v
      simp only [attrsSize]
      omega
    · cases h
  · cases h

theorem str_len {v : Val} {s : Str} (h : v.asStr? = some s) : v.pyStr env = s := by
  cases v <;> cases h
  rfl

/-! ## Marks -/

theorem rep_tab (n : Int) : ws wM (Str.rep ['\t'] n) = 0 ∧ ws wW (Str.rep ['\t'] n) = n.toNat := by
  unfold Str.rep
  rw [ws_rep, ws_rep, show ws wM ['\t'] = 0 by decide, show ws wW ['\t'] = 1 by decide]
  omega

theorem wrap_bound {pre post : Str} {v v' : Val} (h : wrapNonBlank pre post v = .ok v') :
    ws wM (v'.pyStr env) ≤ ws wM (v.pyStr env) + (ws wM pre + ws wM post) ∧
    ws wW (v'.pyStr env) ≤ ws wW (v.pyStr env) + (ws wW pre + ws wW post) := by
  unfold wrapNonBlank at h
  split at h
  · split at h
    · cases h; omega
    · cases h
      simp only [Val.pyStr, ws_append]
      omega
  · cases h

theorem mark_bound (he : EnvOk env) {L : Nat} {m : Mark} {v v' : Val} (hL : m.cls = .indentation → LevelAtMost L m.attrs)
    (h : m.toMarkdown env v = .ok v') :
    ws wM (v'.pyStr env) ≤ ws wM (v.pyStr env) + 200 * (1 + attrsSize env m.attrs) ∧
    ws wW (v'.pyStr env) ≤ ws wW (v.pyStr env) + (2000 + L) * (1 + attrsSize env m.attrs) := by
  have hLm : L ≤ L * (1 + attrsSize env m.attrs) := Nat.le_mul_of_pos_right _ (by omega)
  have same : v' = v → ws wM (v'.pyStr env) ≤ ws wM (v.pyStr env) + 200 * (1 + attrsSize env m.attrs) ∧
      ws wW (v'.pyStr env) ≤ ws wW (v.pyStr env) + (2000 + L) * (1 + attrsSize env m.attrs) := by
    rintro rfl; omega
  have wrap : ∀ pre post, wrapNonBlank pre post v = .ok v' → ws wM pre + ws wM post ≤ 100 → ws wW pre + ws wW post ≤ 100 →
      ws wM (v'.pyStr env) ≤ ws wM (v.pyStr env) + 200 * (1 + attrsSize env m.attrs) ∧
      ws wW (v'.pyStr env) ≤ ws wW (v.pyStr env) + (2000 + L) * (1 + attrsSize env m.attrs) := by
    intro pre post h h1 h2
    have := wrap_bound (env := env) h
    rw [Nat.add_mul]
    omega
  unfold Mark.toMarkdown at h
  split at h
  · exact wrap _ _ h (by decide) (by decide)
  · exact wrap _ _ h (by decide) (by decide)
  · exact wrap _ _ h (by decide) (by decide)
  · split at h
    · cases h
    · cases h
    · exact wrap _ _ h (by decide) (by decide)
  · split at h
    · cases h
    · rename_i title ht
      split at h
      · cases h
      · rename_i href hh
        simp only [Except.ok.injEq] at h
        subst h
        have h1 := attr_len he ht
        have h2 := attr_len he hh
        have m2 := M_le (href.pyStr env)
        have w2 := W_le (href.pyStr env)
        have key : ws wM (title.asStr?.getD (v.pyStr env)) ≤ ws wM (v.pyStr env) + (60 + attrsSize env m.attrs) ∧
            ws wW (title.asStr?.getD (v.pyStr env)) ≤ ws wW (v.pyStr env) + 6 * (60 + attrsSize env m.attrs) := by
          cases hs : title.asStr? with
          | none => simp only [Option.getD_none]; omega
          | some s =>
            rw [str_len hs] at h1
            have m1 := M_le s
            have w1 := W_le s
            simp only [Option.getD_some]
            omega
        have e1 : ws wM ['['] = 0 := by decide
        have e2 : ws wW ['['] = 1 := by decide
        have e3 : ws wM [']', '('] = 0 := by decide
        have e4 : ws wW [']', '('] = 2 := by decide
        have e5 : ws wM [')'] = 0 := by decide
        have e6 : ws wW [')'] = 1 := by decide
        have e7 : ∀ x : Str, Val.pyStr env (.str x) = x := fun _ => rfl
        rw [e7, ws_append, ws_append, ws_append, ws_append, ws_append, ws_append, ws_append, ws_append, Nat.add_mul]
        omega
  · rename_i hc
    split at h
    · cases h
    · rename_i level hl
      split at h
      · rename_i n hn
        cases h
        have hle : n ≤ L := by
          unfold getAttr at hl
          split at hl
          · rename_i o ho
            split at hl
            · rename_i w hw
              cases hl
              exact hL hc o level n ho hw hn
            · cases hl
          · cases hl
        have := rep_tab n
        have e7 : ∀ x : Str, Val.pyStr env (.str x) = x := fun _ => rfl
        rw [e7, Nat.add_mul]
        omega
      · cases h
  · exact same (by cases h; rfl)

theorem marks_bound (he : EnvOk env) {L : Nat} : ∀ (ms : List Mark) {v v' : Val},
    (∀ m ∈ ms, m.cls = .indentation → LevelAtMost L m.attrs) → applyMarks env v ms = .ok v' →
    ws wM (v'.pyStr env) ≤ ws wM (v.pyStr env) + 200 * (ms.map fun m => 1 + attrsSize env m.attrs).sum ∧
    ws wW (v'.pyStr env) ≤ ws wW (v.pyStr env) + (2000 + L) * (ms.map fun m => 1 + attrsSize env m.attrs).sum
  | [], v, v', _, h => by cases h; simp
  | m :: ms, v, v', hL, h => by
    unfold applyMarks at h
    simp only [List.map_cons, List.sum_cons]
    split at h
    · rename_i md hmd
      have h1 := mark_bound he (hL m List.mem_cons_self) hmd
      have h2 := marks_bound he ms (fun x hx => hL x (List.mem_cons_of_mem _ hx)) h
      rw [Nat.mul_add (2000 + L)]
      omega
    · cases h; omega
    · cases h

theorem style_bound (he : EnvOk env) {L : Nat} {marks : Slot (List Mark)} {v v' : Val}
    (hL : ∀ ms, marks = .val ms → ∀ m ∈ ms, m.cls = .indentation → LevelAtMost L m.attrs)
    (h : addStyle env v marks = .ok v') :
    ws wM (v'.pyStr env) ≤ ws wM (v.pyStr env) + 200 * marksSize env marks ∧
    ws wW (v'.pyStr env) ≤ ws wW (v.pyStr env) + (2000 + L) * marksSize env marks := by
  unfold addStyle at h
  split at h
  · rename_i ms
    exact marks_bound he ms (hL ms rfl) h
  · cases h; omega

/-! ## Closing -/

theorem finish {K L own m kc Ms0 Ws0 Ms Ws : Nat} (hK : 10000 + L ≤ K) (ho : 1 ≤ own) (h1 : Ms0 + kc ≤ 300 * m)
    (h2 : Ws0 + 16 * kc ≤ K * phi 0 m) (h3 : Ms ≤ Ms0 + 290 * own) (h4 : Ws ≤ Ws0 + 20 * Ms0 + (9000 + L) * own) :
    Ms + kc + 5 ≤ 300 * (own + m) ∧ Ws + 16 * kc + 40 ≤ K * phi 0 (own + m) := by
  refine ⟨by omega, ?_⟩
  have hm := le_own_mul (m := m) ho
  refine close0 (X := Ws0 + 16 * kc) (c1 := 6000) (c2 := 9500 + L) ho (by omega) (by omega) h2 ?_
  have e : (9500 + L) * own = (9000 + L) * own + 500 * own := by rw [← Nat.add_mul]; congr 1; omega
  omega

/-- A node that does not look at its content. -/
theorem finish_leaf {K L own m kc Ms Ws : Nat} (hK : 10000 + L ≤ K) (ho : 1 ≤ own) (hk : kc ≤ m)
    (h3 : Ms ≤ 290 * own) (h4 : Ws ≤ (9000 + L) * own) :
    Ms + kc + 5 ≤ 300 * (own + m) ∧ Ws + 16 * kc + 40 ≤ K * phi 0 (own + m) := by
  refine finish (Ms0 := 0) (Ws0 := 0) hK ho (by omega) ?_ (by omega) (by omega)
  have : m ≤ phi 0 m := by unfold phi; rw [Nat.add_zero]; exact Nat.le_mul_self m
  calc 0 + 16 * kc ≤ K * kc := by rw [Nat.zero_add]; exact Nat.mul_le_mul_right _ (by omega)
    _ ≤ K * phi 0 m := Nat.mul_le_mul_left _ (by omega)

theorem leaf_str {K L own m kc c : Nat} (hK : 10000 + L ≤ K) (ho : 1 ≤ own) (hk : kc ≤ m) {s : Str}
    (hs : s.length ≤ c * own) (hc : c ≤ 290) :
    ws wM s + kc + 5 ≤ 300 * (own + m) ∧ ws wW s + 16 * kc + 40 ≤ K * phi 0 (own + m) := by
  have h1 := M_le s
  have h2 := W_le s
  have h3 : c * own ≤ 290 * own := Nat.mul_le_mul_right _ hc
  refine finish_leaf hK ho hk (by omega) ?_
  rw [Nat.add_mul]
  omega

theorem upper_len (he : EnvOk env) (s : Str) : (upper env s).length ≤ 3 * s.length := by
  unfold upper
  induction s with
  | nil => simp
  | cons c s ih =>
    rw [List.flatMap_cons, List.length_append, List.length_cons]
    have : (upperChar env c).length ≤ 3 := by
      unfold upperChar
      split
      · simp
      · split
        · simp
        · exact he.upper c
    omega

theorem digits_len (w n : Nat) : (Spec.digits w n).length = w := by
  induction w generalizing n with
  | zero => rfl
  | succ w ih => rw [Spec.digits, List.length_append, ih]; rfl

theorem date_len {ms : Int} {s : Str} (h : Date.ofMillis ms = .ok s) : s.length = 10 := by
  unfold Date.ofMillis at h
  simp only [] at h
  split at h
  · rename_i hr
    have h1 : 1 ≤ (Date.epochOrd + (Flt.wholeSeconds (Flt.rnd ((ms : Rat) / 1000))).fdiv Date.secPerDay).toNat := by omega
    obtain ⟨hv, hd⟩ := ord2ymd_ok _ h1
    have hy : (Date.ord2ymd (Date.epochOrd + (Flt.wholeSeconds (Flt.rnd ((ms : Rat) / 1000))).fdiv
        Date.secPerDay).toNat).1 ≤ 9999 := by
      apply Nat.le_of_not_lt
      intro hlt
      have h9 : Spec.ValidDate 9999 12 31 := (dec31 9999 (by omega)).1
      have := dayNumber_lt h9 hv (.inl hlt)
      have hm := max_ok
      omega
    simp only [Except.ok.injEq] at h
    rw [← h, isoFormat_eq hv hy]
    unfold Spec.isoDate
    simp only [List.length_append, digits_len, List.length_cons, List.length_nil]
  · cases h

/-! ## A node -/

/-- The statement for a node with `own` of its own and content of size `m`. -/
def Bound (K own m : Nat) (c : Slot (List Item)) (lv : Nat) (s : Str) : Prop :=
  ws wM s + kidCount (kidsOf c) + 5 ≤ 300 * (own + m) ∧
  ws wW s + 16 * kidCount (kidsOf c) + 40 ≤ K * phi lv (own + m)

section
variable {K L own m : Nat} {c : Slot (List Item)}

/-- A node that passes its content on, adding something. -/
theorem pass (hK : 10000 + L ≤ K) (ho : 1 ≤ own) {s0 s : Str}
    (h0 : ws wM s0 + kidCount (kidsOf c) ≤ 300 * m ∧ ws wW s0 + 16 * kidCount (kidsOf c) ≤ K * phi 0 m)
    (h3 : ws wM s ≤ ws wM s0 + 290 * own) (h4 : ws wW s ≤ ws wW s0 + 20 * ws wM s0 + (9000 + L) * own) :
    Bound K own m c 0 s :=
  finish hK ho h0.1 h0.2 h3 h4

theorem bullet_node (hK : 10000 + L ≤ K) (ho : 1 ≤ own) (hc : ContentB K c m) {lv : Option Int} {ig : Bool} {s : Str}
    (h : bulletListMd c (lv.getD 0) ig = .ok s) : Bound K own m c (lvl lv) s := by
  unfold bulletListMd at h
  split at h
  · cases h
  · rename_i items hi
    split at h
    · cases h
    · rename_i lines hl
      cases h
      obtain ⟨ns, hf, hm, hk⟩ := hc items hi
      have b := bullet_bound (K := K) (by omega) hf hl
      have hkc : kidCount (kidsOf c) ≤ ns.length := by rcases hk with h | h <;> omega
      have j1 := ws_join (w := wM) [Str.nl] lines
      have j2 := ws_join (w := wW) [Str.nl] lines
      rw [show ws wM [Str.nl] = 1 by decide] at j1
      rw [show ws wW [Str.nl] = 4 by decide] at j2
      refine ⟨by omega, ?_⟩
      refine close (X := K * phi (lvl lv + 1) m) (c1 := 0) (c2 := 40) ho (by omega) (by omega) (Nat.le_refl _) ?_
      have := Nat.mul_le_mul_left K (phi_mono (lv := lvl lv + 1) hm)
      have e : lvl lv = (lv.getD 0).toNat := rfl
      rw [← e] at b
      omega

theorem ordered_node (he : EnvOk env) (hK : 10000 + L ≤ K) (ho : 1 ≤ own) (hc : ContentB K c m) {attrs : Slot AttrsObj}
    (ha : attrsSize env attrs ≤ own) {lv : Option Int} {ig : Bool} {s : Str}
    (h : orderedListMd env attrs c (lv.getD 0) ig = .ok s) : Bound K own m c (lvl lv) s := by
  unfold orderedListMd at h
  split at h
  · cases h
  · rename_i start hst
    split at h
    · cases h
    · rename_i items hi
      split at h
      · cases h
      · rename_i lines hl
        cases h
        obtain ⟨ns, hf, hm, hk⟩ := hc items hi
        have hstart : start.asInt?.isSome = true ∧ (start.pyStr env).length ≤ 61 * own := by
          have one : (Val.int 1).asInt?.isSome = true ∧ ((Val.int 1).pyStr env).length ≤ 61 * own := by
            refine ⟨rfl, ?_⟩
            show (Str.ofInt 1).length ≤ _
            rw [show (Str.ofInt 1).length = 1 by decide]
            omega
          unfold orderedStart at hst
          split at hst
          · split at hst
            · cases hst
            · rename_i order hor
              split at hst
              · rename_i hint
                cases hst
                have := attr_len he hor
                exact ⟨hint, by omega⟩
              · cases hst; exact one
          · cases hst; exact one
        have b := ordered_bound (K := K) (by omega) hf hstart.1 hstart.2 hl
        have hkc : kidCount (kidsOf c) ≤ ns.length := by rcases hk with h | h <;> omega
        have j1 := ws_join (w := wM) [Str.nl] lines
        have j2 := ws_join (w := wW) [Str.nl] lines
        rw [show ws wM [Str.nl] = 1 by decide] at j1
        rw [show ws wW [Str.nl] = 4 by decide] at j2
        refine ⟨by omega, ?_⟩
        refine close (X := K * phi (lvl lv + 1) m) (c1 := 61) (c2 := 40) ho (by omega) (by omega) (Nat.le_refl _) ?_
        have := Nat.mul_le_mul_left K (phi_mono (lv := lvl lv + 1) hm)
        have e : lvl lv = (lv.getD 0).toNat := rfl
        rw [← e] at b
        have hD : 61 * own * ns.length ≤ 61 * (own * m) := by
          rw [Nat.mul_assoc]
          exact Nat.mul_le_mul_left _ (Nat.mul_le_mul_left _ (by omega))
        omega

theorem task_node (hK : 10000 + L ≤ K) (ho : 1 ≤ own) (hc : ContentB K c m) {lv : Option Int} {ig : Bool} {s : Str}
    (h : taskListMd c (lv.getD 0) ig = .ok s) : Bound K own m c (lvl lv) s := by
  unfold taskListMd at h
  split at h
  · cases h
  · rename_i items hi
    split at h
    · cases h
    · rename_i lines hl
      obtain ⟨ns, hf, hm, hk⟩ := hc items hi
      have b := task_bound (K := K) (by omega) hf hl
      have hkc : kidCount (kidsOf c) ≤ ns.length := by rcases hk with h | h <;> omega
      have j1 := strJoin_ws (w := wM) h
      have j2 := strJoin_ws (w := wW) h
      rw [show ws wM [Str.nl] = 1 by decide] at j1
      rw [show ws wW [Str.nl] = 4 by decide] at j2
      refine ⟨by omega, ?_⟩
      refine close (X := K * phi (lvl lv + 1) m) (c1 := 0) (c2 := 40) ho (by omega) (by omega) (Nat.le_refl _) ?_
      have := Nat.mul_le_mul_left K (phi_mono (lv := lvl lv + 1) hm)
      have e : lvl lv = (lv.getD 0).toNat := rfl
      rw [← e] at b
      omega

theorem decisionItem_node (hK : 10000 + L ≤ K) (ho : 1 ≤ own) (hc : ContentB K c m) {ig : Bool} {s : Str}
    (h : decisionItemMd c ig = .ok s) : Bound K own m c 0 s := by
  unfold decisionItemMd at h
  split at h
  · cases h
  · rename_i t ht
    cases h
    refine pass hK ho (content_sum (by omega) hc ht (by decide) (by decide)) ?_ ?_
    · have r := ws_rstrip (w := wM) t
      have a := total_split (w := wM) 1 (by decide) (Str.rstrip t)
      have b := total_decision (w := wM) 1 (Str.splitNL (Str.rstrip t)) 0 false
      have d := ws_join (w := wM) [Str.nl] (decisionLoop 0 false (Str.splitNL (Str.rstrip t)))
      rw [show ws wM [Str.nl] = 1 by decide] at d
      rw [show wM '>' + wM ' ' = 0 by decide] at b
      omega
    · have r := ws_rstrip (w := wM) t
      have r' := ws_rstrip (w := wW) t
      have a := total_split (w := wW) 4 (by decide) (Str.rstrip t)
      have b := total_decision (w := wW) 4 (Str.splitNL (Str.rstrip t)) 0 false
      have d := ws_join (w := wW) [Str.nl] (decisionLoop 0 false (Str.splitNL (Str.rstrip t)))
      have f := split_length wM (by decide) (Str.rstrip t)
      rw [show ws wW [Str.nl] = 4 by decide] at d
      rw [show wW '>' + wW ' ' = 7 by decide] at b
      rw [Nat.add_mul]
      omega

theorem decisionList_node (hK : 10000 + L ≤ K) (ho : 1 ≤ own) (hc : ContentB K c m) {ig : Bool} {s : Str}
    (h : decisionListMd c ig = .ok s) : Bound K own m c 0 s := by
  unfold decisionListMd at h
  split at h
  · cases h
  · rename_i items hi
    split at h
    · cases h
    · rename_i l hl
      obtain ⟨ns, hf, hm, hk⟩ := hc items hi
      have b := decision_bound (K := K) (by omega) hf hl
      have hs := sumB_of (lv := 0) (K := K) (by omega) hm hk b.1 b.2
      have j1 := Nat.le_trans (strJoin_ws (w := wM) h) (vw_mono (by decide : ws wM [Str.nl, Str.nl] ≤ 4) _)
      have j2 := Nat.le_trans (strJoin_ws (w := wW) h) (vw_mono (by decide : ws wW [Str.nl, Str.nl] ≤ 20) _)
      unfold SumB at hs
      exact pass (s0 := s) hK ho ⟨by omega, by omega⟩ (by omega) (by omega)

theorem row_node (hK : 10000 + L ≤ K) (ho : 1 ≤ own) (hc : ContentB K c m) {ig : Bool} {s : Str}
    (h : tableRowMd c ig = .ok s) : Bound K own m c 0 s := by
  unfold tableRowMd at h
  split at h
  · cases h
  · rename_i items hi
    split at h
    · cases h
    · rename_i l hl
      split at h
      · cases h
      · rename_i t ht
        cases h
        obtain ⟨ns, hf, hm, hk⟩ := hc items hi
        have b := row_bound (K := K) hf hl
        have hs := sumB_of (lv := 0) (K := K) (by omega) hm hk b.1 b.2
        have j1 := Nat.le_trans (strJoin_ws (w := wM) ht) (vw_mono (by decide : ws wM [' ', '|', ' '] ≤ 4) _)
        have j2 := Nat.le_trans (strJoin_ws (w := wW) ht) (vw_mono (by decide : ws wW [' ', '|', ' '] ≤ 20) _)
        unfold SumB at hs
        have e1 : ws wM ['|', ' '] = 1 := by decide
        have e2 : ws wW ['|', ' '] = 7 := by decide
        have e3 : ws wM [' ', '|'] = 1 := by decide
        have e4 : ws wW [' ', '|'] = 7 := by decide
        refine pass (s0 := t) hK ho ⟨by omega, by omega⟩ ?_ ?_
        · unfold pipeRow; rw [ws_append, ws_append]; omega
        · unfold pipeRow; rw [ws_append, ws_append, Nat.add_mul]; omega

theorem table_node (hK : 10000 + L ≤ K) (ho : 1 ≤ own) (hc : ContentB K c m) {ig : Bool} {s : Str}
    (h : tableMd c ig = .ok s) : Bound K own m c 0 s := by
  unfold tableMd at h
  split at h
  · cases h
  · rename_i items hi
    split at h
    · cases h
    · rename_i l hl
      obtain ⟨ns, hf, hm, hk⟩ := hc items hi
      rcases table_bound (K := K) (by omega) hf hl with b | b
      · have r1 := room (g := fun n => 300 * n) (m := 300 * m) (fun n h => by omega) hk b.1 (by rw [sum_lin]; omega)
        have r2 := room (g := fun n => K * phi 0 n) (fun n h => phi_one (by omega) h) hk b.2
            (Nat.le_trans (sum_phi K 0 ns) (Nat.mul_le_mul_left _ (phi_mono hm)))
        have j1 := strJoin_ws (w := wM) h
        have j2 := strJoin_ws (w := wW) h
        rw [show ws wM [Str.nl] = 1 by decide] at j1
        rw [show ws wW [Str.nl] = 4 by decide] at j2
        exact pass (s0 := s) hK ho ⟨by omega, by omega⟩ (by omega) (by omega)
      · exact absurd b (strJoin_str h)

theorem total_nbsp {w : Char → Nat} {k : Nat} (h : ws w "&nbsp;".toList ≤ w ' ') : ∀ l : List Str,
    total w k (l.map nbspLine) ≤ total w k l
  | [] => Nat.le_refl _
  | a :: l => by
    have := total_nbsp (k := k) h l
    have := ws_nbsp h a
    simp only [List.map_cons, total]
    omega

theorem total_le {w : Char → Nat} {k k' : Nat} (h : k ≤ k') : ∀ l : List Str, total w k l ≤ total w k' l
  | [] => Nat.le_refl _
  | a :: l => by
    have := total_le (w := w) h l
    simp only [total]
    omega

theorem cell_node (hK : 10000 + L ≤ K) (ho : 1 ≤ own) (hc : ContentB K c m) {ig : Bool} {s : Str}
    (h : cellMd c ig = .ok s) : Bound K own m c 0 s := by
  unfold cellMd at h
  split at h
  · cases h
  · rename_i t ht
    cases h
    refine pass hK ho (content_sum (by omega) hc ht (by decide) (by decide)) ?_ ?_
    · have p := ws_pipes (w := wM) t
      rw [show wM '\\' = 0 by decide] at p
      have a := total_split (w := wM) 1 (by decide) (Str.replace ['|'] ['\\', '|'] t)
      have b := total_nbsp (w := wM) (k := 0) (by decide) (Str.splitNL (Str.replace ['|'] ['\\', '|'] t))
      have b' := total_le (w := wM) (k := 0) (k' := 1) (by omega) (Str.splitNL (Str.replace ['|'] ['\\', '|'] t))
      have d := ws_join (w := wM) "<br>".toList ((Str.splitNL (Str.replace ['|'] ['\\', '|'] t)).map nbspLine)
      rw [show ws wM "<br>".toList = 0 by decide] at d
      omega
    · have p := ws_pipes (w := wW) t
      rw [show wW '\\' = 1 by decide] at p
      have q := count_le t
      have a := total_split (w := wW) 4 (by decide) (Str.replace ['|'] ['\\', '|'] t)
      have b := total_nbsp (w := wW) (k := 4) (by decide) (Str.splitNL (Str.replace ['|'] ['\\', '|'] t))
      have d := ws_join (w := wW) "<br>".toList ((Str.splitNL (Str.replace ['|'] ['\\', '|'] t)).map nbspLine)
      rw [show ws wW "<br>".toList = 4 by decide] at d
      rw [Nat.add_mul]
      omega

theorem quote_ws (s : Str) : ws wM (Str.indentAll ['>', ' '] s) ≤ ws wM s ∧
    ws wW (Str.indentAll ['>', ' '] s) ≤ ws wW s + 7 * (ws wM s + 1) := by
  have a := ws_indentAll (w := wM) ['>', ' '] s wM wM_break
  have b := ws_indentAll (w := wW) ['>', ' '] s wM wM_break
  rw [show ws wM ['>', ' '] = 0 by decide] at a
  rw [show ws wW ['>', ' '] = 7 by decide] at b
  omega

theorem quote_node (hK : 10000 + L ≤ K) (ho : 1 ≤ own) (hc : ContentB K c m) {ig : Bool} {s : Str}
    (h : blockquoteMd c ig = .ok s) : Bound K own m c 0 s := by
  unfold blockquoteMd at h
  split at h
  · cases h
  · rename_i t ht
    cases h
    have q := quote_ws (stripDoubleEmptyLine 3 t)
    have a := ws_strip3 (w := wM) 3 t
    have b := ws_strip3 (w := wW) 3 t
    have e1 : ws wM [Str.nl] = 1 := by decide
    have e2 : ws wW [Str.nl] = 4 := by decide
    refine pass hK ho (doc_sum (by omega) hc ht) ?_ ?_
    · rw [ws_append]; omega
    · rw [ws_append, Nat.add_mul]; omega

theorem panel_node (he : EnvOk env) (hK : 10000 + L ≤ K) (ho : 1 ≤ own) (hc : ContentB K c m) {attrs : Slot AttrsObj}
    (ha : attrsSize env attrs ≤ own) {ig : Bool} {s : Str} (h : panelMd env attrs c ig = .ok s) : Bound K own m c 0 s := by
  unfold panelMd at h
  split at h
  · cases h
  · rename_i pt hpt
    split at h
    · cases h
    · rename_i ptype hp
      split at h
      · cases h
      · rename_i t ht
        cases h
        have l1 := attr_len he hpt
        rw [str_len hp] at l1
        have l2 := upper_len he ptype
        have l3 := M_le (upper env ptype)
        have l4 := W_le (upper env ptype)
        have q := quote_ws (stripDoubleEmptyLine 3 (Str.join [Str.nl] [['*', '*'] ++ upper env ptype ++ ['*', '*'], [], t]))
        have a := ws_strip3 (w := wM) 3 (Str.join [Str.nl] [['*', '*'] ++ upper env ptype ++ ['*', '*'], [], t])
        have b := ws_strip3 (w := wW) 3 (Str.join [Str.nl] [['*', '*'] ++ upper env ptype ++ ['*', '*'], [], t])
        have j1 := ws_join (w := wM) [Str.nl] [['*', '*'] ++ upper env ptype ++ ['*', '*'], [], t]
        have j2 := ws_join (w := wW) [Str.nl] [['*', '*'] ++ upper env ptype ++ ['*', '*'], [], t]
        have e1 : ws wM [Str.nl] = 1 := by decide
        have e2 : ws wW [Str.nl] = 4 := by decide
        have e3 : ws wM ['*', '*'] = 0 := by decide
        have e4 : ws wW ['*', '*'] = 2 := by decide
        rw [e1] at j1
        rw [e2] at j2
        simp only [total, ws_append, ws_nil] at j1 j2
        rw [e3] at j1
        rw [e4] at j2
        refine pass (s0 := t) hK ho (doc_sum (by omega) hc ht) ?_ ?_
        · rw [ws_append]; omega
        · rw [ws_append, Nat.add_mul]; omega

end

end Verif.Size
