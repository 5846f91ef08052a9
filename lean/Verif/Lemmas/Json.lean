import Verif.Model.Json
import Mathlib.Data.List.Basic
import Mathlib.Tactic.Common
/-!
# Facts about `json.loads` and `json.dumps`
-/

namespace Verif.Json

/-- Text behind which a number cannot go on. -/
def Delim (t : Str) : Prop :=
  t = [] ∨ ∃ c r, t = c :: r ∧ (isWs c = true ∨ c = ',' ∨ c = ']' ∨ c = '}')

/-- Characters a JSON text can have outside of nothing: no control character but white space. -/
def Plain (c : Char) : Prop := 32 ≤ c.toNat ∨ isWs c = true

theorem plain_ge {c : Char} (h : 32 ≤ c.toNat) : Plain c := Or.inl h

theorem skipWs_spec (s : Str) : ∃ w, s = w ++ skipWs s ∧ ∀ c ∈ w, isWs c = true := by
  refine ⟨s.takeWhile isWs, (List.takeWhile_append_dropWhile).symm, fun c h => ?_⟩
  have := List.all_takeWhile (p := isWs) (l := s)
  exact (List.all_eq_true.1 this) c h

theorem skipWs_ws (w s : Str) (h : ∀ c ∈ w, isWs c = true) : skipWs (w ++ s) = skipWs s := by
  induction w with
  | nil => rfl
  | cons c w ih =>
    have hc := h c (by simp)
    simp only [skipWs, List.cons_append, List.dropWhile_cons, hc, if_true]
    exact ih fun d hd => h d (by simp [hd])

theorem skipWs_cons {c : Char} {s : Str} (h : isWs c = false) : skipWs (c :: s) = c :: s := by
  simp [skipWs, h]

theorem skipWs_idem (s : Str) : skipWs (skipWs s) = skipWs s := by
  obtain ⟨w, hw, hw'⟩ := skipWs_spec s
  conv_rhs => rw [hw]
  rw [skipWs_ws _ _ hw']

/-! ## Strings -/

theorem hexVal_ge {c : Char} {n : Nat} (h : hexVal c = some n) : 32 ≤ c.toNat := by
  unfold hexVal at h
  simp only at h
  split at h
  · omega
  split at h
  · omega
  split at h
  · omega
  · simp at h

theorem hex4_ge {a b c d : Char} {n : Nat} (h : hex4 a b c d = some n) :
    32 ≤ a.toNat ∧ 32 ≤ b.toNat ∧ 32 ≤ c.toNat ∧ 32 ≤ d.toNat := by
  unfold hex4 at h
  cases h1 : hexVal a <;> simp [h1] at h
  cases h2 : hexVal b <;> simp [h2] at h
  cases h3 : hexVal c <;> simp [h3] at h
  cases h4 : hexVal d <;> simp [h4] at h
  exact ⟨hexVal_ge h1, hexVal_ge h2, hexVal_ge h3, hexVal_ge h4⟩

theorem unescape_ge {c x : Char} (h : unescape c = some x) : 32 ≤ c.toNat := by
  unfold unescape at h
  split at h; · subst c; decide
  split at h; · subst c; decide
  split at h; · subst c; decide
  split at h; · subst c; decide
  split at h; · subst c; decide
  split at h; · subst c; decide
  split at h; · subst c; decide
  split at h; · subst c; decide
  simp at h

/-- A scanned string depends only on the text it consumed, which has no control character. -/
theorem scanStr_spec (s : Str) : ∀ x r, scanStr s = some (x, r) →
    ∃ q, s = q ++ r ∧ q ≠ [] ∧ (∀ c ∈ q, 32 ≤ c.toNat) ∧ ∀ r', scanStr (q ++ r') = some (x, r') := by
  fun_induction scanStr s
  all_goals intro x r h
  all_goals simp only [Option.map_eq_some_iff, Prod.mk.injEq, reduceCtorEq, Option.some.injEq] at h
  case case2 =>
    obtain ⟨rfl, rfl⟩ := h
    refine ⟨['"'], rfl, by simp, by simp, fun r' => ?_⟩
    rw [List.singleton_append, scanStr.eq_def]; simp
  case case6 hx hu a b c d e f r2 hb w hw hw' hq ih =>
    obtain ⟨⟨y, r0⟩, h1, rfl, rfl⟩ := h
    obtain ⟨q, h2, h3, h4, h5⟩ := ih _ _ h1
    have e1 := hex4_ge hx
    have e2 := hex4_ge hw
    obtain ⟨rfl, rfl⟩ := hb
    refine ⟨'\\' :: 'u' :: _ :: _ :: _ :: _ :: '\\' :: 'u' :: _ :: _ :: _ :: _ :: q, by simp only [h2]; rfl, by simp, ?_, ?_⟩
    · simp only [List.mem_cons, forall_eq_or_imp]
      exact ⟨by decide, by decide, e1.1, e1.2.1, e1.2.2.1, e1.2.2.2, by decide, by decide, e2.1, e2.2.1, e2.2.2.1, e2.2.2.2, h4⟩
    · intro r'
      simp only [List.cons_append]
      rw [scanStr.eq_def]
      simp [hx, hu, hw, hw', h5]
  case case11 hx hu hl hq ih =>
    obtain ⟨⟨y, r0⟩, h1, rfl, rfl⟩ := h
    obtain ⟨q, h2, h3, h4, h5⟩ := ih _ _ h1
    have e1 := hex4_ge hx
    refine ⟨'\\' :: 'u' :: _ :: _ :: _ :: _ :: q, by simp only [h2]; rfl, by simp, ?_, ?_⟩
    · simp only [List.mem_cons, forall_eq_or_imp]
      exact ⟨by decide, by decide, e1.1, e1.2.1, e1.2.2.1, e1.2.2.2, h4⟩
    · intro r'
      simp only [List.cons_append]
      rw [scanStr.eq_def]
      simp [hx, hu, hl, h5]
  case case14 hu x hx hq ih =>
    obtain ⟨⟨y, r0⟩, h1, rfl, rfl⟩ := h
    obtain ⟨q, h2, h3, h4, h5⟩ := ih _ _ h1
    refine ⟨'\\' :: _ :: q, by simp only [h2]; rfl, by simp, ?_, ?_⟩
    · simp only [List.mem_cons, forall_eq_or_imp]
      exact ⟨by decide, unescape_ge hx, h4⟩
    · intro r'
      simp only [List.cons_append]
      rw [scanStr.eq_def]
      simp [hx, hu, h5]
  case case16 h1 h2 h3 ih =>
    obtain ⟨⟨y, r0⟩, h4, rfl, rfl⟩ := h
    obtain ⟨q, h5, h6, h7, h8⟩ := ih _ _ h4
    refine ⟨_ :: q, by simp only [h5]; rfl, by simp, ?_, ?_⟩
    · simp only [List.mem_cons, forall_eq_or_imp]
      exact ⟨by omega, h7⟩
    · intro r'
      simp only [List.cons_append]
      rw [scanStr.eq_def]
      simp [h1, h2, h3, h8]

/-! ## Numbers -/

theorem isDigit_ge {c : Char} (h : isDigit c = true) : 32 ≤ c.toNat := by
  simp only [isDigit, Bool.and_eq_true, decide_eq_true_eq] at h; omega

theorem takeWhile_digit (s : Str) : ∀ c ∈ s.takeWhile isDigit, isDigit c = true := fun c h =>
  (List.all_eq_true.1 (List.all_takeWhile (p := isDigit) (l := s))) c h

/-- Neither a digit nor a point comes first. -/
def Stop (t : Str) : Prop := ∀ c r, t = c :: r → isDigit c = false ∧ c ≠ '.'

theorem Delim.cases {c : Char} {r : Str} (h : Delim (c :: r)) : isWs c = true ∨ c = ',' ∨ c = ']' ∨ c = '}' := by
  rcases h with h | ⟨c', r', h, h'⟩
  · simp at h
  · cases h; exact h'

theorem isWs_cases {c : Char} (h : isWs c = true) : c = ' ' ∨ c = '\t' ∨ c = '\n' ∨ c = '\r' := by
  simpa [isWs, or_assoc] using h

theorem Delim.cases' {c : Char} {r : Str} (h : Delim (c :: r)) :
    c = ' ' ∨ c = '\t' ∨ c = '\n' ∨ c = '\r' ∨ c = ',' ∨ c = ']' ∨ c = '}' := by
  rcases h.cases with h | h | h | h
  · rcases isWs_cases h with h | h | h | h <;> simp [h]
  all_goals simp [h]

theorem Delim.stop {t : Str} (h : Delim t) : Stop t := by
  rintro c r rfl
  rcases h.cases' with h | h | h | h | h | h | h <;> subst h <;> decide

theorem takeWhile_app {d b : Str} (hd : ∀ c ∈ d, isDigit c = true) (hb : Stop b) :
    (d ++ b).takeWhile isDigit = d ∧ (d ++ b).dropWhile isDigit = b := by
  induction d with
  | nil =>
    cases b with
    | nil => simp
    | cons c r => simp [(hb c r rfl).1]
  | cons c d ih =>
    have := ih fun x hx => hd x (by simp [hx])
    have hc := hd c (by simp)
    simp [hc, this]

theorem scanFrac_spec (s : Str) : s = (scanFrac s).1 ++ (scanFrac s).2 ∧ (∀ c ∈ (scanFrac s).1, 32 ≤ c.toNat) ∧
    ∀ b, Stop b → scanFrac ((scanFrac s).1 ++ b) = ((scanFrac s).1, b) := by
  have hn : ∀ b, Stop b → scanFrac ([] ++ b) = ([], b) := by
    intro b hb
    rw [List.nil_append]
    unfold scanFrac
    split
    · exact absurd rfl (hb _ _ rfl).2
    · rfl
  unfold scanFrac
  split
  case h_1 s =>
    by_cases he : (s.takeWhile isDigit).isEmpty = true
    · simp only [he, if_true]
      exact ⟨rfl, by simp, hn⟩
    · simp only [he, Bool.false_eq_true, if_false]
      refine ⟨by simp, ?_, ?_⟩
      · simp only [List.mem_cons, forall_eq_or_imp]
        exact ⟨by decide, fun c hc => isDigit_ge (takeWhile_digit s c hc)⟩
      · intro b hb
        have := takeWhile_app (takeWhile_digit s) hb
        simp only [List.cons_append]
        simp only [this]
        simp [he]
  case h_2 => exact ⟨rfl, by simp, hn⟩

theorem scanExp_spec (s : Str) : s = (scanExp s).1 ++ (scanExp s).2 ∧ (∀ c ∈ (scanExp s).1, 32 ≤ c.toNat) ∧
    (∀ b, Delim b → scanExp ((scanExp s).1 ++ b) = ((scanExp s).1, b)) ∧
    ∀ b, Delim b → Stop ((scanExp s).1 ++ b) := by
  have hn : ∀ b, Delim b → scanExp ([] ++ b) = ([], b) := by
    intro b hb
    rw [List.nil_append]
    unfold scanExp
    split
    · rfl
    · rename_i e s
      have : ¬ (e = 'e' ∨ e = 'E') := by
        rcases hb.cases' with h | h | h | h | h | h | h <;> subst h <;> decide
      simp [this]
  have hn' : ∀ b, Delim b → Stop ([] ++ b) := fun b hb => hb.stop
  cases s with
  | nil => exact ⟨by simp [scanExp], by simp [scanExp], hn, hn'⟩
  | cons e s =>
    by_cases he : e = 'e' ∨ e = 'E'
    swap
    · have h0 : scanExp (e :: s) = ([], e :: s) := by simp [scanExp, he]
      rw [h0]
      exact ⟨rfl, by simp, hn, hn'⟩
    · obtain ⟨g, hg⟩ : ∃ g : Str, g = scanSign s := ⟨_, rfl⟩
      have h0 : scanExp (e :: s) = if ((s.drop g.length).takeWhile isDigit).isEmpty then ([], e :: s)
          else (e :: g ++ (s.drop g.length).takeWhile isDigit, (s.drop g.length).dropWhile isDigit) := by
        simp only [scanExp, if_pos he, ← hg]
      have hs : s = g ++ s.drop g.length := by
        cases s with
        | nil => simp [hg, scanSign]
        | cons c r =>
          rw [scanSign] at hg
          by_cases hc : c = '-' ∨ c = '+'
          · simp [hg, hc]
          · simp [hg, hc]
      have hgc : g = [] ∨ g = ['-'] ∨ g = ['+'] := by
        cases s with
        | nil => simp [hg, scanSign]
        | cons c r =>
          rw [scanSign] at hg
          by_cases hc : c = '-' ∨ c = '+'
          · rw [if_pos hc] at hg; rcases hc with rfl | rfl <;> simp [hg]
          · rw [if_neg hc] at hg; simp [hg]
      rw [h0]
      by_cases hd : ((s.drop g.length).takeWhile isDigit).isEmpty = true
      · rw [if_pos hd]
        exact ⟨rfl, by simp, hn, hn'⟩
      · rw [if_neg hd]
        refine ⟨?_, ?_, ?_, ?_⟩
        · simp only [List.cons_append, List.append_assoc, List.takeWhile_append_dropWhile, ← hs]
        · intro c hc
          simp only [List.cons_append, List.mem_cons, List.mem_append] at hc
          rcases hc with rfl | hc | hc
          · rcases he with rfl | rfl <;> decide
          · rcases hgc with h | h | h <;> rw [h] at hc <;> simp at hc <;> subst hc <;> decide
          · exact isDigit_ge (takeWhile_digit _ c hc)
        · intro b hb
          set d := (s.drop g.length).takeWhile isDigit with hd'
          have hdd : ∀ c ∈ d, isDigit c = true := takeWhile_digit _
          have h1 := takeWhile_app hdd hb.stop
          have hd0 : d ≠ [] := by simpa using hd
          obtain ⟨c0, d0, hc0⟩ : ∃ c0 d0, d = c0 :: d0 := List.exists_cons_of_ne_nil hd0
          have hc0d : isDigit c0 = true := hdd c0 (by simp [hc0])
          simp only [List.cons_append, List.append_assoc]
          have hg2 : scanSign (g ++ (d ++ b)) = g := by
            rcases hgc with h | h | h
            · rw [h, hc0]
              have : ¬ (c0 = '-' ∨ c0 = '+') := by
                rintro (rfl | rfl) <;> revert hc0d <;> decide
              simp [scanSign, this]
            · rw [h]; simp [scanSign]
            · rw [h]; simp [scanSign]
          simp only [scanExp, if_pos he, hg2, List.drop_left, h1]
          simp [hd0]
        · rintro b hb c r h
          simp only [List.cons_append, List.cons.injEq] at h
          obtain ⟨rfl, -⟩ := h
          rcases he with rfl | rfl <;> decide

theorem scanUnsigned_spec (rf : Str → Str) (neg : Bool) (s : Str) (v : Val) (r : Str)
    (h : scanUnsigned rf neg s = some (v, r)) :
    ∃ q, s = q ++ r ∧ q ≠ [] ∧ (∀ c ∈ q, 32 ≤ c.toNat) ∧ ∀ r', Delim r' → scanUnsigned rf neg (q ++ r') = some (v, r') := by
  cases s with
  | nil => simp [scanUnsigned] at h
  | cons c cs =>
    by_cases hc : isDigit c = true
    swap
    · simp [scanUnsigned, hc] at h
    obtain ⟨d, hd⟩ : ∃ d : Str, d = if c = '0' then [] else cs.takeWhile isDigit := ⟨_, rfl⟩
    obtain ⟨t, ht⟩ : ∃ t : Str, t = if c = '0' then cs else cs.dropWhile isDigit := ⟨_, rfl⟩
    have hdt : cs = d ++ t := by rw [hd, ht]; split <;> simp
    have hdd : ∀ x ∈ d, isDigit x = true := by
      rw [hd]; split
      · simp
      · exact takeWhile_digit cs
    have hi : (if c = '0' then ['0'] else c :: cs.takeWhile isDigit) = c :: d := by
      rw [hd]; split
      · rename_i h; rw [h]
      · rfl
    have key : ∀ cs' d' t' : Str, d' = (if c = '0' then [] else cs'.takeWhile isDigit) →
        t' = (if c = '0' then cs' else cs'.dropWhile isDigit) →
        scanUnsigned rf neg (c :: cs') =
          if (scanFrac t').1.isEmpty && (scanExp (scanFrac t').2).1.isEmpty then
            some (.int (if neg then -(digitsVal (c :: d') : Int) else (digitsVal (c :: d') : Int)), (scanExp (scanFrac t').2).2)
          else some (.float (rf ((if neg then ['-'] else []) ++ (c :: d') ++ (scanFrac t').1 ++ (scanExp (scanFrac t').2).1)),
            (scanExp (scanFrac t').2).2) := by
      intro cs' d' t' h1 h2
      have hi' : (if c = '0' then ['0'] else c :: cs'.takeWhile isDigit) = c :: d' := by
        rw [h1]; split
        · rename_i h; rw [h]
        · rfl
      rw [scanUnsigned, if_pos hc]
      simp only [hi', ← h2]
    obtain ⟨f1, f2, f3⟩ := scanFrac_spec t
    obtain ⟨e1, e2, e3, e4⟩ := scanExp_spec (scanFrac t).2
    have hr : r = (scanExp (scanFrac t).2).2 := by
      rw [key cs d t hd ht] at h
      split at h <;> (cases h; rfl)
    refine ⟨c :: d ++ (scanFrac t).1 ++ (scanExp (scanFrac t).2).1, ?_, by simp, ?_, ?_⟩
    · rw [hr, List.append_assoc, ← e1, List.append_assoc, ← f1, List.cons_append, ← hdt]
    · intro x hx
      simp only [List.cons_append, List.append_assoc, List.mem_cons, List.mem_append] at hx
      rcases hx with rfl | hx | hx | hx
      · exact isDigit_ge hc
      · exact isDigit_ge (hdd x hx)
      · exact f2 x hx
      · exact e2 x hx
    · intro r' hr'
      have g1 := f3 _ (e4 r' hr')
      have g2 := e3 r' hr'
      obtain ⟨t', ht'⟩ : ∃ t', t' = (scanFrac t).1 ++ ((scanExp (scanFrac t).2).1 ++ r') := ⟨_, rfl⟩
      have hstop : c = '0' ∨ Stop t' ∨ (∃ u, t' = '.' :: u) := by
        right
        rw [ht']
        cases hf : (scanFrac t).1 with
        | nil => left; simpa using e4 r' hr'
        | cons x y =>
          right
          have : x = '.' := by
            unfold scanFrac at hf
            split at hf
            · simp only at hf
              split at hf <;> simp at hf
              exact hf.1.symm
            · simp at hf
          exact ⟨y ++ ((scanExp (scanFrac t).2).1 ++ r'), by rw [this]; rfl⟩
      have htd : (d ++ t').takeWhile isDigit = d ∧ (d ++ t').dropWhile isDigit = t' ∨ c = '0' := by
        rcases hstop with h | h | ⟨u, h⟩
        · exact Or.inr h
        · exact Or.inl (takeWhile_app hdd h)
        · left
          rw [h]
          have : ∀ d : Str, (∀ x ∈ d, isDigit x = true) → (d ++ '.' :: u).takeWhile isDigit = d ∧
              (d ++ '.' :: u).dropWhile isDigit = '.' :: u := by
            intro d hd
            induction d with
            | nil => simp [isDigit]
            | cons a d ih =>
              have := ih fun x hx => hd x (by simp [hx])
              have ha := hd a (by simp)
              simp [ha, this]
          exact this d hdd
      have h1 : d = if c = '0' then [] else (d ++ t').takeWhile isDigit := by
        rcases htd with h | h
        · split
          · rename_i hc0; rw [hd, if_pos hc0]
          · rw [h.1]
        · rw [if_pos h, hd, if_pos h]
      have h2 : t' = if c = '0' then d ++ t' else (d ++ t').dropWhile isDigit := by
        split
        · rename_i hc0; rw [hd, if_pos hc0]; rfl
        · rename_i hc0
          rcases htd with h | h
          · rw [h.2]
          · exact absurd h hc0
      have h3 : c :: d ++ (scanFrac t).1 ++ (scanExp (scanFrac t).2).1 ++ r' = c :: (d ++ t') := by
        rw [ht']; simp
      rw [h3, key (d ++ t') d t' h1 h2]
      rw [key cs d t hd ht] at h
      rw [ht', g1, g2]
      rw [← hr] at h
      split at h <;> rename_i hh <;> cases h
      · rw [if_pos hh]
      · rw [if_neg hh]

/-! ## Values -/

theorem afterPrefix_spec {p s r : Str} (h : afterPrefix p s = some r) : s = p ++ r := by
  unfold afterPrefix at h
  split at h
  · rename_i hp
    obtain ⟨t, rfl⟩ := List.isPrefixOf_iff_prefix.1 hp
    simpa using h
  · simp at h

theorem afterPrefix_app (p r : Str) : afterPrefix p (p ++ r) = some r := by
  have : p.isPrefixOf (p ++ r) = true := List.isPrefixOf_iff_prefix.2 ⟨r, rfl⟩
  simp [afterPrefix, this]

theorem scanScalar_spec (rf : Str → Str) (c : Char) (s : Str) (v : Val) (r : Str)
    (h : scanScalar rf c s = some (v, r)) :
    ∃ q, s = q ++ r ∧ (∀ x ∈ c :: q, 32 ≤ x.toNat) ∧ ∀ r', Delim r' → scanScalar rf c (q ++ r') = some (v, r') := by
  have lit : ∀ (p : Str) (w : Val), (∀ x ∈ c :: p, 32 ≤ x.toNat) → (afterPrefix p s).map (fun r => (w, r)) = some (v, r) →
      (∀ s, scanScalar rf c s = (afterPrefix p s).map (fun r => (w, r))) →
      ∃ q, s = q ++ r ∧ (∀ x ∈ c :: q, 32 ≤ x.toNat) ∧ ∀ r', Delim r' → scanScalar rf c (q ++ r') = some (v, r') := by
    intro p w hp h1 h2
    obtain ⟨r0, h3, h4⟩ := Option.map_eq_some_iff.1 h1
    cases h4
    exact ⟨p, afterPrefix_spec h3, hp, fun r' _ => by rw [h2, afterPrefix_app]; rfl⟩
  have hall := h
  unfold scanScalar at h
  split at h
  · rename_i hc; subst hc; exact lit _ _ (by decide) h (by intro s; simp [scanScalar])
  split at h
  · rename_i hc; subst hc; exact lit _ _ (by decide) h (by intro s; simp [scanScalar])
  split at h
  · rename_i hc; subst hc; exact lit _ _ (by decide) h (by intro s; simp [scanScalar])
  split at h
  · rename_i hc; subst hc; exact lit _ _ (by decide) h (by intro s; simp [scanScalar])
  split at h
  · rename_i hc; subst hc; exact lit _ _ (by decide) h (by intro s; simp [scanScalar])
  split at h
  · rename_i hc; subst hc
    split at h
    · rename_i x hx
      cases h
      obtain ⟨q, h1, h2, h3, h4⟩ := scanUnsigned_spec _ _ _ _ _ hx
      refine ⟨q, h1, ?_, fun r' hr' => ?_⟩
      · simp only [List.mem_cons, forall_eq_or_imp]
        exact ⟨by decide, h3⟩
      · simp [scanScalar, h4 r' hr']
    · rename_i hx
      obtain ⟨r0, h3, h4⟩ := Option.map_eq_some_iff.1 h
      cases h4
      refine ⟨"Infinity".toList, afterPrefix_spec h3, by decide, fun r' _ => ?_⟩
      have : scanUnsigned rf true ("Infinity".toList ++ r') = Option.none := by
        have : isDigit 'I' = false := by decide
        simp [scanUnsigned, this]
      simp only [scanScalar, Char.reduceEq, if_false, if_true, this]
      rw [afterPrefix_app]; rfl
  · rename_i h1 h2 h3 h4 h5 h6
    obtain ⟨q, e1, e2, e3, e4⟩ := scanUnsigned_spec _ _ _ _ _ h
    cases q with
    | nil => exact absurd rfl e2
    | cons x q =>
      simp only [List.cons_append, List.cons.injEq] at e1
      obtain ⟨rfl, e1⟩ := e1
      refine ⟨q, e1, e3, fun r' hr' => ?_⟩
      rw [← e4 r' hr']
      simp [scanScalar, h1, h2, h3, h4, h5, h6]

/-- The text of the value shows where it ends. -/
def SelfDelim (q : Str) : Prop := ∃ c r, q = c :: r ∧ (c = '"' ∨ c = '{' ∨ c = '[')

theorem delim_ws {w : Str} {c : Char} {r : Str} (hw : ∀ x ∈ w, isWs x = true) (hc : c = ',' ∨ c = ']' ∨ c = '}') :
    Delim (w ++ c :: r) := by
  cases w with
  | nil => exact Or.inr ⟨c, r, rfl, Or.inr hc⟩
  | cons a w => exact Or.inr ⟨a, w ++ c :: r, rfl, Or.inl (hw a (by simp))⟩

theorem skipWs_split {s r : Str} {c : Char} (h : skipWs s = c :: r) :
    ∃ w, s = w ++ c :: r ∧ (∀ x ∈ w, isWs x = true) ∧ isWs c = false := by
  obtain ⟨w, h1, h2⟩ := skipWs_spec s
  rw [h] at h1
  refine ⟨w, h1, h2, ?_⟩
  by_contra hc
  have hc : isWs c = true := by simpa using hc
  have : skipWs (skipWs s) = skipWs s := skipWs_idem s
  rw [h] at this
  simp only [skipWs, List.dropWhile_cons, hc, if_true] at this
  have h3 := congrArg List.length this
  have h4 := (List.dropWhile_sublist isWs (l := r)).length_le
  simp only [List.length_cons] at h3
  omega

theorem skipWs_app {w : Str} {c : Char} (r : Str) (hw : ∀ x ∈ w, isWs x = true) (hc : isWs c = false) :
    skipWs (w ++ c :: r) = c :: r := by
  rw [skipWs_ws _ _ hw, skipWs_cons hc]

/-- The value parsed depends only on the text consumed; that text has no control character but white space. -/
theorem parse_spec_all (rf : Str → Str) (f : Nat) :
    (∀ s v r, parse rf f s = some (v, r) → ∃ q, s = q ++ r ∧ q ≠ [] ∧ (∀ c ∈ q, Plain c) ∧
      ∀ f' r', q.length ≤ f' → (SelfDelim q ∨ Delim r' ∨ r' = r) → parse rf f' (q ++ r') = some (v, r')) ∧
    (∀ s vs r, parseItems rf f s = some (vs, r) → ∃ q, s = q ++ r ∧ (∀ c ∈ q, Plain c) ∧
      (∃ c q', q = c :: q' ∧ isWs c = false ∧ c ≠ ']') ∧
      ∀ f' r', q.length ≤ f' → parseItems rf f' (q ++ r') = some (vs, r')) ∧
    (∀ s d r, parsePairs rf f s = some (d, r) → ∃ q, s = q ++ r ∧ (∀ c ∈ q, Plain c) ∧
      (∃ q', q = '"' :: q') ∧
      ∀ f' r', q.length ≤ f' → parsePairs rf f' (q ++ r') = some (d, r')) := by
  induction f with
  | zero => simp [parse, parseItems, parsePairs]
  | succ f ih =>
    obtain ⟨ihv, ihi, ihp⟩ := ih
    refine ⟨?_, ?_, ?_⟩
    · intro s v r h
      cases s with
      | nil => simp [parse] at h
      | cons c cs =>
        rw [parse] at h
        split at h
        · -- string
          rename_i hc
          subst hc
          obtain ⟨⟨x, r0⟩, h1, h2⟩ := Option.map_eq_some_iff.1 h
          cases h2
          obtain ⟨q, e1, e2, e3, e4⟩ := scanStr_spec _ _ _ h1
          refine ⟨'"' :: q, by simp [e1], by simp, ?_, ?_⟩
          · simp only [List.mem_cons, forall_eq_or_imp]
            exact ⟨plain_ge (by decide), fun c hc => plain_ge (e3 c hc)⟩
          · intro f' r' hf _
            obtain ⟨f', rfl⟩ : ∃ g, f' = g + 1 := ⟨f' - 1, by simp at hf; omega⟩
            simp [parse, e4]
        split at h
        · -- dict
          rename_i hc0 hc
          subst hc
          split at h
          · rename_i r0 hs
            cases h
            obtain ⟨w, e1, e2, e3⟩ := skipWs_split hs
            refine ⟨'{' :: (w ++ ['}']), by simp [e1], by simp, ?_, ?_⟩
            · simp only [List.mem_cons, List.mem_append, List.not_mem_nil, or_false]
              rintro c (rfl | hc | rfl)
              · exact plain_ge (by decide)
              · exact Or.inr (e2 c hc)
              · exact plain_ge (by decide)
            · intro f' r' hf _
              obtain ⟨f', rfl⟩ : ∃ g, f' = g + 1 := ⟨f' - 1, by simp at hf; omega⟩
              have := skipWs_app r' e2 e3
              simp only [parse, List.cons_append, List.append_assoc, List.nil_append, Char.reduceEq, if_false, if_true]
              simp only [this]
          · rename_i r1 hs
            obtain ⟨⟨d, r0⟩, h1, h2⟩ := Option.map_eq_some_iff.1 h
            cases h2
            obtain ⟨q, e1, e2, ⟨q', e3⟩, e4⟩ := ihp _ _ _ h1
            obtain ⟨w, k1, k2⟩ := skipWs_spec cs
            refine ⟨'{' :: (w ++ q), by rw [List.cons_append, List.append_assoc, ← e1, ← k1], by simp, ?_, ?_⟩
            · simp only [List.mem_cons, List.mem_append]
              rintro c (rfl | hc | hc)
              · exact plain_ge (by decide)
              · exact Or.inr (k2 c hc)
              · exact e2 c hc
            · intro f' r' hf _
              obtain ⟨f', rfl⟩ : ∃ g, f' = g + 1 := ⟨f' - 1, by simp at hf; omega⟩
              have hs2 : skipWs (w ++ (q ++ r')) = q ++ r' := by
                rw [e3, List.cons_append]; exact skipWs_app _ k2 (by decide)
              have hp := e4 f' r' (by simp at hf; omega)
              simp only [parse, List.cons_append, List.append_assoc, Char.reduceEq, if_false, if_true]
              rw [hs2]
              rw [e3] at hp ⊢
              simp only [List.cons_append] at hp ⊢
              simp [hp]
        split at h
        · -- list
          rename_i hc0 hc1 hc
          subst hc
          split at h
          · rename_i r0 hs
            cases h
            obtain ⟨w, e1, e2, e3⟩ := skipWs_split hs
            refine ⟨'[' :: (w ++ [']']), by simp [e1], by simp, ?_, ?_⟩
            · simp only [List.mem_cons, List.mem_append, List.not_mem_nil, or_false]
              rintro c (rfl | hc | rfl)
              · exact plain_ge (by decide)
              · exact Or.inr (e2 c hc)
              · exact plain_ge (by decide)
            · intro f' r' hf _
              obtain ⟨f', rfl⟩ : ∃ g, f' = g + 1 := ⟨f' - 1, by simp at hf; omega⟩
              have := skipWs_app r' e2 e3
              simp only [parse, List.cons_append, List.append_assoc, List.nil_append, Char.reduceEq, if_false, if_true]
              simp only [this]
          · rename_i r1 hs
            obtain ⟨⟨d, r0⟩, h1, h2⟩ := Option.map_eq_some_iff.1 h
            cases h2
            obtain ⟨q, e1, e2, ⟨c', q', e3, e5, e6⟩, e4⟩ := ihi _ _ _ h1
            obtain ⟨w, k1, k2⟩ := skipWs_spec cs
            refine ⟨'[' :: (w ++ q), by rw [List.cons_append, List.append_assoc, ← e1, ← k1], by simp, ?_, ?_⟩
            · simp only [List.mem_cons, List.mem_append]
              rintro c (rfl | hc | hc)
              · exact plain_ge (by decide)
              · exact Or.inr (k2 c hc)
              · exact e2 c hc
            · intro f' r' hf _
              obtain ⟨f', rfl⟩ : ∃ g, f' = g + 1 := ⟨f' - 1, by simp at hf; omega⟩
              have hs2 : skipWs (w ++ (q ++ r')) = q ++ r' := by
                rw [e3, List.cons_append]; exact skipWs_app _ k2 e5
              have hp := e4 f' r' (by simp at hf; omega)
              simp only [parse, List.cons_append, List.append_assoc, Char.reduceEq, if_false, if_true]
              rw [hs2]
              split
              · rename_i r3 hr3
                rw [e3] at hr3
                simp at hr3
                exact absurd hr3.1 e6
              · rw [hp]; rfl
        · -- scalar
          rename_i h1 h2 h3
          obtain ⟨q, e1, e2, e3⟩ := scanScalar_spec _ _ _ _ _ h
          refine ⟨c :: q, by simp [e1], by simp, fun x hx => plain_ge (e2 x hx), ?_⟩
          intro f' r' hf hd
          obtain ⟨f', rfl⟩ : ∃ g, f' = g + 1 := ⟨f' - 1, by simp at hf; omega⟩
          rw [List.cons_append, parse, if_neg h1, if_neg h2, if_neg h3]
          rcases hd with ⟨c', q', hq, hd⟩ | hd | rfl
          · cases hq
            rcases hd with hd | hd | hd
            · exact absurd hd h1
            · exact absurd hd h2
            · exact absurd hd h3
          · exact e3 r' hd
          · rw [← e1]; exact h
    · intro s vs r h
      rw [parseItems] at h
      split at h
      · simp at h
      rename_i v r0 hv
      obtain ⟨q, e1, e2, e3, e4⟩ := ihv _ _ _ hv
      obtain ⟨a, q1, rfl⟩ := List.exists_cons_of_ne_nil e2
      have hhead : isWs a = false ∧ a ≠ ']' := by
        have : parse rf f (a :: (q1 ++ r0)) = some (v, r0) := by rw [← List.cons_append, ← e1]; exact hv
        have key : ∀ a : Char, isDigit a = false → a ≠ 'n' → a ≠ 't' → a ≠ 'f' → a ≠ 'N' → a ≠ 'I' → a ≠ '-' → a ≠ '"' →
            a ≠ '{' → a ≠ '[' → ∀ t, parse rf f (a :: t) = Option.none := by
          intro a h0 h1 h2 h3 h4 h5 h6 h7 h8 h9 t
          cases f with
          | zero => rfl
          | succ f => simp [parse, scanScalar, scanUnsigned, h0, h1, h2, h3, h4, h5, h6, h7, h8, h9]
        constructor
        · by_contra hw
          have hw : isWs a = true := by simpa using hw
          rcases isWs_cases hw with rfl | rfl | rfl | rfl
          all_goals rw [key _ (by decide) (by decide) (by decide) (by decide) (by decide) (by decide) (by decide) (by decide) (by decide) (by decide)] at this; simp at this
        · rintro rfl
          rw [key _ (by decide) (by decide) (by decide) (by decide) (by decide) (by decide) (by decide) (by decide) (by decide) (by decide)] at this; simp at this
      split at h
      · rename_i r' hs
        cases h
        obtain ⟨w, k1, k2, k3⟩ := skipWs_split hs
        refine ⟨a :: q1 ++ (w ++ [']']), by simp [e1, k1], ?_, ⟨a, _, rfl, hhead⟩, ?_⟩
        · simp only [List.mem_append, List.mem_singleton]
          rintro c (hc | hc | rfl)
          · exact e3 c hc
          · exact Or.inr (k2 c hc)
          · exact plain_ge (by decide)
        · intro f' r2 hf
          obtain ⟨f', rfl⟩ : ∃ g, f' = g + 1 := ⟨f' - 1, by simp at hf; omega⟩
          have := e4 f' (w ++ ']' :: r2) (by simp at hf ⊢; omega) (Or.inr (Or.inl (delim_ws k2 (by simp))))
          rw [parseItems]
          simp only [List.append_assoc, List.singleton_append] at this ⊢
          rw [this]
          simp only [skipWs_app r2 k2 k3]
      · rename_i r' hs
        obtain ⟨w, k1, k2, k3⟩ := skipWs_split hs
        obtain ⟨⟨l, r2⟩, h1, h2⟩ := Option.map_eq_some_iff.1 h
        cases h2
        obtain ⟨q2, i1, i2, ⟨a2, q2', i3, i4, i5⟩, i6⟩ := ihi _ _ _ h1
        obtain ⟨w2, j1, j2⟩ := skipWs_spec r'
        refine ⟨a :: q1 ++ (w ++ ',' :: (w2 ++ q2)), ?_, ?_, ⟨a, _, rfl, hhead⟩, ?_⟩
        · rw [e1, k1, j1, i1]; simp
        · simp only [List.mem_append, List.mem_cons]
          rintro c (hc | hc | rfl | hc | hc)
          · exact e3 c (by simpa using hc)
          · exact Or.inr (k2 c hc)
          · exact plain_ge (by decide)
          · exact Or.inr (j2 c hc)
          · exact i2 c hc
        · intro f' r3 hf
          obtain ⟨f', rfl⟩ : ∃ g, f' = g + 1 := ⟨f' - 1, by simp at hf; omega⟩
          have := e4 f' (w ++ ',' :: (w2 ++ (q2 ++ r3))) (by simp at hf ⊢; omega) (Or.inr (Or.inl (delim_ws k2 (by simp))))
          have hi := i6 f' r3 (by simp at hf ⊢; omega)
          have hs2 : skipWs (w2 ++ (q2 ++ r3)) = q2 ++ r3 := by
            rw [i3, List.cons_append]; exact skipWs_app _ j2 i4
          rw [parseItems]
          simp only [List.append_assoc, List.cons_append] at this ⊢
          rw [this]
          simp only [skipWs_app _ k2 k3, hs2, hi, Option.map_some]
      · simp at h
    · intro s d r h
      rw [parsePairs.eq_def] at h
      simp only at h
      split at h
      swap
      · simp at h
      rename_i s'
      split at h
      · simp at h
      rename_i k r0 hk
      obtain ⟨q, e1, e2, e3, e4⟩ := scanStr_spec _ _ _ hk
      split at h
      swap
      · simp at h
      rename_i r1 hc
      obtain ⟨w, k1, k2, k3⟩ := skipWs_split hc
      split at h
      · simp at h
      rename_i v r2 hv
      obtain ⟨q2, i1, i2, i3, i4⟩ := ihv _ _ _ hv
      obtain ⟨w2, j1, j2⟩ := skipWs_spec r1
      obtain ⟨a, q1, rfl⟩ := List.exists_cons_of_ne_nil i2
      have ha : isWs a = false := by
        have := skipWs_idem r1
        rw [i1] at this
        by_contra hw
        have hw : isWs a = true := by simpa using hw
        simp only [skipWs, List.cons_append, List.dropWhile_cons, hw, if_true] at this
        have h3 := congrArg List.length this
        have h4 := (List.dropWhile_sublist isWs (l := q1 ++ r2)).length_le
        simp only [List.length_cons] at h3
        omega
      split at h
      · rename_i r' hs
        cases h
        obtain ⟨w3, l1, l2, l3⟩ := skipWs_split hs
        refine ⟨'"' :: (q ++ (w ++ ':' :: (w2 ++ (a :: q1 ++ (w3 ++ ['}']))))), ?_, ?_, ⟨_, rfl⟩, ?_⟩
        · rw [e1, k1, j1, i1, l1]; simp
        · simp only [List.mem_append, List.mem_cons, List.not_mem_nil, or_false]
          rintro c (rfl | hc | hc | rfl | hc | hc | hc | rfl)
          · exact plain_ge (by decide)
          · exact plain_ge (e3 c hc)
          · exact Or.inr (k2 c hc)
          · exact plain_ge (by decide)
          · exact Or.inr (j2 c hc)
          · exact i3 c (by simpa using hc)
          · exact Or.inr (l2 c hc)
          · exact plain_ge (by decide)
        · intro f' r3 hf
          obtain ⟨f', rfl⟩ : ∃ g, f' = g + 1 := ⟨f' - 1, by simp at hf; omega⟩
          have hp := i4 f' (w3 ++ '}' :: r3) (by simp at hf ⊢; omega) (Or.inr (Or.inl (delim_ws l2 (by simp))))
          rw [parsePairs.eq_def]
          simp only [List.append_assoc, List.cons_append, List.nil_append] at hp ⊢
          simp only [e4, skipWs_app _ k2 k3, skipWs_app _ j2 ha, hp, skipWs_app _ l2 l3]
      · rename_i r' hs
        obtain ⟨w3, l1, l2, l3⟩ := skipWs_split hs
        obtain ⟨⟨l, r3⟩, h1, h2⟩ := Option.map_eq_some_iff.1 h
        cases h2
        obtain ⟨q3, m1, m2, ⟨q3', m3⟩, m4⟩ := ihp _ _ _ h1
        obtain ⟨w4, n1, n2⟩ := skipWs_spec r'
        refine ⟨'"' :: (q ++ (w ++ ':' :: (w2 ++ (a :: q1 ++ (w3 ++ ',' :: (w4 ++ q3)))))), ?_, ?_, ⟨_, rfl⟩, ?_⟩
        · rw [e1, k1, j1, i1, l1, n1, m1]; simp
        · simp only [List.mem_append, List.mem_cons]
          rintro c (rfl | hc | hc | rfl | hc | hc | hc | rfl | hc | hc)
          · exact plain_ge (by decide)
          · exact plain_ge (e3 c hc)
          · exact Or.inr (k2 c hc)
          · exact plain_ge (by decide)
          · exact Or.inr (j2 c hc)
          · exact i3 c (by simpa using hc)
          · exact Or.inr (l2 c hc)
          · exact plain_ge (by decide)
          · exact Or.inr (n2 c hc)
          · exact m2 c hc
        · intro f' r4 hf
          obtain ⟨f', rfl⟩ : ∃ g, f' = g + 1 := ⟨f' - 1, by simp at hf; omega⟩
          have hp := i4 f' (w3 ++ ',' :: (w4 ++ (q3 ++ r4))) (by simp at hf ⊢; omega) (Or.inr (Or.inl (delim_ws l2 (by simp))))
          have hq := m4 f' r4 (by simp at hf ⊢; omega)
          have hs2 : skipWs (w4 ++ (q3 ++ r4)) = q3 ++ r4 := by
            rw [m3, List.cons_append]; exact skipWs_app _ n2 (by decide)
          rw [parsePairs.eq_def]
          simp only [List.append_assoc, List.cons_append] at hp ⊢
          simp only [e4, skipWs_app _ k2 k3, skipWs_app _ j2 ha, hp, skipWs_app _ l2 l3, hs2, hq, Option.map_some]
      · simp at h

end Verif.Json
