import Verif.Lemmas.JsonGrammar
/-!
# The decoder reads exactly the grammar
-/

namespace Verif.Json
open Verif Verif.Spec

theorem parse_sound (rf : Str → Str) (f : Nat) :
    (∀ s v r, parse rf f s = some (v, r) → ∃ q, s = q ++ r ∧ JsonText rf q v) ∧
    (∀ s vs r, parseItems rf f s = some (vs, r) → ∃ q, s = q ++ ']' :: r ∧ JsonItems rf q vs) ∧
    (∀ s d r, parsePairs rf f s = some (d, r) → ∃ q, s = q ++ '}' :: r ∧ JsonMembers rf q d) := by
  induction f with
  | zero => simp [parse, parseItems, parsePairs]
  | succ f ih =>
    obtain ⟨ihv, ihi, ihp⟩ := ih
    refine ⟨?_, ?_, ?_⟩
    · intro s v r h
      cases s with
      | nil => simp [parse] at h
      | cons c cs =>
        rw [parse] at h
        split at h
        · rename_i hc
          subst hc
          obtain ⟨⟨x, r0⟩, h1, h2⟩ := Option.map_eq_some_iff.1 h
          cases h2
          obtain ⟨q, e1, e2⟩ := scanStr_sound _ _ _ h1
          exact ⟨'"' :: q ++ ['"'], by simp [e1], .str e2⟩
        split at h
        · rename_i hc0 hc
          subst hc
          split at h
          · rename_i r0 hs
            cases h
            obtain ⟨w, e1, e2, e3⟩ := skipWs_split hs
            exact ⟨'{' :: w ++ ['}'], by simp [e1], .emptyDict (jsonSpace_iff.2 e2)⟩
          · rename_i r1 hs
            obtain ⟨⟨d, r0⟩, h1, h2⟩ := Option.map_eq_some_iff.1 h
            cases h2
            obtain ⟨q, e1, e2⟩ := ihp _ _ _ h1
            obtain ⟨w, k1, k2⟩ := skipWs_spec cs
            refine ⟨'{' :: w ++ q ++ ['}'], ?_, .dict (jsonSpace_iff.2 k2) e2 (dictOf_ofPairs d)⟩
            rw [k1, e1]; simp
        split at h
        · rename_i hc0 hc1 hc
          subst hc
          split at h
          · rename_i r0 hs
            cases h
            obtain ⟨w, e1, e2, e3⟩ := skipWs_split hs
            exact ⟨'[' :: w ++ [']'], by simp [e1], .emptyList (jsonSpace_iff.2 e2)⟩
          · rename_i r1 hs
            obtain ⟨⟨d, r0⟩, h1, h2⟩ := Option.map_eq_some_iff.1 h
            cases h2
            obtain ⟨q, e1, e2⟩ := ihi _ _ _ h1
            obtain ⟨w, k1, k2⟩ := skipWs_spec cs
            refine ⟨'[' :: w ++ q ++ [']'], ?_, .list (jsonSpace_iff.2 k2) e2⟩
            rw [k1, e1]; simp
        · obtain ⟨q, e1, e2⟩ := scanScalar_text _ _ _ _ _ h
          exact ⟨c :: q, by simp [e1], e2⟩
    · intro s vs r h
      rw [parseItems] at h
      split at h
      · simp at h
      rename_i v r0 hv
      obtain ⟨q, e1, e2⟩ := ihv _ _ _ hv
      split at h
      · rename_i r' hs
        cases h
        obtain ⟨w, k1, k2, k3⟩ := skipWs_split hs
        exact ⟨q ++ w, by simp [e1, k1], .one e2 (jsonSpace_iff.2 k2)⟩
      · rename_i r' hs
        obtain ⟨w, k1, k2, k3⟩ := skipWs_split hs
        obtain ⟨⟨l, r2⟩, h1, h2⟩ := Option.map_eq_some_iff.1 h
        cases h2
        obtain ⟨q2, i1, i2⟩ := ihi _ _ _ h1
        obtain ⟨w2, j1, j2⟩ := skipWs_spec r'
        refine ⟨_, ?_, .cons e2 (jsonSpace_iff.2 k2) (jsonSpace_iff.2 j2) i2⟩
        rw [e1, k1, j1, i1]; simp
      · simp at h
    · intro s d r h
      rw [parsePairs.eq_def] at h
      simp only at h
      split at h
      swap
      · simp at h
      rename_i s'
      split at h
      · simp at h
      rename_i k r0 hk
      obtain ⟨q, e1, e2⟩ := scanStr_sound _ _ _ hk
      split at h
      swap
      · simp at h
      rename_i r1 hc
      obtain ⟨w, k1, k2, k3⟩ := skipWs_split hc
      split at h
      · simp at h
      rename_i v r2 hv
      obtain ⟨q2, i1, i2⟩ := ihv _ _ _ hv
      obtain ⟨w2, j1, j2⟩ := skipWs_spec r1
      split at h
      · rename_i r' hs
        cases h
        obtain ⟨w3, l1, l2, l3⟩ := skipWs_split hs
        refine ⟨_, ?_, .one e2 (jsonSpace_iff.2 k2) (jsonSpace_iff.2 j2) i2 (jsonSpace_iff.2 l2)⟩
        rw [e1, k1, j1, i1, l1]; simp
      · rename_i r' hs
        obtain ⟨w3, l1, l2, l3⟩ := skipWs_split hs
        obtain ⟨⟨l, r3⟩, h1, h2⟩ := Option.map_eq_some_iff.1 h
        cases h2
        obtain ⟨q3, m1, m2⟩ := ihp _ _ _ h1
        obtain ⟨w4, n1, n2⟩ := skipWs_spec r'
        refine ⟨_, ?_, .cons e2 (jsonSpace_iff.2 k2) (jsonSpace_iff.2 j2) i2 (jsonSpace_iff.2 l2) (jsonSpace_iff.2 n2) m2⟩
        rw [e1, k1, j1, i1, l1, n1, m1]; simp
      · simp at h

theorem parse_number {rf : Str → Str} {sign ip fr ex b : Str} (h : NumberParts sign ip fr ex) (hb : Delim b) (f : Nat) :
    parse rf (f + 1) (sign ++ ip ++ fr ++ ex ++ b) =
      if fr.isEmpty && ex.isEmpty then
        some (.int (if sign = [] then (digitsVal ip : Int) else -(digitsVal ip : Int)), b)
      else some (.float (rf (sign ++ ip ++ fr ++ ex)), b) := by
  obtain ⟨hi, hz⟩ := h.int
  have hid := digits_isDigit hi
  obtain ⟨c, d, hc⟩ := List.exists_cons_of_ne_nil hi.1
  have hcd : isDigit c = true := hid c (by simp [hc])
  rcases h.sign with rfl | rfl
  · have key := scanUnsigned_lit rf false hid hi.1 hz h.frac h.exp hb
    have e2 : [] ++ ip ++ fr ++ ex ++ b = ip ++ (fr ++ (ex ++ b)) := by simp
    rw [e2, parse_digit rf f ⟨c, d ++ (fr ++ (ex ++ b)), by rw [hc]; rfl, hcd⟩, key]
    simp
  · have key := scanUnsigned_lit rf true hid hi.1 hz h.frac h.exp hb
    have e2 : ['-'] ++ ip ++ fr ++ ex ++ b = '-' :: (ip ++ (fr ++ (ex ++ b))) := by simp
    rw [e2]
    have : ∃ x, scanUnsigned rf true (ip ++ (fr ++ (ex ++ b))) = some x := by
      rw [key]; split <;> exact ⟨_, rfl⟩
    obtain ⟨x, hx⟩ := this
    rw [parse_minus rf f hx, ← hx, key]
    simp

theorem delim_of_ws {w t : Str} (hw : ∀ c ∈ w, isWs c = true) (ht : t = [] ∨ ∃ c r, t = c :: r ∧ (c = ',' ∨ c = ']' ∨ c = '}')) :
    Delim (w ++ t) := by
  cases w with
  | cons c w => exact .inr ⟨c, w ++ t, rfl, .inl (hw c (by simp))⟩
  | nil =>
    rcases ht with rfl | ⟨c, r, rfl, h⟩
    · exact .inl rfl
    · exact .inr ⟨c, r, rfl, .inr h⟩

theorem digit_head {c : Char} (h : isDigit c = true) : isWs c = false ∧ c ≠ ']' := by
  have := isDigit_not h
  exact ⟨this.1, this.2.1⟩

/-- A value does not begin with white space or a closing bracket. -/
theorem text_head {rf : Str → Str} {q : Str} {v : Val} (h : JsonText rf q v) :
    ∃ c q', q = c :: q' ∧ isWs c = false ∧ c ≠ ']' := by
  cases h with
  | null => exact ⟨'n', _, rfl, by decide, by decide⟩
  | tt => exact ⟨'t', _, rfl, by decide, by decide⟩
  | ff => exact ⟨'f', _, rfl, by decide, by decide⟩
  | nan => exact ⟨'N', _, rfl, by decide, by decide⟩
  | inf => exact ⟨'I', _, rfl, by decide, by decide⟩
  | ninf => exact ⟨'-', _, rfl, by decide, by decide⟩
  | minusZero => exact ⟨'-', _, rfl, by decide, by decide⟩
  | int n =>
    cases n with
    | ofNat n =>
      obtain ⟨h1, h2, -⟩ := toDigits_spec n
      obtain ⟨c, d, hc⟩ := List.exists_cons_of_ne_nil h2
      exact ⟨c, d, hc, digit_head (h1 c (by simp [hc]))⟩
    | negSucc n => exact ⟨'-', _, rfl, by decide, by decide⟩
  | float h _ =>
    obtain ⟨c, d, hc⟩ := List.exists_cons_of_ne_nil h.int.1.1
    rcases h.sign with rfl | rfl
    · exact ⟨c, _, by rw [hc]; rfl, digit_head ((digits_iff.1 h.int.1).2 c (by simp [hc]))⟩
    · exact ⟨'-', _, rfl, by decide, by decide⟩
  | str h => exact ⟨'"', _, rfl, by decide, by decide⟩
  | emptyList h => exact ⟨'[', _, rfl, by decide, by decide⟩
  | list h => exact ⟨'[', _, rfl, by decide, by decide⟩
  | emptyDict h => exact ⟨'{', _, rfl, by decide, by decide⟩
  | dict h => exact ⟨'{', _, rfl, by decide, by decide⟩

theorem items_head {rf : Str → Str} {q : Str} {vs : List Val} (h : JsonItems rf q vs) :
    ∃ c q', q = c :: q' ∧ isWs c = false ∧ c ≠ ']' := by
  cases h with
  | one h _ => obtain ⟨c, q', rfl, h1⟩ := text_head h; exact ⟨c, _, rfl, h1⟩
  | cons h _ _ _ => obtain ⟨c, q', rfl, h1⟩ := text_head h; exact ⟨c, _, rfl, h1⟩

theorem members_head {rf : Str → Str} {q : Str} {ps : List (String × Val)} (h : JsonMembers rf q ps) :
    ∃ q', q = '"' :: q' := by
  cases h with
  | one => exact ⟨_, rfl⟩
  | cons => exact ⟨_, rfl⟩

theorem fuel_pos {n f : Nat} (h : n + 1 ≤ f) : ∃ g, f = g + 1 ∧ n ≤ g := ⟨f - 1, by omega, by omega⟩

mutual
/-- Every text of the grammar is read in full, whatever stands behind it (as long as a number ends there). -/
theorem parse_complete (rf : Str → Str) {q : Str} {v : Val} : JsonText rf q v → q ≠ [] ∧
    ∀ f r, q.length ≤ f → Delim r → parse rf f (q ++ r) = some (v, r)
  | .null => ⟨by simp, fun f r hf _ => by
      obtain ⟨g, rfl, -⟩ := fuel_pos (n := 3) hf
      have : afterPrefix "ull".toList ("ull".toList ++ r) = some r := afterPrefix_app _ _
      simpa [parse, scanScalar] using this⟩
  | .tt => ⟨by simp, fun f r hf _ => by
      obtain ⟨g, rfl, -⟩ := fuel_pos (n := 3) hf
      have : afterPrefix "rue".toList ("rue".toList ++ r) = some r := afterPrefix_app _ _
      simpa [parse, scanScalar] using this⟩
  | .ff => ⟨by simp, fun f r hf _ => by
      obtain ⟨g, rfl, -⟩ := fuel_pos (n := 4) hf
      have : afterPrefix "alse".toList ("alse".toList ++ r) = some r := afterPrefix_app _ _
      simpa [parse, scanScalar] using this⟩
  | .nan => ⟨by simp, fun f r hf _ => by
      obtain ⟨g, rfl, -⟩ := fuel_pos (n := 2) hf
      have : afterPrefix "aN".toList ("aN".toList ++ r) = some r := afterPrefix_app _ _
      simpa [parse, scanScalar] using this⟩
  | .inf => ⟨by simp, fun f r hf _ => by
      obtain ⟨g, rfl, -⟩ := fuel_pos (n := 7) hf
      have : afterPrefix "nfinity".toList ("nfinity".toList ++ r) = some r := afterPrefix_app _ _
      simpa [parse, scanScalar] using this⟩
  | .ninf => ⟨by simp, fun f r hf hd => by
      obtain ⟨g, rfl, -⟩ := fuel_pos (n := 8) hf
      have := parse_float rf g (r := "-inf".toList) (.inr (.inr (.inl rfl))) hd
      exact this⟩
  | .int n => ⟨by
        cases n with
        | ofNat n => exact (toDigits_spec n).2.1
        | negSucc n => simp [Str.ofInt], fun f r hf hd => by
      have hp : 0 < (Str.ofInt n).length := by
        cases n with
        | ofNat n => exact List.length_pos_of_ne_nil (toDigits_spec n).2.1
        | negSucc n => simp [Str.ofInt]
      obtain ⟨g, rfl⟩ : ∃ g, f = g + 1 := ⟨f - 1, by omega⟩
      exact parse_int rf g n hd⟩
  | .minusZero => ⟨by simp, fun f r hf hd => by
      obtain ⟨g, rfl, -⟩ := fuel_pos (n := 1) hf
      have := parse_number (rf := rf) (sign := ['-']) (ip := ['0']) (fr := []) (ex := [])
        ⟨.inr rfl, ⟨digits_iff.2 (by simp; decide), .inl rfl⟩, .inl rfl, .inl rfl⟩ hd g
      simpa [digitsVal] using this⟩
  | .float (sign := sign) (ip := ip) (frac := fr) (exp := ex) h hne => by
      have h0 : sign ++ ip ++ fr ++ ex ≠ [] := by
        have := h.int.1.1
        simp [this]
      refine ⟨h0, fun f r hf hd => ?_⟩
      obtain ⟨g, rfl⟩ : ∃ g, f = g + 1 := ⟨f - 1, by have := List.length_pos_of_ne_nil h0; omega⟩
      rw [parse_number h hd g, if_neg (by simpa using hne)]
  | .str h => ⟨by simp, fun f r hf _ => by
      obtain ⟨g, rfl, -⟩ := fuel_pos (by simpa using hf)
      have := scanStr_complete h r
      simp [parse, this]⟩
  | .emptyList h => ⟨by simp, fun f r hf _ => by
      obtain ⟨g, rfl, -⟩ := fuel_pos (by simpa using hf)
      have := skipWs_app r (c := ']') (jsonSpace_iff.1 h) (by decide)
      simp [parse, this]⟩
  | .list (w := w) (q := q) (vs := vs) h h2 => ⟨by simp, fun f r hf _ => by
      obtain ⟨g, rfl, hg⟩ := fuel_pos (by simpa using hf)
      obtain ⟨c, q', hq, hc1, hc2⟩ := items_head h2
      have h3 := items_complete rf h2 g r (by omega)
      have h4 : skipWs (w ++ (q ++ ']' :: r)) = q ++ ']' :: r := by
        rw [hq, List.cons_append]; exact skipWs_app _ (jsonSpace_iff.1 h) hc1
      simp only [parse, List.cons_append, List.append_assoc, Char.reduceEq, if_false, if_true, List.nil_append]
      rw [h4]
      split
      · rename_i r3 hr3
        rw [hq] at hr3
        simp at hr3
        exact absurd hr3.1 hc2
      · rw [h3]; rfl⟩
  | .emptyDict h => ⟨by simp, fun f r hf _ => by
      obtain ⟨g, rfl, -⟩ := fuel_pos (by simpa using hf)
      have := skipWs_app r (c := '}') (jsonSpace_iff.1 h) (by decide)
      simp [parse, this]⟩
  | .dict (w := w) (q := q) (ps := ps) h h2 h5 => ⟨by simp, fun f r hf _ => by
      obtain ⟨g, rfl, hg⟩ := fuel_pos (by simpa using hf)
      obtain ⟨q', hq⟩ := members_head h2
      have h3 := members_complete rf h2 g r (by omega)
      have h4 : skipWs (w ++ (q ++ '}' :: r)) = q ++ '}' :: r := by
        rw [hq, List.cons_append]; exact skipWs_app _ (jsonSpace_iff.1 h) (by decide)
      simp only [parse, List.cons_append, List.append_assoc, Char.reduceEq, if_false, if_true, List.nil_append]
      rw [h4]
      split
      · rename_i r3 hr3
        rw [hq] at hr3
        simp at hr3
      · rw [h3, ← dictOf_unique h5]; rfl⟩
theorem items_complete (rf : Str → Str) {q : Str} {vs : List Val} : JsonItems rf q vs →
    ∀ f r, q.length + 1 ≤ f → parseItems rf f (q ++ ']' :: r) = some (vs, r)
  | .one (w := w) h hw => fun f r hf => by
      obtain ⟨h0, h1⟩ := parse_complete rf h
      have hp := List.length_pos_of_ne_nil h0
      obtain ⟨g, rfl, hg⟩ := fuel_pos hf
      have := h1 g (w ++ ']' :: r) (by simp at hg; omega) (delim_ws (jsonSpace_iff.1 hw) (by simp))
      rw [parseItems]
      rw [List.append_assoc, this]
      simp only [skipWs_app (c := ']') r (jsonSpace_iff.1 hw) (by decide)]
  | .cons (w := w) (w' := w') (q' := q') h hw hw' h2 => fun f r hf => by
      obtain ⟨h0, h1⟩ := parse_complete rf h
      have hp := List.length_pos_of_ne_nil h0
      obtain ⟨g, rfl, hg⟩ := fuel_pos hf
      obtain ⟨c, q2, hq, hc1, hc2⟩ := items_head h2
      have e1 := h1 g (w ++ ',' :: (w' ++ (q' ++ ']' :: r))) (by simp at hg; omega) (delim_ws (jsonSpace_iff.1 hw) (by simp))
      have e2 := items_complete rf h2 g r (by simp at hg; omega)
      have e3 : skipWs (w' ++ (q' ++ ']' :: r)) = q' ++ ']' :: r := by
        rw [hq, List.cons_append]; exact skipWs_app _ (jsonSpace_iff.1 hw') hc1
      rw [parseItems]
      simp only [List.append_assoc, List.cons_append]
      rw [e1]
      simp only [skipWs_app (c := ',') _ (jsonSpace_iff.1 hw) (by decide), e3, e2, Option.map_some]
theorem members_complete (rf : Str → Str) {q : Str} {ps : List (String × Val)} : JsonMembers rf q ps →
    ∀ f r, q.length + 1 ≤ f → parsePairs rf f (q ++ '}' :: r) = some (ps, r)
  | .one (w := w) (w' := w') (u := u) (q := q) hk hw hw' h hu => fun f r hf => by
      obtain ⟨h0, h1⟩ := parse_complete rf h
      obtain ⟨c, q2, hq, hc1, hc2⟩ := text_head h
      obtain ⟨g, rfl, hg⟩ := fuel_pos hf
      have e1 := h1 g (u ++ '}' :: r) (by simp at hg; omega) (delim_ws (jsonSpace_iff.1 hu) (by simp))
      have e2 : skipWs (w' ++ (q ++ (u ++ '}' :: r))) = q ++ (u ++ '}' :: r) := by
        rw [hq, List.cons_append]; exact skipWs_app _ (jsonSpace_iff.1 hw') hc1
      rw [parsePairs.eq_def]
      simp only [List.append_assoc, List.cons_append]
      simp only [scanStr_complete hk, skipWs_app (c := ':') _ (jsonSpace_iff.1 hw) (by decide), e2, e1,
        skipWs_app (c := '}') _ (jsonSpace_iff.1 hu) (by decide)]
  | .cons (w := w) (w' := w') (u := u) (u' := u') (q := q) (q' := q') hk hw hw' h hu hu' h2 => fun f r hf => by
      obtain ⟨h0, h1⟩ := parse_complete rf h
      obtain ⟨c, q2, hq, hc1, hc2⟩ := text_head h
      obtain ⟨q3, hq3⟩ := members_head h2
      obtain ⟨g, rfl, hg⟩ := fuel_pos hf
      have e1 := h1 g (u ++ ',' :: (u' ++ (q' ++ '}' :: r))) (by simp at hg; omega) (delim_ws (jsonSpace_iff.1 hu) (by simp))
      have e4 := members_complete rf h2 g r (by simp at hg; omega)
      have e2 : skipWs (w' ++ (q ++ (u ++ ',' :: (u' ++ (q' ++ '}' :: r))))) = q ++ (u ++ ',' :: (u' ++ (q' ++ '}' :: r))) := by
        rw [hq, List.cons_append]; exact skipWs_app _ (jsonSpace_iff.1 hw') hc1
      have e3 : skipWs (u' ++ (q' ++ '}' :: r)) = q' ++ '}' :: r := by
        rw [hq3, List.cons_append]; exact skipWs_app _ (jsonSpace_iff.1 hu') (by decide)
      rw [parsePairs.eq_def]
      simp only [List.append_assoc, List.cons_append]
      simp only [scanStr_complete hk, skipWs_app (c := ':') _ (jsonSpace_iff.1 hw) (by decide), e2, e1,
        skipWs_app (c := ',') _ (jsonSpace_iff.1 hu) (by decide), e3, e4, Option.map_some]
end

/-- `json.loads` reads exactly the JSON texts, and each as what it denotes. -/
theorem loads_iff (rf : Str → Str) (s : Str) (v : Val) : loads rf s = some v ↔ JsonDocument rf s v := by
  constructor
  · intro h
    unfold loads at h
    split at h
    · simp at h
    split at h
    · rename_i x r hp
      split at h
      · rename_i hr
        cases h
        obtain ⟨w, e1, e2⟩ := skipWs_spec s
        obtain ⟨w', e3, e4⟩ := skipWs_spec r
        obtain ⟨q, h1, h2⟩ := (parse_sound rf _).1 _ _ _ hp
        have hr : skipWs r = [] := by simpa using hr
        rw [hr, List.append_nil] at e3
        refine ⟨w, q, w', jsonSpace_iff.2 e2, h2, jsonSpace_iff.2 e4, ?_⟩
        rw [e1, h1, e3, List.append_assoc]
      · simp at h
    · simp at h
  · rintro ⟨w, q, w', h1, h2, h3, rfl⟩
    rw [jsonSpace_iff] at h1 h3
    obtain ⟨h0, h4⟩ := parse_complete rf h2
    obtain ⟨c, q', hq, hc, -⟩ := text_head h2
    have hd : Delim w' := by simpa using delim_of_ws h3 (Or.inl rfl)
    have e1 : skipWs (w ++ q ++ w') = q ++ w' := by
      rw [List.append_assoc, hq, List.cons_append]; exact skipWs_app _ h1 hc
    have e2 := h4 (q ++ w').length w' (by simp) hd
    have hb : (w ++ q ++ w').head? ≠ some (Char.ofNat 0xFEFF) := by
      cases w with
      | cons a w =>
        simp only [List.cons_append, List.head?_cons, ne_eq, Option.some.injEq]
        rintro rfl
        have := h1 (Char.ofNat 0xFEFF) (by simp)
        revert this; decide
      | nil =>
        rw [hq, List.cons_append] at e2
        have := (parse_head e2).2
        rw [hq]
        simpa using this
    unfold loads
    rw [if_neg hb, e1, e2]
    have : skipWs w' = [] := by
      have := skipWs_ws w' [] h3
      simpa [skipWs] using this
    simp [this]

end Verif.Json
