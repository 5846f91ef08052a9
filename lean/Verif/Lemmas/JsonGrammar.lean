import Verif.Lemmas.JsonDump
import Verif.Lemmas.JsonDoc
import Verif.Spec.JsonGrammar
import Mathlib.Data.List.Induction
/-!
# The decoder against the grammar
-/

namespace Verif.Json
open Verif Verif.Spec

/-! ## White space and strings -/

theorem jsonSpace_iff {w : Str} : JsonSpace w ↔ ∀ c ∈ w, isWs c = true := by
  refine forall₂_congr fun c _ => ?_
  simp [isWs, or_assoc]

theorem hexDigit_iff (c : Char) (n : Nat) : HexDigit c n ↔ hexVal c = some n := by
  constructor
  · have key : ∀ n, n < 16 → ∀ c, ("0123456789abcdef".toList[n]? = some c ∨ "0123456789ABCDEF".toList[n]? = some c) →
        hexVal c = some n := by
      intro n hn c
      have : n = 0 ∨ n = 1 ∨ n = 2 ∨ n = 3 ∨ n = 4 ∨ n = 5 ∨ n = 6 ∨ n = 7 ∨ n = 8 ∨ n = 9 ∨ n = 10 ∨ n = 11 ∨ n = 12 ∨
        n = 13 ∨ n = 14 ∨ n = 15 := by omega
      rcases this with rfl | rfl | rfl | rfl | rfl | rfl | rfl | rfl | rfl | rfl | rfl | rfl | rfl | rfl | rfl | rfl
      all_goals (rintro (h | h) <;> (simp at h; subst h; decide))
    intro h
    refine key n ?_ c h
    rcases h with h | h <;> simpa using (List.getElem?_eq_some_iff.1 h).1
  · intro h
    have hb : ∀ m, c.toNat = m → c = Char.ofNat m := fun m hm => by rw [← hm, Char.ofNat_toNat]
    unfold hexVal at h
    simp only at h
    split at h
    · rename_i hc
      obtain ⟨m, hm⟩ : ∃ m, c.toNat = m := ⟨_, rfl⟩
      rw [hm] at h hc
      have := hb m hm
      cases h
      subst this
      have : m = 48 ∨ m = 49 ∨ m = 50 ∨ m = 51 ∨ m = 52 ∨ m = 53 ∨ m = 54 ∨ m = 55 ∨ m = 56 ∨ m = 57 := by omega
      rcases this with rfl | rfl | rfl | rfl | rfl | rfl | rfl | rfl | rfl | rfl <;> exact Or.inl (by decide)
    split at h
    · rename_i hc
      obtain ⟨m, hm⟩ : ∃ m, c.toNat = m := ⟨_, rfl⟩
      rw [hm] at h hc
      have := hb m hm
      cases h
      subst this
      have : m = 97 ∨ m = 98 ∨ m = 99 ∨ m = 100 ∨ m = 101 ∨ m = 102 := by omega
      rcases this with rfl | rfl | rfl | rfl | rfl | rfl <;> exact Or.inl (by decide)
    split at h
    · rename_i hc
      obtain ⟨m, hm⟩ : ∃ m, c.toNat = m := ⟨_, rfl⟩
      rw [hm] at h hc
      have := hb m hm
      cases h
      subst this
      have : m = 65 ∨ m = 66 ∨ m = 67 ∨ m = 68 ∨ m = 69 ∨ m = 70 := by omega
      rcases this with rfl | rfl | rfl | rfl | rfl | rfl <;> exact Or.inr (by decide)
    · cases h

theorem hex4_iff (a b c d : Char) (n : Nat) : Hex4 [a, b, c, d] n ↔ hex4 a b c d = some n := by
  constructor
  · rintro ⟨_, _, _, _, x, y, z, t, h, h1, h2, h3, h4, rfl⟩
    simp only [List.cons.injEq, and_true] at h
    obtain ⟨rfl, rfl, rfl, rfl⟩ := h
    rw [hexDigit_iff] at h1 h2 h3 h4
    simp [hex4, h1, h2, h3, h4]
    omega
  · intro h
    unfold hex4 at h
    obtain ⟨x, h1, h⟩ := Option.bind_eq_some_iff.1 h
    obtain ⟨y, h2, h⟩ := Option.bind_eq_some_iff.1 h
    obtain ⟨z, h3, h⟩ := Option.bind_eq_some_iff.1 h
    obtain ⟨t, h4, h⟩ := Option.bind_eq_some_iff.1 h
    cases h
    exact ⟨a, b, c, d, x, y, z, t, rfl, (hexDigit_iff _ _).2 h1, (hexDigit_iff _ _).2 h2, (hexDigit_iff _ _).2 h3,
      (hexDigit_iff _ _).2 h4, by omega⟩

theorem unescape_iff (e c : Char) : unescape e = some c ↔ (e, c) ∈ shortEscapes := by
  unfold unescape shortEscapes
  constructor
  · intro h
    repeat' split at h
    all_goals (try cases h)
    all_goals (subst_vars; simp)
  · intro h
    simp only [List.mem_cons, Prod.mk.injEq, List.not_mem_nil, or_false] at h
    rcases h with ⟨rfl, rfl⟩ | ⟨rfl, rfl⟩ | ⟨rfl, rfl⟩ | ⟨rfl, rfl⟩ | ⟨rfl, rfl⟩ | ⟨rfl, rfl⟩ | ⟨rfl, rfl⟩ | ⟨rfl, rfl⟩ <;> rfl

theorem hex4_lt {a b c d : Char} {n : Nat} (h : hex4 a b c d = some n) : n < 65536 := by
  have key : ∀ {c : Char} {n}, hexVal c = some n → n < 16 := by
    intro c n h
    unfold hexVal at h
    simp only at h
    repeat' split at h
    all_goals (cases h)
    all_goals omega
  obtain ⟨_, _, _, _, x, y, z, t, e, h1, h2, h3, h4, rfl⟩ := (hex4_iff a b c d n).2 h
  rw [hexDigit_iff] at h1 h2 h3 h4
  have := key h1; have := key h2; have := key h3; have := key h4
  omega

theorem toNat_ofNat {n : Nat} (h : n.isValidChar) : (Char.ofNat n).toNat = n := by
  unfold Char.ofNat
  rw [dif_pos h]
  rfl

theorem valid_toNat (c : Char) : c.toNat < 0xD800 ∨ (0xDFFF < c.toNat ∧ c.toNat < 0x110000) := c.valid

/-- What is scanned is what the grammar says. -/
theorem scanStr_sound (s : Str) : ∀ x r, scanStr s = some (x, r) → ∃ q, s = q ++ '"' :: r ∧ StringBody q x := by
  fun_induction scanStr s
  all_goals intro x r h
  all_goals simp only [Option.map_eq_some_iff, Prod.mk.injEq, reduceCtorEq, Option.some.injEq] at h
  case case2 =>
    obtain ⟨rfl, rfl⟩ := h
    exact ⟨[], rfl, .nil⟩
  case case6 a hx hu _ _ c1 d1 e1 f1 r2 hb w hw hw' hq ih =>
    obtain ⟨⟨y, r0⟩, h1, rfl, rfl⟩ := h
    obtain ⟨q, h2, h3⟩ := ih _ _ h1
    obtain ⟨rfl, rfl⟩ := hb
    subst h2
    refine ⟨('\\' :: 'u' :: [_, _, _, _] ++ ('\\' :: 'u' :: [_, _, _, _] ++ [])) ++ q, rfl, .units ?_ h3⟩
    have hv : (65536 + (a - 55296) * 1024 + (w - 56320)).isValidChar := by right; omega
    have : utf16 (Char.ofNat (65536 + (a - 55296) * 1024 + (w - 56320))) = [a, w] := by
      rw [utf16, toNat_ofNat hv, if_neg (by omega)]
      have e1 : 55296 + (65536 + (a - 55296) * 1024 + (w - 56320) - 65536) / 1024 = a := by omega
      have e2 : 56320 + (65536 + (a - 55296) * 1024 + (w - 56320) - 65536) % 1024 = w := by omega
      rw [e1, e2]
    rw [this]
    exact .cons ((hex4_iff _ _ _ _ _).2 hx) (.cons ((hex4_iff _ _ _ _ _).2 hw) .nil)
  case case11 hx hu hl hq ih =>
    obtain ⟨⟨y, r0⟩, h1, rfl, rfl⟩ := h
    obtain ⟨q, h2, h3⟩ := ih _ _ h1
    subst h2
    refine ⟨('\\' :: 'u' :: [_, _, _, _] ++ []) ++ q, rfl, .units ?_ h3⟩
    have := hex4_lt hx
    rw [utf16, toNat_ofNat (by unfold Nat.isValidChar; omega), if_pos (by omega)]
    exact .cons ((hex4_iff _ _ _ _ _).2 hx) .nil
  case case14 hu x hx hq ih =>
    obtain ⟨⟨y, r0⟩, h1, rfl, rfl⟩ := h
    obtain ⟨q, h2, h3⟩ := ih _ _ h1
    subst h2
    exact ⟨'\\' :: _ :: q, rfl, .short ((unescape_iff _ _).1 hx) h3⟩
  case case16 h1 h2 h3 ih =>
    obtain ⟨⟨y, r0⟩, h4, rfl, rfl⟩ := h
    obtain ⟨q, h5, h6⟩ := ih _ _ h4
    subst h5
    exact ⟨_ :: q, rfl, .plain (by omega) h1 h2 h6⟩

/-- What the grammar allows is scanned. -/
theorem scanStr_complete {q x : Str} (h : StringBody q x) : ∀ r, scanStr (q ++ '"' :: r) = some (x, r) := by
  induction h with
  | nil => intro r; rw [List.nil_append, scanStr.eq_def]; simp
  | plain h1 h2 h3 _ ih =>
    intro r
    rw [List.cons_append, scanStr.eq_def]
    have := ih r
    simp [h2, h3, this]
    omega
  | short h1 _ ih =>
    intro r
    rw [List.cons_append, List.cons_append, scanStr.eq_def]
    have h2 := (unescape_iff _ _).2 h1
    have h3 : ∀ p ∈ shortEscapes, p.1 ≠ 'u' := by decide
    simp [h2, h3 _ h1, ih r]
  | @units p c q s h1 _ ih =>
    intro r
    unfold utf16 at h1
    have hc := valid_toNat c
    split at h1
    · generalize hu : c.toNat = u at h1
      cases h1 with
      | cons h2 h3 =>
        cases h3
        obtain ⟨a, b, c', d, _, _, _, _, rfl, _⟩ := id h2
        rw [hex4_iff] at h2
        simp only [List.cons_append, List.nil_append]
        rw [scanStr.eq_def]
        have e1 : ¬ (55296 ≤ u ∧ u ≤ 56319) := by omega
        have e2 : ¬ (56320 ≤ u ∧ u ≤ 57343) := by omega
        simp only [h2, ih r, e1, e2, if_false]
        simp [← hu, Char.ofNat_toNat]
    · generalize hu : 0xD800 + (c.toNat - 0x10000) / 0x400 = u at h1
      generalize hw : 0xDC00 + (c.toNat - 0x10000) % 0x400 = w at h1
      cases h1 with
      | cons h2 h3 =>
        cases h3 with
        | cons h3 h4 =>
        cases h4
        obtain ⟨a, b, c', d, _, _, _, _, rfl, _⟩ := id h2
        obtain ⟨a, b, c', d, _, _, _, _, rfl, _⟩ := id h3
        rw [hex4_iff] at h2 h3
        simp only [List.append_assoc, List.cons_append, List.nil_append]
        rw [scanStr.eq_def]
        have e1 : 55296 ≤ u ∧ u ≤ 56319 := by omega
        have e2 : 56320 ≤ w ∧ w ≤ 57343 := by omega
        have e3 : 65536 + (u - 55296) * 1024 + (w - 56320) = c.toNat := by omega
        simp only [h2, h3, ih r, e1, e2, e3, and_self, if_true]
        simp [Char.ofNat_toNat]

/-! ## Numbers -/

theorem digits_iff {s : Str} : Digits s ↔ s ≠ [] ∧ ∀ c ∈ s, isDigit c = true := by
  refine and_congr_right fun _ => forall₂_congr fun c _ => ?_
  constructor
  · intro h
    simp at h
    rcases h with rfl | rfl | rfl | rfl | rfl | rfl | rfl | rfl | rfl | rfl <;> decide
  · intro h
    have h : 48 ≤ c.toNat ∧ c.toNat ≤ 57 := by simpa [isDigit] using h
    obtain ⟨m, hm⟩ : ∃ m, c.toNat = m := ⟨_, rfl⟩
    rw [hm] at h
    have hc : c = Char.ofNat m := by rw [← hm, Char.ofNat_toNat]
    have : m = 48 ∨ m = 49 ∨ m = 50 ∨ m = 51 ∨ m = 52 ∨ m = 53 ∨ m = 54 ∨ m = 55 ∨ m = 56 ∨ m = 57 := by omega
    rw [hc]
    rcases this with rfl | rfl | rfl | rfl | rfl | rfl | rfl | rfl | rfl | rfl <;> decide

theorem digitsVal_snoc (d : Str) (c : Char) : digitsVal (d ++ [c]) = digitsVal d * 10 + (c.toNat - 48) := by
  simp [digitsVal]

theorem digitChar_of {c : Char} (h : isDigit c = true) : Nat.digitChar (c.toNat - 48) = c ∧ c.toNat - 48 < 10 := by
  have h : 48 ≤ c.toNat ∧ c.toNat ≤ 57 := by simpa [isDigit] using h
  obtain ⟨m, hm⟩ : ∃ m, c.toNat = m := ⟨_, rfl⟩
  rw [hm] at h
  have hc : c = Char.ofNat m := by rw [← hm, Char.ofNat_toNat]
  have : m = 48 ∨ m = 49 ∨ m = 50 ∨ m = 51 ∨ m = 52 ∨ m = 53 ∨ m = 54 ∨ m = 55 ∨ m = 56 ∨ m = 57 := by omega
  rw [hm, hc]
  rcases this with rfl | rfl | rfl | rfl | rfl | rfl | rfl | rfl | rfl | rfl <;> decide

/-- Digits without leading zeros are the decimal notation of the number they denote. -/
theorem toDigits_val (d : Str) : Digits d → (d = ['0'] ∨ d.head? ≠ some '0') → Nat.toDigits 10 (digitsVal d) = d ∧
    (d.head? ≠ some '0' → 0 < digitsVal d) := by
  induction d using List.reverseRecOn with
  | nil => intro h; exact absurd rfl h.1
  | append_singleton d c ih =>
    intro h hz
    have h' := (digits_iff.1 h).2
    have hc : isDigit c = true := h' c (by simp)
    obtain ⟨hc1, hc2⟩ := digitChar_of hc
    by_cases h0 : d = []
    · subst h0
      have e : digitsVal ([] ++ [c]) = c.toNat - 48 := by simp [digitsVal]
      rw [e, Nat.toDigits_of_lt_base hc2, hc1]
      refine ⟨rfl, fun hh => ?_⟩
      by_contra hn
      have : c.toNat - 48 = 0 := by omega
      rw [this] at hc1
      exact hh (by rw [← hc1]; rfl)
    · have hd : Digits d := digits_iff.2 ⟨h0, fun x hx => h' x (by simp [hx])⟩
      have hh : d.head? ≠ some '0' := by
        rcases hz with hz | hz
        · exfalso
          have := congrArg List.length hz
          simp at this
          exact h0 this
        · rwa [List.head?_append_of_ne_nil _ h0] at hz
      obtain ⟨i1, i2⟩ := ih hd (.inr hh)
      have hpos := i2 hh
      rw [digitsVal_snoc]
      refine ⟨?_, fun _ => by omega⟩
      rw [Nat.toDigits_eq_if (by omega), if_neg (by omega)]
      have e1 : (digitsVal d * 10 + (c.toNat - 48)) / 10 = digitsVal d := by omega
      have e2 : (digitsVal d * 10 + (c.toNat - 48)) % 10 = c.toNat - 48 := by omega
      rw [e1, e2, i1, hc1]

theorem scanFrac_sound (s : Str) : s = (scanFrac s).1 ++ (scanFrac s).2 ∧
    ((scanFrac s).1 = [] ∨ ∃ d, Digits d ∧ (scanFrac s).1 = '.' :: d) := by
  refine ⟨(scanFrac_spec s).1, ?_⟩
  unfold scanFrac
  split
  · rename_i t
    by_cases h : (t.takeWhile isDigit).isEmpty
    · simp [h]
    · right
      refine ⟨t.takeWhile isDigit, digits_iff.2 ⟨by simpa using h, takeWhile_digit t⟩, by simp [h]⟩
  · exact .inl rfl

theorem scanExp_sound (s : Str) : s = (scanExp s).1 ++ (scanExp s).2 ∧
    ((scanExp s).1 = [] ∨ ∃ e sg d, Digits d ∧ (sg = [] ∨ sg = ['-'] ∨ sg = ['+']) ∧ (e = 'e' ∨ e = 'E') ∧
      (scanExp s).1 = e :: sg ++ d) := by
  refine ⟨(scanExp_spec s).1, ?_⟩
  unfold scanExp
  split
  · exact .inl rfl
  · rename_i e t
    by_cases he : e = 'e' ∨ e = 'E'
    · simp only [he, if_true]
      by_cases h : ((t.drop (scanSign t).length).takeWhile isDigit).isEmpty
      · simp [h]
      · right
        refine ⟨e, scanSign t, _, digits_iff.2 ⟨by simpa using h, takeWhile_digit _⟩, ?_, he, by simp [h]⟩
        unfold scanSign
        split
        · exact .inl rfl
        · split
          · rename_i hc
            rcases hc with rfl | rfl <;> simp
          · exact .inl rfl
    · simp [he]

/-- What `scanUnsigned` takes off the text is a number literal. -/
theorem scanUnsigned_sound (rf : Str → Str) (neg : Bool) (s : Str) (v : Val) (r : Str)
    (h : scanUnsigned rf neg s = some (v, r)) : ∃ ip fr ex, s = ip ++ fr ++ ex ++ r ∧
      NumberParts (if neg then ['-'] else []) ip fr ex ∧
      v = if fr.isEmpty && ex.isEmpty then .int (if neg then -(digitsVal ip : Int) else (digitsVal ip : Int))
        else .float (rf ((if neg then ['-'] else []) ++ ip ++ fr ++ ex)) := by
  cases s with
  | nil => simp [scanUnsigned] at h
  | cons c cs =>
    by_cases hc : isDigit c = true
    swap
    · simp [scanUnsigned, hc] at h
    obtain ⟨ip, hip⟩ : ∃ d : Str, d = if c = '0' then ['0'] else c :: cs.takeWhile isDigit := ⟨_, rfl⟩
    obtain ⟨t, ht⟩ : ∃ t : Str, t = if c = '0' then cs else cs.dropWhile isDigit := ⟨_, rfl⟩
    have hs : c :: cs = ip ++ t := by
      rw [hip, ht]; split
      · rename_i h; simp [h]
      · simp
    have hi : Digits ip ∧ (ip = ['0'] ∨ ip.head? ≠ some '0') := by
      rw [hip]
      split
      · exact ⟨digits_iff.2 (by simp; decide), .inl rfl⟩
      · rename_i h0
        exact ⟨digits_iff.2 ⟨by simp, by simpa [hc] using takeWhile_digit cs⟩, .inr (by simpa using h0)⟩
    simp only [scanUnsigned, hc, if_true, ← hip, ← ht] at h
    obtain ⟨f1, f2⟩ := scanFrac_sound t
    obtain ⟨e1, e2⟩ := scanExp_sound (scanFrac t).2
    refine ⟨ip, (scanFrac t).1, (scanExp (scanFrac t).2).1, ?_, ⟨?_, hi, f2, e2⟩, ?_⟩
    · rw [hs]
      have hr : (scanExp (scanFrac t).2).2 = r := by
        split at h <;> cases h <;> rfl
      rw [← hr, List.append_assoc, ← e1, List.append_assoc, ← f1]
    · cases neg <;> simp
    · split at h
      · rename_i hh; rw [if_pos hh]; cases h; rfl
      · rename_i hh; rw [if_neg hh]; cases h; rfl

/-- What `scanUnsigned` takes off the text, with the sign before it, is a value. -/
theorem scanUnsigned_text (rf : Str → Str) (neg : Bool) (s : Str) (v : Val) (r : Str)
    (h : scanUnsigned rf neg s = some (v, r)) :
    ∃ q, s = q ++ r ∧ JsonText rf ((if neg then ['-'] else []) ++ q) v := by
  obtain ⟨ip, fr, ex, h1, h2, h3⟩ := scanUnsigned_sound rf neg s v r h
  refine ⟨ip ++ fr ++ ex, h1, ?_⟩
  split at h3
  · rename_i he
    simp only [Bool.and_eq_true, List.isEmpty_iff] at he
    obtain ⟨rfl, rfl⟩ := he
    subst h3
    obtain ⟨i1, i2⟩ := toDigits_val ip h2.int.1 h2.int.2
    simp only [List.append_nil]
    cases neg
    · have := JsonText.int (rf := rf) (Int.ofNat (digitsVal ip))
      rw [Str.ofInt, i1] at this
      simpa using this
    · rcases h2.int.2 with hz | hz
      · subst hz
        exact .minusZero
      · obtain ⟨n, hn⟩ : ∃ n, digitsVal ip = n + 1 := ⟨digitsVal ip - 1, by have := i2 hz; omega⟩
        have := JsonText.int (rf := rf) (Int.negSucc n)
        rw [Str.ofInt, ← hn, i1] at this
        rw [hn]
        simpa [Int.negSucc_eq] using this
  · rename_i he
    subst h3
    have := JsonText.float (rf := rf) h2 (by simpa using he)
    simpa using this

/-- What `scanScalar` takes off the text is a value. -/
theorem scanScalar_text (rf : Str → Str) (c : Char) (s : Str) (v : Val) (r : Str)
    (h : scanScalar rf c s = some (v, r)) : ∃ q, s = q ++ r ∧ JsonText rf (c :: q) v := by
  have lit : ∀ (p : Str) (w : Val), (afterPrefix p s).map (fun r => (w, r)) = some (v, r) → JsonText rf (c :: p) w →
      ∃ q, s = q ++ r ∧ JsonText rf (c :: q) v := by
    intro p w h1 h2
    obtain ⟨r', h3, h4⟩ := Option.map_eq_some_iff.1 h1
    cases h4
    exact ⟨p, afterPrefix_spec h3, h2⟩
  unfold scanScalar at h
  split at h
  · rename_i hc; subst hc; exact lit _ _ h .null
  split at h
  · rename_i hc; subst hc; exact lit _ _ h .tt
  split at h
  · rename_i hc; subst hc; exact lit _ _ h .ff
  split at h
  · rename_i hc; subst hc; exact lit _ _ h .nan
  split at h
  · rename_i hc; subst hc; exact lit _ _ h .inf
  split at h
  · rename_i hc
    subst hc
    split at h
    · rename_i x hx
      cases h
      obtain ⟨q, h1, h2⟩ := scanUnsigned_text _ _ _ _ _ hx
      exact ⟨q, h1, by simpa using h2⟩
    · exact lit _ _ h .ninf
  · obtain ⟨q, h1, h2⟩ := scanUnsigned_text _ _ _ _ _ h
    simp only [Bool.false_eq_true, if_false, List.nil_append] at h2
    cases q with
    | nil =>
      exfalso
      obtain ⟨q', e1, e2, -⟩ := scanUnsigned_spec _ _ _ _ _ h
      rw [List.nil_append] at h1
      rw [h1] at e1
      have := congrArg List.length e1
      simp at this
      exact e2 this
    | cons a q =>
      simp only [List.cons_append, List.cons.injEq] at h1
      obtain ⟨rfl, h1⟩ := h1
      exact ⟨q, h1, h2⟩

/-! ## Dicts -/

theorem lookup_setPair (k : String) (v : Val) (d : List (String × Val)) (k' : String) :
    (setPair k v d).lookup k' = if k' = k then some v else d.lookup k' := by
  induction d with
  | nil =>
    by_cases h : k' = k
    · simp [setPair, h]
    · have h' : (k' == k) = false := by simpa using h
      simp [setPair, h, h', List.lookup_cons]
  | cons p d ih =>
    obtain ⟨a, b⟩ := p
    rw [setPair]
    split
    · rename_i h; subst h
      by_cases h : k' = a
      · simp [h]
      · have h' : (k' == a) = false := by simpa using h
        simp [h, h', List.lookup_cons]
    · rename_i h
      rw [List.lookup_cons, ih, List.lookup_cons]
      by_cases h1 : k' = a
      · have h2 : k' ≠ k := by rw [h1]; exact h
        simp [h1, h]
      · have : (k' == a) = false := by simpa using h1
        simp [this]

theorem ofPairs_snoc (l : List (String × Val)) (p : String × Val) : ofPairs (l ++ [p]) = setPair p.1 p.2 (ofPairs l) := by
  simp [ofPairs]

theorem keys_setPair (k : String) (v : Val) (d : List (String × Val)) :
    (setPair k v d).map Prod.fst = if k ∈ d.map Prod.fst then d.map Prod.fst else d.map Prod.fst ++ [k] := by
  induction d with
  | nil => simp [setPair]
  | cons p d ih =>
    obtain ⟨a, b⟩ := p
    rw [setPair]
    split
    · rename_i h; simp [h]
    · rename_i h
      rw [List.map_cons, ih]
      simp only [List.map_cons, List.mem_cons, Ne.symm h, false_or]
      split <;> simp

theorem eraseDups_snoc (l : List String) (k : String) :
    (l ++ [k]).eraseDups = if k ∈ l then l.eraseDups else l.eraseDups ++ [k] := by
  rw [List.eraseDups_append]
  split
  · rename_i h
    have : [k].removeAll l = [] := by simp [List.removeAll, h]
    rw [this]; simp
  · rename_i h
    have : [k].removeAll l = [k] := by simp [List.removeAll, h]
    rw [this]; simp [List.eraseDups_cons]

/-- `dict(pairs)` is the dict the items denote. -/
theorem dictOf_ofPairs (l : List (String × Val)) : DictOf l (ofPairs l) := by
  induction l using List.reverseRecOn with
  | nil => exact ⟨rfl, fun _ => rfl⟩
  | append_singleton l p ih =>
    constructor
    · rw [ofPairs_snoc, keys_setPair, List.map_append, List.map_singleton, eraseDups_snoc, ih.keys]
      simp only [List.mem_eraseDups]
    · intro k
      rw [ofPairs_snoc, lookup_setPair, List.reverse_append, List.reverse_singleton, List.singleton_append, List.lookup_cons,
        ih.vals]
      by_cases h : k = p.1
      · simp [h]
      · have : (k == p.1) = false := by simpa using h
        simp [this, h]

theorem nodup_keys (l : List (String × Val)) : ((ofPairs l).map Prod.fst).Nodup := by
  induction l using List.reverseRecOn with
  | nil => simp [ofPairs]
  | append_singleton l p ih =>
    rw [ofPairs_snoc, keys_setPair]
    split
    · exact ih
    · rename_i h
      refine List.nodup_append.2 ⟨ih, by simp, ?_⟩
      intro a ha b hb
      simp only [List.mem_singleton] at hb
      rintro rfl
      exact h (hb ▸ ha)

theorem ext_lookup : ∀ (a b : List (String × Val)), a.map Prod.fst = b.map Prod.fst → (a.map Prod.fst).Nodup →
    (∀ k, a.lookup k = b.lookup k) → a = b
  | [], [], _, _, _ => rfl
  | [], _ :: _, h, _, _ => by simp at h
  | _ :: _, [], h, _, _ => by simp at h
  | (k, v) :: a, (k', v') :: b, h, hn, hl => by
      simp only [List.map_cons, List.cons.injEq] at h
      obtain ⟨rfl, h⟩ := h
      simp only [List.map_cons, List.nodup_cons] at hn
      have h1 := hl k
      simp only [List.lookup_cons_self, Option.some.injEq] at h1
      subst h1
      rw [ext_lookup a b h hn.2]
      intro x
      by_cases hx : x = k
      · subst hx
        have key : ∀ (l : List (String × Val)), x ∉ l.map Prod.fst → l.lookup x = Option.none := by
          intro l hl
          rw [List.lookup_eq_none_iff]
          intro p hp
          simp only [bne_iff_ne, ne_eq]
          rintro rfl
          exact hl (List.mem_map_of_mem hp)
        rw [key a hn.1, key b (h ▸ hn.1)]
      · have := hl x
        have hx : (x == k) = false := by simpa using hx
        simpa [List.lookup_cons, hx] using this

theorem dictOf_unique {l d : List (String × Val)} (h : DictOf l d) : ofPairs l = d := by
  have h0 := dictOf_ofPairs l
  refine ext_lookup _ _ (h0.keys.trans h.keys.symm) (nodup_keys l) fun k => (h0.vals k).trans (h.vals k).symm

end Verif.Json
