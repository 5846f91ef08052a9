import Verif.Lemmas.Json
import Verif.Spec.Json
/-!
# What `json.loads` makes of the output of `json.dumps`
-/

namespace Verif.Json
open Verif.Spec

/-! ## Strings -/

theorem char_toNat_inj {c d : Char} (h : c.toNat = d.toNat) : c = d := Char.ext (UInt32.toNat_inj.1 h)

theorem hex_ctrl (n : Nat) (h : n < 32) : hex4 '0' '0' (hexChar (n / 16)) (hexChar (n % 16)) = some n := by
  revert n; decide

theorem scanStr_escape (c : Char) (r : Str) :
    scanStr (escapeChar c ++ r) = (scanStr r).map fun p => (c :: p.1, p.2) := by
  unfold escapeChar
  split; · rename_i h; subst h; rw [scanStr.eq_def]; simp [unescape]
  split; · rename_i h; subst h; rw [scanStr.eq_def]; simp [unescape]
  split; · rename_i h; subst h; rw [scanStr.eq_def]; simp [unescape]
  split; · rename_i h; subst h; rw [scanStr.eq_def]; simp [unescape]
  split; · rename_i h; subst h; rw [scanStr.eq_def]; simp [unescape]
  split
  · rename_i h; have : c = Char.ofNat 8 := char_toNat_inj (by rw [h]; rfl)
    subst this; rw [scanStr.eq_def]; simp [unescape]
  split
  · rename_i h; have : c = Char.ofNat 12 := char_toNat_inj (by rw [h]; rfl)
    subst this; rw [scanStr.eq_def]; simp [unescape]
  split
  · rename_i h
    have h4 := hex_ctrl c.toNat h
    have e1 : ¬ (0xD800 ≤ c.toNat ∧ c.toNat ≤ 0xDBFF) := by omega
    have e2 : ¬ (0xDC00 ≤ c.toNat ∧ c.toNat ≤ 0xDFFF) := by omega
    have e3 : Char.ofNat c.toNat = c := by simp
    rw [scanStr.eq_def]
    simp only [List.cons_append, List.nil_append, Char.reduceEq, if_false, if_true, h4, e1, e2, e3]
  · rename_i h1 h2 _ _ _ _ _ h3
    rw [List.singleton_append, scanStr.eq_def]
    simp only [h1, h2, h3, if_false]

theorem scanStr_encode (s r : Str) : scanStr (s.flatMap escapeChar ++ '"' :: r) = some (s, r) := by
  induction s with
  | nil => rw [List.flatMap_nil, List.nil_append, scanStr.eq_def]; simp
  | cons c s ih =>
    rw [List.flatMap_cons, List.append_assoc, scanStr_escape, ih]; rfl

/-! ## Numbers -/

theorem digits_isDigit {s : Str} (h : Digits s) : ∀ c ∈ s, isDigit c = true := by
  intro c hc
  have key : ∀ c ∈ "0123456789".toList, isDigit c = true := by decide
  exact key c (h.2 c hc)

theorem scanFrac_digits {d b : Str} (hd : ∀ c ∈ d, isDigit c = true) (h0 : d ≠ []) (hb : Stop b) :
    scanFrac ('.' :: d ++ b) = ('.' :: d, b) := by
  have := takeWhile_app hd hb
  simp only [scanFrac, List.cons_append, this]
  simp [h0]

theorem scanFrac_stop {b : Str} (hb : Stop b) : scanFrac b = ([], b) := by
  unfold scanFrac
  split
  · exact absurd rfl (hb _ _ rfl).2
  · rfl

theorem scanExp_delim {b : Str} (hb : Delim b) : scanExp b = ([], b) := by
  unfold scanExp
  split
  · rfl
  · rename_i e s
    have : ¬ (e = 'e' ∨ e = 'E') := by
      rcases hb.cases' with h | h | h | h | h | h | h <;> subst h <;> decide
    simp [this]

theorem scanExp_digits {e : Char} {sg d b : Str} (he : e = 'e' ∨ e = 'E') (hs : sg = [] ∨ sg = ['-'] ∨ sg = ['+'])
    (hd : ∀ c ∈ d, isDigit c = true) (h0 : d ≠ []) (hb : Delim b) :
    scanExp (e :: sg ++ d ++ b) = (e :: sg ++ d, b) := by
  have h1 := takeWhile_app hd hb.stop
  obtain ⟨c0, d0, hc0⟩ : ∃ c0 d0, d = c0 :: d0 := List.exists_cons_of_ne_nil h0
  have hc0d : isDigit c0 = true := hd c0 (by simp [hc0])
  have hg : scanSign (sg ++ (d ++ b)) = sg := by
    rcases hs with h | h | h
    · rw [h, hc0]
      have : ¬ (c0 = '-' ∨ c0 = '+') := by
        rintro (rfl | rfl) <;> revert hc0d <;> decide
      simp [scanSign, this]
    · rw [h]; simp [scanSign]
    · rw [h]; simp [scanSign]
  simp only [List.cons_append, List.append_assoc]
  simp only [scanExp, he, if_true, hg, List.drop_left, h1]
  simp [h0]

/-- A number literal is scanned completely. -/
theorem scanUnsigned_lit (rf : Str → Str) (neg : Bool) {ip fr ex b : Str} (hi : ∀ c ∈ ip, isDigit c = true) (hi0 : ip ≠ [])
    (hz : ip = ['0'] ∨ ip.head? ≠ some '0') (hf : fr = [] ∨ ∃ d, Digits d ∧ fr = '.' :: d)
    (he : ex = [] ∨ ∃ e sg d, Digits d ∧ (sg = [] ∨ sg = ['-'] ∨ sg = ['+']) ∧ (e = 'e' ∨ e = 'E') ∧ ex = e :: sg ++ d)
    (hb : Delim b) :
    scanUnsigned rf neg (ip ++ (fr ++ (ex ++ b))) =
      if fr.isEmpty && ex.isEmpty then some (.int (if neg then -(digitsVal ip : Int) else (digitsVal ip : Int)), b)
      else some (.float (rf ((if neg then ['-'] else []) ++ ip ++ fr ++ ex)), b) := by
  have hE : scanExp (ex ++ b) = (ex, b) := by
    rcases he with rfl | ⟨e, sg, d, h1, h2, h3, rfl⟩
    · exact scanExp_delim hb
    · exact scanExp_digits h3 h2 (digits_isDigit h1) h1.1 hb
  have hS : Stop (ex ++ b) := by
    rcases he with rfl | ⟨e, sg, d, h1, h2, h3, rfl⟩
    · exact hb.stop
    · rintro c r h
      simp only [List.cons_append, List.cons.injEq] at h
      obtain ⟨rfl, -⟩ := h
      rcases h3 with rfl | rfl <;> decide
  have hF : scanFrac (fr ++ (ex ++ b)) = (fr, ex ++ b) := by
    rcases hf with rfl | ⟨d, h1, rfl⟩
    · exact scanFrac_stop hS
    · exact scanFrac_digits (digits_isDigit h1) h1.1 hS
  obtain ⟨c, d, rfl⟩ := List.exists_cons_of_ne_nil hi0
  have hc : isDigit c = true := hi c (by simp)
  have hd : ∀ x ∈ d, isDigit x = true := fun x hx => hi x (by simp [hx])
  have hT : (d ++ (fr ++ (ex ++ b))).takeWhile isDigit = d ∧ (d ++ (fr ++ (ex ++ b))).dropWhile isDigit = fr ++ (ex ++ b) := by
    rcases hf with rfl | ⟨d', h1, rfl⟩
    · exact takeWhile_app hd hS
    · clear hi hi0 hz hF
      induction d with
      | nil => simp [isDigit]
      | cons a d ih =>
        have := ih fun x hx => hd x (by simp [hx])
        have ha := hd a (by simp)
        simp only [List.cons_append] at this ⊢
        simp [ha, this]
  have h1 : (if c = '0' then ['0'] else c :: (d ++ (fr ++ (ex ++ b))).takeWhile isDigit) = c :: d := by
    split
    · rename_i h0
      subst h0
      rcases hz with hz | hz
      · simp at hz; simp [hz]
      · simp at hz
    · rw [hT.1]
  have h2 : (if c = '0' then d ++ (fr ++ (ex ++ b)) else (d ++ (fr ++ (ex ++ b))).dropWhile isDigit) = fr ++ (ex ++ b) := by
    split
    · rename_i h0
      subst h0
      rcases hz with hz | hz
      · simp at hz; simp [hz]
      · simp at hz
    · rw [hT.2]
  simp only [List.cons_append, scanUnsigned, hc, if_true, h1, h2, hF, hE]

theorem digitChar_isDigit {n : Nat} (h : n < 10) : isDigit (Nat.digitChar n) = true ∧ (Nat.digitChar n).toNat - 48 = n := by
  revert n; decide

theorem toDigits_spec (n : Nat) : (∀ c ∈ Nat.toDigits 10 n, isDigit c = true) ∧ Nat.toDigits 10 n ≠ [] ∧
    digitsVal (Nat.toDigits 10 n) = n ∧ (0 < n → (Nat.toDigits 10 n).head? ≠ some '0') := by
  induction n using Nat.strongRecOn with
  | ind n ih =>
    by_cases h : n < 10
    · rw [Nat.toDigits_of_lt_base h]
      refine ⟨by simpa using (digitChar_isDigit h).1, by simp, by simpa [digitsVal] using (digitChar_isDigit h).2, ?_⟩
      intro h0 h1
      simp only [List.head?_cons, Option.some.injEq] at h1
      have := (digitChar_isDigit h).2
      rw [h1] at this
      simp at this; omega
    · rw [Nat.toDigits_eq_if (by omega), if_neg h]
      obtain ⟨i1, i2, i3, i4⟩ := ih (n / 10) (by omega)
      have hm : n % 10 < 10 := by omega
      refine ⟨?_, by simp, ?_, ?_⟩
      · intro c hc
        simp only [List.mem_append, List.mem_singleton] at hc
        rcases hc with hc | rfl
        · exact i1 c hc
        · exact (digitChar_isDigit hm).1
      · have : digitsVal (Nat.toDigits 10 (n / 10) ++ [Nat.digitChar (n % 10)]) =
            digitsVal (Nat.toDigits 10 (n / 10)) * 10 + ((Nat.digitChar (n % 10)).toNat - 48) := by
          simp [digitsVal]
        rw [this, i3, (digitChar_isDigit hm).2]; omega
      · intro _
        rw [List.head?_append_of_ne_nil _ i2]
        exact i4 (by omega)

theorem scanUnsigned_nat (rf : Str → Str) (neg : Bool) (n : Nat) {b : Str} (hb : Delim b) :
    scanUnsigned rf neg (Nat.toDigits 10 n ++ b) = some (.int (if neg then -(n : Int) else (n : Int)), b) := by
  obtain ⟨h1, h2, h3, h4⟩ := toDigits_spec n
  have hz : Nat.toDigits 10 n = ['0'] ∨ (Nat.toDigits 10 n).head? ≠ some '0' := by
    rcases Nat.eq_zero_or_pos n with rfl | h
    · left; rfl
    · right; exact h4 h
  have := scanUnsigned_lit rf neg h1 h2 hz (Or.inl rfl) (Or.inl rfl) hb
  simpa [h3] using this

theorem isDigit_not {c : Char} (h : isDigit c = true) : isWs c = false ∧ c ≠ ']' ∧ c ≠ '"' ∧ c ≠ '{' ∧ c ≠ '[' ∧ c ≠ 'n' ∧
    c ≠ 't' ∧ c ≠ 'f' ∧ c ≠ 'N' ∧ c ≠ 'I' ∧ c ≠ '-' ∧ c ≠ '}' := by
  refine ⟨?_, ?_, ?_, ?_, ?_, ?_, ?_, ?_, ?_, ?_, ?_, ?_⟩
  · by_contra hw
    have hw : isWs c = true := by simpa using hw
    rcases isWs_cases hw with rfl | rfl | rfl | rfl <;> revert h <;> decide
  all_goals rintro rfl; revert h; decide

theorem scanScalar_digit (rf : Str → Str) {c : Char} (s : Str) (h : isDigit c = true) :
    scanScalar rf c s = scanUnsigned rf false (c :: s) := by
  obtain ⟨-, -, -, -, -, h1, h2, h3, h4, h5, h6, -⟩ := isDigit_not h
  simp [scanScalar, h1, h2, h3, h4, h5, h6]

theorem parse_digit (rf : Str → Str) (f : Nat) {s : Str} (hs : ∃ c r, s = c :: r ∧ isDigit c = true) :
    parse rf (f + 1) s = scanUnsigned rf false s := by
  obtain ⟨c, r, rfl, h⟩ := hs
  obtain ⟨-, -, h1, h2, h3, -⟩ := isDigit_not h
  simp [parse, h1, h2, h3, scanScalar_digit rf r h]

theorem parse_minus (rf : Str → Str) (f : Nat) {s : Str} {x} (h : scanUnsigned rf true s = some x) :
    parse rf (f + 1) ('-' :: s) = some x := by
  simp [parse, scanScalar, h]

/-- The text of a number: one sign at most, then a digit or `Infinity`. -/
theorem parse_int (rf : Str → Str) (f : Nat) (n : Int) {b : Str} (hb : Delim b) :
    parse rf (f + 1) (Str.ofInt n ++ b) = some (.int n, b) := by
  cases n with
  | ofNat n =>
    obtain ⟨h1, h2, -⟩ := toDigits_spec n
    have hh : ∃ c r, Nat.toDigits 10 n ++ b = c :: r ∧ isDigit c = true := by
      obtain ⟨c, d, hc⟩ := List.exists_cons_of_ne_nil h2
      exact ⟨c, d ++ b, by rw [hc]; rfl, h1 c (by simp [hc])⟩
    have e : Str.ofInt (Int.ofNat n) = Nat.toDigits 10 n := by simp [Str.ofInt]
    rw [e, parse_digit rf f hh, scanUnsigned_nat rf false n hb]
    simp
  | negSucc n =>
    have e : Str.ofInt (Int.negSucc n) = '-' :: Nat.toDigits 10 (n + 1) := by simp [Str.ofInt]
    rw [e, List.cons_append]
    refine parse_minus rf f ?_
    rw [scanUnsigned_nat rf true (n + 1) hb]
    simp [Int.negSucc_eq]

theorem parse_float (rf : Str → Str) (f : Nat) {r b : Str} (hr : FloatRepr rf r) (hb : Delim b) :
    parse rf (f + 1) (encodeFloat r ++ b) = some (.float r, b) := by
  rcases hr with rfl | rfl | rfl | ⟨⟨sign, ip, fr, ex, hrep, hs, ⟨hi, hz⟩, hf, he, hne⟩, hrf⟩
  · have e : encodeFloat "nan".toList = 'N' :: "aN".toList := by decide
    rw [e, List.cons_append, parse]
    simp only [Char.reduceEq, if_false]
    simp only [scanScalar, Char.reduceEq, if_false, if_true, afterPrefix_app, Option.map_some]
  · have e : encodeFloat "inf".toList = 'I' :: "nfinity".toList := by decide
    rw [e, List.cons_append, parse]
    simp only [Char.reduceEq, if_false]
    simp only [scanScalar, Char.reduceEq, if_false, if_true, afterPrefix_app, Option.map_some]
  · have e : encodeFloat "-inf".toList = '-' :: "Infinity".toList := by decide
    have : scanUnsigned rf true ("Infinity".toList ++ b) = Option.none := by
      have : isDigit 'I' = false := by decide
      simp [scanUnsigned, this]
    rw [e, List.cons_append, parse]
    simp only [Char.reduceEq, if_false]
    simp only [scanScalar, Char.reduceEq, if_false, if_true, this, afterPrefix_app, Option.map_some]
  · have hid := digits_isDigit hi
    obtain ⟨c, d, hc⟩ := List.exists_cons_of_ne_nil hi.1
    have hcd : isDigit c = true := hid c (by simp [hc])
    have hcn := isDigit_not hcd
    have e : encodeFloat r = r := by
      have h1 : r ≠ "nan".toList := by
        rintro rfl
        rcases hs with rfl | rfl <;> simp [hc] at hrep
        exact hcn.2.2.2.2.2.1 hrep.1.symm
      have h2 : r ≠ "inf".toList := by
        rintro rfl
        rcases hs with rfl | rfl <;> simp [hc] at hrep
        rw [← hrep.1] at hcd; revert hcd; decide
      have h3 : r ≠ "-inf".toList := by
        rintro rfl
        rcases hs with rfl | rfl <;> simp [hc] at hrep
        · exact hcn.2.2.2.2.2.2.2.2.2.2.1 hrep.1.symm
        · rw [← hrep.1] at hcd; revert hcd; decide
      simp only [encodeFloat, if_neg h1, if_neg h2, if_neg h3]
    have hemp : (fr.isEmpty && ex.isEmpty) = false := by
      simp only [Bool.and_eq_false_iff, List.isEmpty_eq_false_iff]
      by_contra hh
      rw [not_or] at hh
      exact hne ⟨by simpa using hh.1, by simpa using hh.2⟩
    rw [e]
    have he : ex = [] ∨ ∃ e sg d, Digits d ∧ (sg = [] ∨ sg = ['-'] ∨ sg = ['+']) ∧ (e = 'e' ∨ e = 'E') ∧
        ex = e :: sg ++ d := by
      rcases he with h | ⟨sg, d, h1, h2, h3⟩
      · exact .inl h
      · exact .inr ⟨'e', sg, d, h1, h2, .inl rfl, h3⟩
    rcases hs with rfl | rfl
    · have key := scanUnsigned_lit rf false hid hi.1 hz hf he hb
      have e2 : r ++ b = ip ++ (fr ++ (ex ++ b)) := by rw [hrep]; simp
      rw [e2, parse_digit rf f ⟨c, d ++ (fr ++ (ex ++ b)), by rw [hc]; rfl, hcd⟩, key, hemp]
      have e3 : ([] : Str) ++ ip ++ fr ++ ex = r := hrep.symm
      simp only [Bool.false_eq_true, if_false, e3, hrf]
    · have key := scanUnsigned_lit rf true hid hi.1 hz hf he hb
      have e2 : r ++ b = '-' :: (ip ++ (fr ++ (ex ++ b))) := by rw [hrep]; simp
      rw [e2]
      refine parse_minus rf f ?_
      rw [key, hemp]
      have e3 : ['-'] ++ ip ++ fr ++ ex = r := hrep.symm
      simp only [Bool.false_eq_true, if_false, if_true, e3, hrf]

/-! ## Values -/

theorem newline_ws (ind : Option Nat) (l : Nat) : ∀ c ∈ newline ind l, isWs c = true := by
  cases ind with
  | none => simp [newline]
  | some k =>
    intro c hc
    simp only [newline, List.mem_cons, List.mem_replicate] at hc
    rcases hc with rfl | ⟨-, rfl⟩ <;> decide

theorem itemSep_eq (ind : Option Nat) : ∃ w, itemSep ind = ',' :: w ∧ ∀ c ∈ w, isWs c = true := by
  cases ind with
  | none => exact ⟨[' '], rfl, by decide⟩
  | some k => exact ⟨[], rfl, by simp⟩

/-- The text of a value starts with something that is neither white space nor a closing bracket. -/
theorem encode_head (rf : Str → Str) (ind : Option Nat) (l : Nat) (v : Val) (a : Str) (hv : Data rf v)
    (h : encode ind l v = some a) : ∃ c q, a = c :: q ∧ isWs c = false ∧ c ≠ ']' := by
  cases v with
  | none => rw [encode] at h; cases h; exact ⟨'n', _, rfl, by decide, by decide⟩
  | bool b => cases b <;> rw [encode] at h <;> cases h
              · exact ⟨'f', _, rfl, by decide, by decide⟩
              · exact ⟨'t', _, rfl, by decide, by decide⟩
  | int n =>
    rw [encode] at h; cases h
    cases n with
    | ofNat n =>
      obtain ⟨h1, h2, -⟩ := toDigits_spec n
      obtain ⟨c, d, hc⟩ := List.exists_cons_of_ne_nil h2
      have := isDigit_not (h1 c (by simp [hc]))
      exact ⟨c, d, by simp [Str.ofInt, hc], this.1, this.2.1⟩
    | negSucc n => exact ⟨'-', Nat.toDigits 10 (n + 1), by simp [Str.ofInt], by decide, by decide⟩
  | float r =>
    rw [encode] at h; cases h
    have hp := parse_float rf 0 (r := r) (b := []) hv (Or.inl rfl)
    rw [List.append_nil] at hp
    cases he : encodeFloat r with
    | nil => rw [he] at hp; simp [parse] at hp
    | cons c q =>
      refine ⟨c, q, rfl, ?_⟩
      rw [he, parse] at hp
      constructor
      · by_contra hw
        have hw : isWs c = true := by simpa using hw
        rcases isWs_cases hw with rfl | rfl | rfl | rfl <;>
          simp [scanScalar, scanUnsigned, isDigit] at hp
      · rintro rfl
        simp [scanScalar, scanUnsigned, isDigit] at hp
  | str s => rw [encode] at h; cases h; exact ⟨'"', _, rfl, by decide, by decide⟩
  | list vs =>
    cases vs with
    | nil => rw [encode] at h; cases h; exact ⟨'[', _, rfl, by decide, by decide⟩
    | cons v vs =>
      rw [encode] at h
      obtain ⟨a1, -, h⟩ := Option.bind_eq_some_iff.1 h
      obtain ⟨a2, -, h⟩ := Option.bind_eq_some_iff.1 h
      cases h; exact ⟨'[', _, rfl, by decide, by decide⟩
  | dict d =>
    cases d with
    | nil => rw [encode] at h; cases h; exact ⟨'{', _, rfl, by decide, by decide⟩
    | cons p d =>
      obtain ⟨k, v⟩ := p
      rw [encode] at h
      obtain ⟨a1, -, h⟩ := Option.bind_eq_some_iff.1 h
      obtain ⟨a2, -, h⟩ := Option.bind_eq_some_iff.1 h
      cases h; exact ⟨'{', _, rfl, by decide, by decide⟩
  | opt => simp [encode] at h

theorem ofPairs_nodup (l : List (String × Val)) (h : (l.map Prod.fst).Nodup) : ofPairs l = l := by
  have snoc : ∀ (d : List (String × Val)) k v, k ∉ d.map Prod.fst → setPair k v d = d ++ [(k, v)] := by
    intro d k v hk
    induction d with
    | nil => rfl
    | cons p d ih =>
      obtain ⟨k', v'⟩ := p
      simp only [List.map_cons, List.mem_cons, not_or] at hk
      rw [setPair, if_neg (Ne.symm hk.1), ih hk.2]; rfl
  have key : ∀ (l d : List (String × Val)), ((d ++ l).map Prod.fst).Nodup →
      l.foldl (fun d p => setPair p.1 p.2 d) d = d ++ l := by
    intro l
    induction l with
    | nil => intro d _; simp
    | cons p l ih =>
      intro d hd
      obtain ⟨k, v⟩ := p
      have hk : k ∉ d.map Prod.fst := by
        intro hm
        rw [List.map_append, List.nodup_append] at hd
        exact hd.2.2 k hm k (by simp) rfl
      rw [List.foldl_cons, snoc d k v hk, ih]
      · simp
      · simpa using hd
  simpa [ofPairs] using key l [] (by simpa using h)

theorem parse_str (rf : Str → Str) (f : Nat) (s b : Str) : parse rf (f + 1) (encodeStr s ++ b) = some (.str s, b) := by
  have : encodeStr s ++ b = '"' :: (s.flatMap escapeChar ++ '"' :: b) := by simp [encodeStr]
  rw [this, parse]
  simp [scanStr_encode]

theorem delim_comma {t : Str} : Delim (',' :: t) := Or.inr ⟨',', t, rfl, by simp⟩

/-- The items of a list, given how its first element parses. -/
theorem parseItems_encode (rf : Str → Str) (ind : Option Nat) (l : Nat) (e r : Str) (he : ∀ c ∈ e, isWs c = true)
    (vs : List Val) (hd : DataList rf vs)
    (ih : ∀ v ∈ vs, ∀ a, encode ind l v = some a → ∀ f r, a.length ≤ f → Delim r → parse rf f (a ++ r) = some (v, r)) :
    ∀ v a b, encodeTail ind l vs = some b →
      (∀ f r, a.length ≤ f → Delim r → parse rf f (a ++ r) = some (v, r)) →
      ∀ f, a.length + b.length + e.length + 1 ≤ f →
        parseItems rf f (a ++ (b ++ (e ++ ']' :: r))) = some (v :: vs, r) := by
  induction vs with
  | nil =>
    intro v a b hb ha f hf
    rw [encodeTail] at hb; cases hb
    obtain ⟨f, rfl⟩ : ∃ g, f = g + 1 := ⟨f - 1, by omega⟩
    rw [parseItems, List.nil_append, ha f _ (by simp at hf; omega) (delim_ws he (by simp))]
    simp only [skipWs_app r he (show isWs ']' = false by decide)]
  | cons v' vs ihl =>
    intro v a b hb ha f hf
    rw [encodeTail] at hb
    obtain ⟨a', ha', hb⟩ := Option.bind_eq_some_iff.1 hb
    obtain ⟨b', hb', hb⟩ := Option.bind_eq_some_iff.1 hb
    cases hb
    rw [DataList] at hd
    obtain ⟨w, hw, hws⟩ := itemSep_eq ind
    obtain ⟨c, q, hc, hc1, hc2⟩ := encode_head rf ind l v' a' hd.1 ha'
    have hih := ih v' (by simp) a' ha'
    have hrec := ihl hd.2 (fun x hx => ih x (by simp [hx])) v' a' b' hb' hih
    obtain ⟨f, rfl⟩ : ∃ g, f = g + 1 := ⟨f - 1, by omega⟩
    rw [hw] at hf ⊢
    simp only [List.append_assoc, List.cons_append]
    rw [parseItems, ha f _ (by simp at hf; omega) delim_comma]
    simp only [skipWs_cons (show isWs ',' = false by decide)]
    have hs : skipWs (w ++ (newline ind l ++ (a' ++ (b' ++ (e ++ ']' :: r))))) = a' ++ (b' ++ (e ++ ']' :: r)) := by
      rw [skipWs_ws _ _ hws, skipWs_ws _ _ (newline_ws ind l), hc, List.cons_append, skipWs_cons hc1]
    rw [hs, hrec f (by simp at hf; omega)]
    rfl

/-- The items of a dict, given how its first value parses. -/
theorem parsePairs_encode (rf : Str → Str) (ind : Option Nat) (l : Nat) (e r : Str) (he : ∀ c ∈ e, isWs c = true)
    (d : List (String × Val)) (hd : DataDict rf d)
    (ih : ∀ p ∈ d, ∀ a, encode ind l p.2 = some a → ∀ f r, a.length ≤ f → Delim r → parse rf f (a ++ r) = some (p.2, r)) :
    ∀ (k : String) v a b c q, a = c :: q → isWs c = false → encodePairs ind l d = some b →
      (∀ f r, a.length ≤ f → Delim r → parse rf f (a ++ r) = some (v, r)) →
      ∀ f, a.length + b.length + e.length + 2 ≤ f →
        parsePairs rf f (encodeStr k.toList ++ (':' :: ' ' :: (a ++ (b ++ (e ++ '}' :: r))))) = some ((k, v) :: d, r) := by
  have hk : ∀ (k : String) t, encodeStr k.toList ++ t = '"' :: (k.toList.flatMap escapeChar ++ '"' :: t) := by
    intro k t; simp [encodeStr]
  induction d with
  | nil =>
    intro k v a b c q hc hc1 hb ha f hf
    rw [encodePairs] at hb; cases hb
    obtain ⟨f, rfl⟩ : ∃ g, f = g + 1 := ⟨f - 1, by omega⟩
    have hs : skipWs (' ' :: (a ++ ([] ++ (e ++ '}' :: r)))) = a ++ ([] ++ (e ++ '}' :: r)) := by
      rw [hc]; exact skipWs_app (w := [' ']) _ (by decide) hc1
    rw [hk, parsePairs]
    simp only [scanStr_encode, skipWs_cons (show isWs ':' = false by decide), hs]
    rw [List.nil_append, ha f _ (by simp at hf; omega) (delim_ws he (by simp))]
    simp only [skipWs_app r he (show isWs '}' = false by decide)]
    simp
  | cons p d ihl =>
    obtain ⟨k', v'⟩ := p
    intro k v a b c q hc hc1 hb ha f hf
    rw [encodePairs] at hb
    obtain ⟨a', ha', hb⟩ := Option.bind_eq_some_iff.1 hb
    obtain ⟨b', hb', hb⟩ := Option.bind_eq_some_iff.1 hb
    cases hb
    rw [DataDict] at hd
    obtain ⟨w, hw, hws⟩ := itemSep_eq ind
    obtain ⟨c', q', hc', hc1', -⟩ := encode_head rf ind l v' a' hd.1 ha'
    have hih := ih (k', v') (by simp) a' ha'
    have hrec := ihl hd.2 (fun x hx => ih x (by simp [hx])) k' v' a' b' c' q' hc' hc1' hb' hih
    obtain ⟨f, rfl⟩ : ∃ g, f = g + 1 := ⟨f - 1, by omega⟩
    rw [hw] at hf ⊢
    rw [hk, parsePairs]
    simp only [List.append_assoc, List.cons_append, List.nil_append]
    have hs : ∀ t, skipWs (' ' :: (a ++ t)) = a ++ t := by
      intro t; rw [hc]; exact skipWs_app (w := [' ']) _ (by decide) hc1
    simp only [scanStr_encode, skipWs_cons (show isWs ':' = false by decide), hs]
    rw [ha f _ (by simp at hf; omega) delim_comma]
    simp only [skipWs_cons (show isWs ',' = false by decide)]
    have hs2 : ∀ t, skipWs (w ++ (newline ind l ++ (encodeStr k'.toList ++ t))) = encodeStr k'.toList ++ t := by
      intro t
      rw [skipWs_ws _ _ hws, skipWs_ws _ _ (newline_ws ind l), hk, skipWs_cons (by decide)]
    rw [hs2, hrec f (by simp at hf; omega)]
    simp

mutual
/-- Reading the text of a value gives the value back. -/
theorem parse_encode (rf : Str → Str) (ind : Option Nat) : ∀ (v : Val) (l : Nat) (a : Str), Data rf v →
    encode ind l v = some a → ∀ f r, a.length ≤ f → Delim r → parse rf f (a ++ r) = some (v, r)
  | .none, l, a, hv, h, f, r, hf, hr => by
    obtain ⟨f, rfl⟩ : ∃ g, f = g + 1 := by
      obtain ⟨c, q, hc, -⟩ := encode_head rf ind l _ a hv h
      exact ⟨f - 1, by rw [hc] at hf; simp at hf; omega⟩
    rw [encode] at h; cases h
    simp [parse, scanScalar, afterPrefix]
  | .bool true, l, a, hv, h, f, r, hf, hr => by
    obtain ⟨f, rfl⟩ : ∃ g, f = g + 1 := by
      obtain ⟨c, q, hc, -⟩ := encode_head rf ind l _ a hv h
      exact ⟨f - 1, by rw [hc] at hf; simp at hf; omega⟩
    rw [encode] at h; cases h
    simp [parse, scanScalar, afterPrefix]
  | .bool false, l, a, hv, h, f, r, hf, hr => by
    obtain ⟨f, rfl⟩ : ∃ g, f = g + 1 := by
      obtain ⟨c, q, hc, -⟩ := encode_head rf ind l _ a hv h
      exact ⟨f - 1, by rw [hc] at hf; simp at hf; omega⟩
    rw [encode] at h; cases h
    simp [parse, scanScalar, afterPrefix]
  | .int n, l, a, hv, h, f, r, hf, hr => by
    obtain ⟨f, rfl⟩ : ∃ g, f = g + 1 := by
      obtain ⟨c, q, hc, -⟩ := encode_head rf ind l _ a hv h
      exact ⟨f - 1, by rw [hc] at hf; simp at hf; omega⟩
    rw [encode] at h; cases h
    exact parse_int rf f n hr
  | .float x, l, a, hv, h, f, r, hf, hr => by
    obtain ⟨f, rfl⟩ : ∃ g, f = g + 1 := by
      obtain ⟨c, q, hc, -⟩ := encode_head rf ind l _ a hv h
      exact ⟨f - 1, by rw [hc] at hf; simp at hf; omega⟩
    rw [encode] at h; cases h
    exact parse_float rf f hv hr
  | .str s, l, a, hv, h, f, r, hf, hr => by
    obtain ⟨f, rfl⟩ : ∃ g, f = g + 1 := by
      obtain ⟨c, q, hc, -⟩ := encode_head rf ind l _ a hv h
      exact ⟨f - 1, by rw [hc] at hf; simp at hf; omega⟩
    rw [encode] at h; cases h
    exact parse_str rf f s r
  | .list [], l, a, hv, h, f, r, hf, hr => by
    obtain ⟨f, rfl⟩ : ∃ g, f = g + 1 := by
      obtain ⟨c, q, hc, -⟩ := encode_head rf ind l _ a hv h
      exact ⟨f - 1, by rw [hc] at hf; simp at hf; omega⟩
    rw [encode] at h; cases h
    simp [parse, skipWs, isWs]
  | .list (v :: vs), l, a, hv, h, f, r, hf, hr => by
    obtain ⟨f, rfl⟩ : ∃ g, f = g + 1 := by
      obtain ⟨c, q, hc, -⟩ := encode_head rf ind l _ a hv h
      exact ⟨f - 1, by rw [hc] at hf; simp at hf; omega⟩
    rw [encode] at h
    obtain ⟨a1, ha1, h⟩ := Option.bind_eq_some_iff.1 h
    obtain ⟨b, hb, h⟩ := Option.bind_eq_some_iff.1 h
    cases h
    rw [Data, DataList] at hv
    obtain ⟨c', q', hc', hc1, hc2⟩ := encode_head rf ind (l + 1) v a1 hv.1 ha1
    have h1 := parse_encode rf ind v (l + 1) a1 hv.1 ha1
    have h2 := parse_encodeList rf ind vs hv.2 (l + 1)
    have h3 := parseItems_encode rf ind (l + 1) (newline ind l) r (newline_ws ind l) vs hv.2 h2 v a1 b hb h1 f
      (by simp at hf; omega)
    have hs : ∀ t, skipWs (newline ind (l + 1) ++ (a1 ++ t)) = a1 ++ t := by
      intro t; rw [skipWs_ws _ _ (newline_ws ind (l + 1)), hc', List.cons_append, skipWs_cons hc1]
    simp only [List.cons_append, List.append_assoc, List.nil_append]
    rw [parse]
    simp only [Char.reduceEq, if_false, if_true]
    rw [hs]
    split
    · rename_i t ht
      rw [hc'] at ht
      simp at ht
      exact absurd ht.1 hc2
    · rw [h3]; rfl
  | .dict [], l, a, hv, h, f, r, hf, hr => by
    obtain ⟨f, rfl⟩ : ∃ g, f = g + 1 := by
      obtain ⟨c, q, hc, -⟩ := encode_head rf ind l _ a hv h
      exact ⟨f - 1, by rw [hc] at hf; simp at hf; omega⟩
    rw [encode] at h; cases h
    simp [parse, skipWs, isWs]
  | .dict ((k, v) :: d), l, a, hv, h, f, r, hf, hr => by
    obtain ⟨f, rfl⟩ : ∃ g, f = g + 1 := by
      obtain ⟨c, q, hc, -⟩ := encode_head rf ind l _ a hv h
      exact ⟨f - 1, by rw [hc] at hf; simp at hf; omega⟩
    rw [encode] at h
    obtain ⟨a1, ha1, h⟩ := Option.bind_eq_some_iff.1 h
    obtain ⟨b, hb, h⟩ := Option.bind_eq_some_iff.1 h
    cases h
    rw [Data, DataDict] at hv
    obtain ⟨c', q', hc', hc1, -⟩ := encode_head rf ind (l + 1) v a1 hv.2.1 ha1
    have h1 := parse_encode rf ind v (l + 1) a1 hv.2.1 ha1
    have h2 := parse_encodeDict rf ind d hv.2.2 (l + 1)
    have h3 := parsePairs_encode rf ind (l + 1) (newline ind l) r (newline_ws ind l) d hv.2.2 h2 k v a1 b c' q' hc' hc1 hb h1 f
      (by simp at hf; omega)
    have hk : ∀ t, encodeStr k.toList ++ t = '"' :: (k.toList.flatMap escapeChar ++ '"' :: t) := by
      intro t; simp [encodeStr]
    have hs : ∀ t, skipWs (newline ind (l + 1) ++ (encodeStr k.toList ++ t)) = encodeStr k.toList ++ t := by
      intro t; rw [skipWs_ws _ _ (newline_ws ind (l + 1)), hk, skipWs_cons (by decide)]
    simp only [List.cons_append, List.append_assoc, List.nil_append]
    rw [parse]
    simp only [Char.reduceEq, if_false, if_true]
    rw [hs]
    split
    · rename_i t ht
      rw [hk] at ht
      simp at ht
    · rw [h3]
      simp only [Option.map_some]
      rw [ofPairs_nodup _ hv.1]
  | .opt, _, _, hv, _, _, _, _, _ => absurd hv (by simp [Data])
/-- The same for each element of a list. -/
theorem parse_encodeList (rf : Str → Str) (ind : Option Nat) : ∀ (vs : List Val), DataList rf vs → ∀ (l : Nat), ∀ v ∈ vs, ∀ a,
    encode ind l v = some a → ∀ f r, a.length ≤ f → Delim r → parse rf f (a ++ r) = some (v, r)
  | [], _, _, v, hm => by simp at hm
  | v :: vs, hd, l, x, hx => by
    rw [DataList] at hd
    rcases List.mem_cons.1 hx with h | hx
    · rw [h]; exact fun a => parse_encode rf ind v l a hd.1
    · exact parse_encodeList rf ind vs hd.2 l x hx
/-- The same for each value of a dict. -/
theorem parse_encodeDict (rf : Str → Str) (ind : Option Nat) : ∀ (d : List (String × Val)), DataDict rf d → ∀ (l : Nat), ∀ p ∈ d, ∀ a,
    encode ind l p.2 = some a → ∀ f r, a.length ≤ f → Delim r → parse rf f (a ++ r) = some (p.2, r)
  | [], _, _, v, hm => by simp at hm
  | (k, v) :: d, hd, l, x, hx => by
    rw [DataDict] at hd
    rcases List.mem_cons.1 hx with h | hx
    · rw [h]; exact fun a => parse_encode rf ind v l a hd.1
    · exact parse_encodeDict rf ind d hd.2 l x hx
end

end Verif.Json
