import Verif.Model.FileCache
/-!
# UTF-8 and newline translation
-/

namespace Verif
open Verif.FileCache

theorem utf8_append (a b : Str) : utf8 (a ++ b) = utf8 a ++ utf8 b := by simp [utf8]

theorem toByteArray_eq (b : Bytes) : b.toByteArray = ByteArray.mk b.toArray := by
  apply ByteArray.ext
  simp

theorem utf8Encode_eq (s : Str) : s.utf8Encode = ByteArray.mk (utf8 s).toArray := by
  rw [List.utf8Encode, toByteArray_eq]; rfl

theorem ofUtf8_utf8 (s : Str) : ofUtf8 (utf8 s) = some s := by
  unfold ofUtf8
  rw [← utf8Encode_eq, List.utf8Decode?_utf8Encode]
  simp

theorem utf8_ofUtf8 {b : Bytes} {s : Str} (h : ofUtf8 b = some s) : utf8 s = b := by
  unfold ofUtf8 at h
  obtain ⟨a, ha, rfl⟩ := Option.map_eq_some_iff.1 h
  have := ByteArray.utf8Encode_get_utf8Decode? (b := ByteArray.mk b.toArray) (h := by simp [ha])
  simp only [ha, Option.get_some] at this
  rw [utf8Encode_eq] at this
  have := congrArg ByteArray.data this
  simpa using congrArg Array.toList this

theorem utf8_prefix {s t : Str} (h : utf8 s <+: utf8 t) : s <+: t := by
  obtain ⟨r, hr⟩ := h
  refine List.isPrefix_of_utf8Encode_append_eq_utf8Encode (ByteArray.mk r.toArray) ?_
  rw [utf8Encode_eq, utf8Encode_eq, ← hr]
  apply ByteArray.ext
  simp

theorem utf8_inj {s t : Str} (h : utf8 s = utf8 t) : s = t := by
  have := ofUtf8_utf8 s
  rw [h, ofUtf8_utf8] at this
  exact (Option.some.inj this).symm

theorem utf8_zero {s : Str} (h : (0 : UInt8) ∈ utf8 s) : ∃ c ∈ s, c.toNat = 0 := by
  unfold utf8 at h
  obtain ⟨c, hc, h⟩ := List.mem_flatMap.1 h
  refine ⟨c, hc, ?_⟩
  have key : ∀ n : Nat, (0 : UInt8) = UInt8.ofNat n → n % 256 = 0 := by
    intro n hn
    have := congrArg UInt8.toNat hn
    simpa using this.symm
  unfold String.utf8EncodeChar at h
  simp only [Char.toNat] at h ⊢
  split at h
  · simp only [List.mem_singleton] at h
    have := key _ h
    omega
  split at h
  · simp only [List.mem_cons, List.not_mem_nil, or_false] at h
    rcases h with h | h <;> have := key _ h <;> omega
  split at h
  · simp only [List.mem_cons, List.not_mem_nil, or_false] at h
    rcases h with h | h | h <;> have := key _ h <;> omega
  · simp only [List.mem_cons, List.not_mem_nil, or_false] at h
    rcases h with h | h | h | h <;> have := key _ h <;> omega

theorem utf8_nonzero {s : Str} (h : ∀ c ∈ s, c.toNat ≠ 0) : ∀ x ∈ utf8 s, x ≠ 0 := by
  rintro x hx rfl
  obtain ⟨c, hc, h0⟩ := utf8_zero hx
  exact h c hc h0

/-! ## Newlines -/

theorem universal_mem {s : Str} {c : Char} (h : c ∈ s) (hc : c ≠ '\r') : c ∈ universal s := by
  fun_induction universal s with
  | case1 => exact h
  | case2 => simp at h; exact absurd h hc
  | case3 t ih =>
    simp only [List.mem_cons] at h ⊢
    rcases h with h | h | h
    · exact absurd h hc
    · exact .inl h
    · exact .inr (ih h)
  | case4 d u hd ih =>
    simp only [List.mem_cons] at h ⊢
    rcases h with h | h | h
    · exact absurd h hc
    · exact .inr (ih (by simp [h]))
    · exact .inr (ih (by simp [h]))
  | case5 c' t hc' ih =>
    simp only [List.mem_cons] at h ⊢
    rcases h with h | h
    · exact .inl h
    · exact .inr (ih h)

theorem toNative_cons (crlf : Bool) (c : Char) (t : Str) :
    toNative crlf (c :: t) = (if c = '\n' ∧ crlf = true then ['\r', '\n'] else [c]) ++ toNative crlf t := by
  simp [toNative]

theorem toNative_mem {crlf : Bool} {t : Str} {c : Char} (h : c ∈ toNative crlf t) : c ∈ t ∨ c = '\r' := by
  unfold toNative at h
  obtain ⟨d, hd, h⟩ := List.mem_flatMap.1 h
  split at h
  · simp only [List.mem_cons, List.not_mem_nil, or_false] at h
    rename_i hn
    rcases h with h | h
    · exact .inr h
    · rw [h, ← hn.1]; exact .inl hd
  · simp only [List.mem_singleton] at h
    rw [h]; exact .inl hd

theorem universal_cons {c : Char} (hc : c ≠ '\r') (t : Str) : universal (c :: t) = c :: universal t := by
  rw [universal.eq_def]; simp [hc]

theorem universal_crlf (t : Str) : universal ('\r' :: '\n' :: t) = '\n' :: universal t := by
  rw [universal.eq_def]; simp

theorem universal_toNative {crlf : Bool} {t : Str} (h : ∀ c ∈ t, c ≠ '\r') : universal (toNative crlf t) = t := by
  induction t with
  | nil => rfl
  | cons c t ih =>
    have ih := ih (fun x hx => h x (by simp [hx]))
    rw [toNative_cons]
    split
    · rename_i hc
      simp only [List.cons_append, List.nil_append, universal_crlf, ih, hc.1]
    · simp only [List.cons_append, List.nil_append]
      rw [universal_cons (h c (by simp)), ih]

/-- Reading the beginning of what was written gives the beginning of the text. -/
theorem universal_prefix {crlf : Bool} {t q : Str} (h : ∀ c ∈ t, c ≠ '\r') (hq : q <+: toNative crlf t) :
    universal q <+: t ∧ (universal q = t → t.getLast? ≠ some '\n' → q = toNative crlf t) := by
  induction t generalizing q with
  | nil =>
    have : q = [] := by simpa [toNative] using hq
    subst this
    simp [universal, toNative]
  | cons c t ih =>
    have ih := @ih
    have ht : ∀ c ∈ t, c ≠ '\r' := fun x hx => h x (by simp [hx])
    rw [toNative_cons] at hq ⊢
    cases q with
    | nil => simp [universal]
    | cons a q =>
      split at hq
      · rename_i hc
        rw [if_pos hc]
        simp only [List.cons_append, List.nil_append, List.cons_prefix_cons] at hq ⊢
        obtain ⟨rfl, hq⟩ := hq
        cases q with
        | nil =>
          have : universal ['\r'] = ['\n'] := by simp [universal]
          rw [this, hc.1]
          refine ⟨by simp, fun h1 h2 => ?_⟩
          simp only [List.cons.injEq, true_and] at h1
          subst h1
          simp at h2
        | cons b q =>
          simp only [List.cons_prefix_cons] at hq
          obtain ⟨rfl, hq⟩ := hq
          obtain ⟨i1, i2⟩ := ih ht hq
          rw [universal_crlf, hc.1]
          simp only [List.cons_prefix_cons, true_and, List.cons.injEq]
          refine ⟨i1, fun h1 h2 => ?_⟩
          refine i2 h1 ?_
          cases t with
          | nil => simp
          | cons x t => simpa [List.getLast?_cons_cons] using h2
      · rename_i hc
        rw [if_neg hc]
        simp only [List.cons_append, List.nil_append, List.cons_prefix_cons] at hq ⊢
        obtain ⟨rfl, hq⟩ := hq
        obtain ⟨i1, i2⟩ := ih ht hq
        rw [universal_cons (h a (by simp))]
        simp only [List.cons_prefix_cons, true_and, List.cons.injEq]
        refine ⟨i1, fun h1 h2 => ?_⟩
        refine i2 h1 ?_
        cases t with
        | nil => simp
        | cons x t => simpa [List.getLast?_cons_cons] using h2

end Verif
