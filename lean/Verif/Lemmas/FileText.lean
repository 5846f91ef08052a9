import Verif.Lemmas.Utf8
import Verif.Lemmas.JsonDoc
/-!
# What the cache file holds, and what can be read from part of it
-/

namespace Verif
open Verif.Spec Verif.Json Verif.FileCache

theorem escapeChar_noCR (c : Char) : ∀ x ∈ escapeChar c, x ≠ '\r' := by
  intro x hx
  unfold escapeChar at hx
  have hex : ∀ n, n < 16 → hexChar n ≠ '\r' := by decide
  split at hx; · simp at hx; simp [hx]
  split at hx; · simp at hx; rcases hx with h | h <;> simp [h]
  split at hx; · simp at hx; rcases hx with h | h <;> simp [h]
  split at hx; · simp at hx; rcases hx with h | h <;> simp [h]
  split at hx; · simp at hx; rcases hx with h | h <;> simp [h]
  split at hx; · simp at hx; rcases hx with h | h <;> simp [h]
  split at hx; · simp at hx; rcases hx with h | h <;> simp [h]
  split at hx
  · rename_i hlt
    simp at hx
    rcases hx with h | h | h | h | h
    · simp [h]
    · simp [h]
    · simp [h]
    · rw [h]; exact hex _ (by omega)
    · rw [h]; exact hex _ (by omega)
  · simp at hx; subst hx; assumption

theorem encodeStr_noCR (s : Str) : ∀ x ∈ encodeStr s, x ≠ '\r' := by
  intro x hx
  simp only [encodeStr, List.cons_append, List.mem_cons, List.mem_append, List.mem_flatMap, List.not_mem_nil, or_false] at hx
  rcases hx with h | ⟨c, -, h⟩ | h
  · simp [h]
  · exact escapeChar_noCR c x h
  · simp [h]

theorem isDigit_noCR {c : Char} (h : isDigit c = true) : c ≠ '\r' := by
  rintro rfl; simp [isDigit] at h

theorem digits_noCR {s : Str} (h : Digits s) : ∀ c ∈ s, c ≠ '\r' :=
  fun c hc => isDigit_noCR (digits_isDigit h c hc)

theorem encodeFloat_noCR {rf : Str → Str} {r : Str} (h : FloatRepr rf r) : ∀ x ∈ encodeFloat r, x ≠ '\r' := by
  unfold encodeFloat
  split; · simp
  split; · simp
  split; · simp
  rcases h with rfl | rfl | rfl | ⟨⟨sg, ip, fr, ex, rfl, h1, h2, h3, h4, -⟩, -⟩
  · simp
  · simp
  · simp
  · intro x hx
    simp only [List.mem_append] at hx
    rcases hx with ((hx | hx) | hx) | hx
    · rcases h1 with rfl | rfl <;> simp at hx
      simp [hx]
    · exact digits_noCR h2.1 x hx
    · rcases h3 with rfl | ⟨d, hd, rfl⟩
      · simp at hx
      · simp only [List.mem_cons] at hx
        rcases hx with hx | hx
        · simp [hx]
        · exact digits_noCR hd x hx
    · rcases h4 with rfl | ⟨sg', d, hd, hs, rfl⟩
      · simp at hx
      · simp only [List.cons_append, List.mem_cons, List.mem_append] at hx
        rcases hx with hx | hx | hx
        · simp [hx]
        · rcases hs with rfl | rfl | rfl <;> simp at hx <;> simp [hx]
        · exact digits_noCR hd x hx

theorem newline_noCR (ind : Option Nat) (l : Nat) : ∀ c ∈ newline ind l, c ≠ '\r' := by
  cases ind with
  | none => simp [newline]
  | some k =>
    intro c hc
    simp only [newline, List.mem_cons, List.mem_replicate] at hc
    rcases hc with h | ⟨-, h⟩ <;> simp [h]

theorem itemSep_noCR (ind : Option Nat) : ∀ c ∈ itemSep ind, c ≠ '\r' := by
  cases ind <;> simp [itemSep]

mutual
theorem encode_noCR (rf : Str → Str) (ind : Option Nat) : ∀ (v : Val) (l : Nat) (a : Str), Data rf v → encode ind l v = some a →
    ∀ c ∈ a, c ≠ '\r'
  | .none, _, _, _, h => by simp [encode] at h; subst h; simp
  | .bool true, _, _, _, h => by simp [encode] at h; subst h; simp
  | .bool false, _, _, _, h => by simp [encode] at h; subst h; simp
  | .int n, _, _, _, h => by
    simp only [encode, Option.some.injEq] at h
    subst h
    cases n with
    | ofNat n =>
      have e : Str.ofInt (Int.ofNat n) = Nat.toDigits 10 n := by simp [Str.ofInt]
      rw [e]
      exact fun c hc => isDigit_noCR ((toDigits_spec n).1 c hc)
    | negSucc n =>
      have e : Str.ofInt (Int.negSucc n) = '-' :: Nat.toDigits 10 (n + 1) := by simp [Str.ofInt]
      rw [e, List.forall_mem_cons]
      exact ⟨by simp, fun c hc => isDigit_noCR ((toDigits_spec (n + 1)).1 c hc)⟩
  | .float r, _, _, hv, h => by
    simp only [encode, Option.some.injEq] at h; subst h
    rw [Data] at hv; exact encodeFloat_noCR hv
  | .str s, _, _, _, h => by
    simp only [encode, Option.some.injEq] at h; subst h; exact encodeStr_noCR s
  | .opt, _, _, hv, _ => by simp [Data] at hv
  | .list [], _, _, _, h => by simp [encode] at h; subst h; simp
  | .list (v :: vs), l, _, hv, h => by
    rw [Data, DataList] at hv
    rw [encode] at h
    obtain ⟨a, ha, h⟩ := Option.bind_eq_some_iff.1 h
    obtain ⟨b, hb, h⟩ := Option.bind_eq_some_iff.1 h
    simp only [Option.some.injEq] at h; subst h
    simp only [List.cons_append, List.nil_append, List.forall_mem_append, List.forall_mem_cons, List.append_assoc]
    exact ⟨by simp, newline_noCR _ _, encode_noCR rf ind v (l + 1) a hv.1 ha, encodeTail_noCR rf ind vs (l + 1) b hv.2 hb, newline_noCR _ _, by simp, by simp⟩
  | .dict [], _, _, _, h => by simp [encode] at h; subst h; simp
  | .dict ((k, v) :: d), l, _, hv, h => by
    rw [Data, DataDict] at hv
    rw [encode] at h
    obtain ⟨a, ha, h⟩ := Option.bind_eq_some_iff.1 h
    obtain ⟨b, hb, h⟩ := Option.bind_eq_some_iff.1 h
    simp only [Option.some.injEq] at h; subst h
    simp only [List.cons_append, List.nil_append, List.forall_mem_append, List.forall_mem_cons, List.append_assoc]
    exact ⟨by simp, newline_noCR _ _, encodeStr_noCR _, by simp, by simp, encode_noCR rf ind v (l + 1) a hv.2.1 ha, encodePairs_noCR rf ind d (l + 1) b hv.2.2 hb, newline_noCR _ _, by simp, by simp⟩
theorem encodeTail_noCR (rf : Str → Str) (ind : Option Nat) : ∀ (vs : List Val) (l : Nat) (a : Str), DataList rf vs →
    encodeTail ind l vs = some a → ∀ c ∈ a, c ≠ '\r'
  | [], _, _, _, h => by simp [encodeTail] at h; subst h; simp
  | v :: vs, l, _, hv, h => by
    rw [DataList] at hv
    rw [encodeTail] at h
    obtain ⟨a, ha, h⟩ := Option.bind_eq_some_iff.1 h
    obtain ⟨b, hb, h⟩ := Option.bind_eq_some_iff.1 h
    simp only [Option.some.injEq] at h; subst h
    simp only [List.cons_append, List.nil_append, List.forall_mem_append, List.forall_mem_cons, List.append_assoc]
    exact ⟨itemSep_noCR _, newline_noCR _ _, encode_noCR rf ind v l a hv.1 ha, encodeTail_noCR rf ind vs l b hv.2 hb⟩
theorem encodePairs_noCR (rf : Str → Str) (ind : Option Nat) : ∀ (d : List (String × Val)) (l : Nat) (a : Str), DataDict rf d →
    encodePairs ind l d = some a → ∀ c ∈ a, c ≠ '\r'
  | [], _, _, _, h => by simp [encodePairs] at h; subst h; simp
  | (k, v) :: d, l, _, hv, h => by
    rw [DataDict] at hv
    rw [encodePairs] at h
    obtain ⟨a, ha, h⟩ := Option.bind_eq_some_iff.1 h
    obtain ⟨b, hb, h⟩ := Option.bind_eq_some_iff.1 h
    simp only [Option.some.injEq] at h; subst h
    simp only [List.cons_append, List.nil_append, List.forall_mem_append, List.forall_mem_cons, List.append_assoc]
    exact ⟨itemSep_noCR _, newline_noCR _ _, encodeStr_noCR _, by simp, by simp, encode_noCR rf ind v l a hv.1 ha, encodePairs_noCR rf ind d l b hv.2 hb⟩
end

theorem dumps_dict_last {ind : Option Nat} {d : List (String × Val)} {s : Str} (h : dumps ind (.dict d) = some s) :
    s.getLast? = some '}' := by
  cases d with
  | nil => rw [dumps, encode] at h; rw [← Option.some.inj h]; rfl
  | cons p d =>
    obtain ⟨k, v⟩ := p
    rw [dumps, encode] at h
    obtain ⟨a, ha, h⟩ := Option.bind_eq_some_iff.1 h
    obtain ⟨b, hb, h⟩ := Option.bind_eq_some_iff.1 h
    rw [← Option.some.inj h, List.getLast?_append]
    simp

/-- Part of the file `b`: as long at most, and every byte is the one of `b` or missing (zero). -/
def Mix (q b : Bytes) : Prop := q.length ≤ b.length ∧ ∀ i (h : i < q.length), q[i]? = b[i]? ∨ q[i] = 0

theorem mix_self (b : Bytes) : Mix b b := ⟨Nat.le_refl _, fun _ _ => .inl rfl⟩

theorem mix_nil (b : Bytes) : Mix [] b := ⟨by simp, fun i h => by simp at h⟩

theorem mix_prefix {q b : Bytes} (h : Mix q b) (h0 : ∀ x ∈ q, x ≠ 0) : q <+: b := by
  rw [List.prefix_iff_getElem?]
  intro i hi
  rcases h.2 i hi with h | h
  · rw [← h]; simp [hi]
  · exact absurd h (h0 _ (List.getElem_mem _))

theorem plain_nonzero {c : Char} (h : Plain c) : c.toNat ≠ 0 := by
  intro h0
  rcases h with h | h
  · omega
  · rcases isWs_cases h with rfl | rfl | rfl | rfl <;> revert h0 <;> decide

/-- What can be read from the beginning of a written file: the written data, and only if it is all there. -/
theorem decode_prefix {cfg : Cfg} {d : List (String × Val)} {b q : Bytes} {v : Val} (hd : Data cfg.readFloat (.dict d))
    (hb : content cfg (.dict d) = some b) (hq : q <+: b) (hv : decode cfg q = some v) : q = b ∧ v = .dict d := by
  obtain ⟨s, hs, rfl⟩ := Option.map_eq_some_iff.1 hb
  obtain ⟨t, ht, hl⟩ := Option.bind_eq_some_iff.1 hv
  have hqt := utf8_ofUtf8 ht
  subst hqt
  have hcr := encode_noCR cfg.readFloat _ _ 0 s hd hs
  obtain ⟨h1, h2⟩ := universal_prefix hcr (utf8_prefix hq)
  obtain ⟨e1, e2⟩ := loads_prefix hd hs h1 hl
  have := h2 e1 (by rw [dumps_dict_last hs]; simp)
  rw [this]
  exact ⟨rfl, e2⟩

theorem decode_zero {cfg : Cfg} {q : Bytes} (h : (0 : UInt8) ∈ q) : decode cfg q = Option.none := by
  cases hv : decode cfg q with
  | none => rfl
  | some v =>
    exfalso
    obtain ⟨t, ht, hl⟩ := Option.bind_eq_some_iff.1 hv
    have hqt := utf8_ofUtf8 ht
    subst hqt
    obtain ⟨c, hc, h0⟩ := utf8_zero h
    exact plain_nonzero (loads_plain hl c (universal_mem hc (by rintro rfl; revert h0; decide))) h0

/-- What can be read from a file of which parts are missing. -/
theorem decode_mix {cfg : Cfg} {d : List (String × Val)} {b q : Bytes} {v : Val} (hd : Data cfg.readFloat (.dict d))
    (hb : content cfg (.dict d) = some b) (hq : Mix q b) (hv : decode cfg q = some v) : q = b ∧ v = .dict d := by
  by_cases h0 : (0 : UInt8) ∈ q
  · rw [decode_zero h0] at hv; simp at hv
  · exact decode_prefix hd hb (mix_prefix hq (fun x hx h => h0 (h ▸ hx))) hv

/-- What was written is read back. -/
theorem decode_content {cfg : Cfg} {v : Val} {b : Bytes} (hd : Data cfg.readFloat v) (hb : content cfg v = some b) :
    decode cfg b = some v := by
  obtain ⟨s, hs, rfl⟩ := Option.map_eq_some_iff.1 hb
  unfold decode
  rw [ofUtf8_utf8]
  simp only [Option.bind_some]
  rw [universal_toNative (encode_noCR cfg.readFloat _ _ 0 s hd hs), loads_dumps hd hs]

theorem content_some {cfg : Cfg} {v : Val} (hd : Data cfg.readFloat v) : ∃ b, content cfg v = some b := by
  obtain ⟨s, hs⟩ := Option.isSome_iff_exists.1 ((dumps_isSome cfg.readFloat (some cfg.indent) v).2 ((data_iff _ v).1 hd).2)
  exact ⟨_, by rw [content, hs]; rfl⟩

end Verif
