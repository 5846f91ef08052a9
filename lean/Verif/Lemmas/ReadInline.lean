import Verif.Spec.Words
/-!
# Lemmas: the reader of inline Markdown on well-behaved content
-/

namespace Verif.Lemmas
open Verif Spec

/-- Characters on the stack of the reader. -/
def gl (gs : List Glyph) : List Entry := gs.reverse.map .glyph

theorem gl_append (a b : List Glyph) : gl (a ++ b) = gl b ++ gl a := by simp [gl]

/-- What a layer does to the characters in it. -/
def layerStyle : Layer → Glyph → Glyph
  | .wrap c n => fun g => if n = 3 then dress c 1 (dress c 2 g) else dress c n g
  | .link u => relink u
  | .code | .tick => fun g => match g with
    | .char x s => .char x { s with code := true }
    | g => g

def glyphsL : List Layer → Str → List Glyph
  | [], t => t.map (.char · {})
  | l :: L, t => (glyphsL L t).map (layerStyle l)

def NoDelim (c : Char) (st : List Entry) : Prop := ∀ e ∈ st, ∀ l r o k, e ≠ .delim c l r o k

theorem noDelim_gl (c : Char) (gs : List Glyph) {st : List Entry} (h : NoDelim c st) : NoDelim c (gl gs ++ st) := by
  intro e he l r o k hd
  rcases List.mem_append.mp he with h1 | h1
  · simp only [gl, List.mem_map] at h1
    obtain ⟨g, _, rfl⟩ := h1
    cases hd
  · exact h e h1 l r o k hd

theorem noDelim_not_pairs {c : Char} {st : List Entry} (h : NoDelim c st) (n run : Nat) (both : Bool) :
    ∀ e ∈ st, (!pairs c n run both e) = true := by
  intro e he
  cases e with
  | glyph g => rfl
  | delim c' l r o k =>
    have : c ≠ c' := by rintro rfl; exact h _ he l r o k rfl
    simp [pairs, this]

theorem takeWhile_all {α : Type} {p : α → Bool} {l : List α} (h : ∀ x ∈ l, p x = true) : l.takeWhile p = l := by
  induction l with
  | nil => rfl
  | cons a l ih =>
    rw [List.takeWhile_cons, if_pos (h a (by simp)), ih fun x hx => h x (by simp [hx])]

theorem takeWhile_stop {α : Type} {p : α → Bool} {l r : List α} {a : α} (h : ∀ x ∈ l, p x = true) (ha : p a = false) :
    (l ++ a :: r).takeWhile p = l := by
  induction l with
  | nil => simp [ha]
  | cons b l ih =>
    rw [List.cons_append, List.takeWhile_cons, if_pos (h b (by simp)), ih fun x hx => h x (by simp [hx])]

theorem takeWhile_head {α : Type} {p : α → Bool} {l r : List α} (h : ∀ x ∈ l, p x = true)
    (hr : ∀ x, r.head? = some x → p x = false) : (l ++ r).takeWhile p = l := by
  cases r with
  | nil => rw [List.append_nil]; exact takeWhile_all h
  | cons a r => exact takeWhile_stop h (hr a rfl)

theorem takeWhile_mem {α : Type} {p : α → Bool} {l : List α} {a : α} (h : a ∈ l.takeWhile p) : p a = true := by
  induction l with
  | nil => cases h
  | cons b l ih =>
    rw [List.takeWhile_cons] at h
    split at h
    · next hb =>
      rcases List.mem_cons.mp h with rfl | h
      · exact hb
      · exact ih h
    · cases h

theorem matchRun_none {c : Char} {st : List Entry} (h : NoDelim c st) (run : Nat) (both : Bool) (f n : Nat) :
    matchRun c run both f n st = (n, st) := by
  cases f with
  | zero => rfl
  | succ f =>
    rw [matchRun]
    rw [takeWhile_all (noDelim_not_pairs h n run both)]
    simp

theorem gl_not_pairs (gs : List Glyph) (c : Char) (n run : Nat) (both : Bool) :
    ∀ e ∈ gl gs, (!pairs c n run both e) = true := by
  intro e he
  simp only [gl, List.mem_map] at he
  obtain ⟨g, _, rfl⟩ := he
  rfl

theorem gl_dress (gs : List Glyph) (c : Char) (m : Nat) :
    ((gl gs).flatMap fun e => e.glyphs.map fun g => Entry.glyph (dress c m g)) = gl (gs.map (dress c m)) := by
  unfold gl
  rw [List.flatMap_map, ← List.map_reverse, List.map_map]
  induction gs.reverse with
  | nil => rfl
  | cons g gs ih =>
    rw [List.flatMap_cons, ih]
    rfl

theorem matchRun_step {c : Char} {gs : List Glyph} {st : List Entry} (run : Nat) (both k : Bool) (f n left run' : Nat)
    (hf : pairs c n run both (.delim c left run' true k) = true) :
    matchRun c run both (f + 1) n (gl gs ++ .delim c left run' true k :: st) =
      (let m := if c == '~' then n else if 2 ≤ n ∧ 2 ≤ left then 2 else 1
       let st' := gl (gs.map (dress c m)) ++ (if m < left then [.delim c (left - m) run' true k] else []) ++ st
       if m < n then matchRun c run both f (n - m) st' else (0, st')) := by
  rw [matchRun]
  rw [takeWhile_stop (gl_not_pairs gs c n run both) (by rw [hf]; rfl)]
  simp only [List.drop_left, gl_dress]

theorem matchRun_hit {c : Char} {n : Nat} {gs : List Glyph} {st : List Entry} (both k : Bool)
    (h : (c = '*' ∧ (n = 1 ∨ n = 2 ∨ n = 3)) ∨ (c = '~' ∧ n = 2)) :
    matchRun c n both n n (gl gs ++ .delim c n n true k :: st) = (0, gl (gs.map (layerStyle (.wrap c n))) ++ st) := by
  have e (m : Nat) (hm : m ≠ 3) : layerStyle (.wrap c m) = dress c m := by
    funext g
    simp [layerStyle, hm]
  rcases h with ⟨rfl, rfl | rfl | rfl⟩ | ⟨rfl, rfl⟩
  · rw [matchRun_step _ _ _ _ _ _ _ (by cases both <;> cases k <;> rfl), e 1 (by omega)]
    simp
  · rw [matchRun_step _ _ _ _ _ _ _ (by cases both <;> cases k <;> rfl), e 2 (by omega)]
    simp
  · rw [matchRun_step _ _ _ _ _ _ _ (by cases both <;> cases k <;> rfl)]
    simp
    rw [matchRun_step _ _ _ _ _ _ _ (by cases both <;> cases k <;> rfl)]
    simp
    rfl
  · rw [matchRun_step _ _ _ _ _ _ _ (by cases both <;> cases k <;> rfl), e 2 (by omega)]
    simp

/-! ## Plain text -/

variable (uni : Char → CharClass)

/-- A character that stands for itself. -/
theorem read_literal {c : Char} {s : Str} {after prev : Option Char} {st : List Entry} {f : Nat}
    (hl : literal c (s.head?.or after) = true) (hc : c ≠ ' ') :
    readFrom uni (f + 1) prev st (c :: s) after = readFrom uni f (some c) (.glyph (.char c {}) :: st) s after := by
  have h1 : c ≠ '*' := by rintro rfl; simp [literal] at hl
  have h2 : c ≠ '_' := by rintro rfl; simp [literal] at hl
  have h3 : c ≠ '~' := by rintro rfl; simp [literal] at hl
  have h4 : c ≠ '`' := by rintro rfl; simp [literal] at hl
  have h5 : c ≠ '[' := by rintro rfl; simp [literal] at hl
  have h6 : (c == '!' && s.head? == some '[') = false := by
    rw [Bool.eq_false_iff]
    intro h
    simp only [Bool.and_eq_true, beq_iff_eq] at h
    rw [h.1, h.2] at hl
    simp [literal] at hl
  rw [readFrom, h6]
  simp [h1, h2, h3, h4, h5, hc, hl]

theorem read_loose {c : Char} {s : Str} {after prev : Option Char} {st : List Entry} {f : Nat}
    (hl : loose c (classOf uni prev) (classOf uni (s.head?.or after)) = true) :
    readFrom uni (f + 1) prev st (c :: s) after = readFrom uni f (some c) (.glyph (.char c {}) :: st) s after := by
  have hp : (c == '*' || c == '_' || c == '~') = true := by
    simp only [loose, Bool.or_eq_true, Bool.and_eq_true, beq_iff_eq] at hl ⊢
    tauto
  have hne : c ≠ '~' := by rintro rfl; simp [loose] at hl
  have hs : s.head? ≠ some c := by
    intro h
    rw [h] at hl
    have : classOf uni (some c) = .punct := by
      have : c = '_' ∨ c = '*' := by
        simp only [loose, Bool.or_eq_true, Bool.and_eq_true, beq_iff_eq] at hl
        tauto
      rcases this with rfl | rfl <;> rfl
    simp [loose, this] at hl
  have ht : s.takeWhile (· == c) = [] := by
    cases s with
    | nil => rfl
    | cons a s =>
      have : a ≠ c := by rintro rfl; simp at hs
      simp [this]
  rw [readFrom, if_pos hp]
  simp only [ht, List.length_nil, Nat.zero_add, Nat.sub_self, List.drop_zero]
  generalize classOf uni prev = p at *
  generalize classOf uni (s.head?.or after) = x at *
  have hoc : canOpen c p x = false ∧ canClose c p x = false := by
    simp only [loose, Bool.or_eq_true, Bool.and_eq_true, beq_iff_eq] at hl
    rcases hl with ⟨⟨rfl, rfl⟩, rfl⟩ | ⟨⟨h, rfl⟩, rfl⟩
    · exact ⟨rfl, rfl⟩
    · exact ⟨rfl, rfl⟩
  simp [hoc.1, hoc.2, hne]

theorem read_space {s : Str} {after prev : Option Char} {st : List Entry} {f : Nat}
    (hp : prev.isSome = true) (hp' : prev ≠ some '\n') (hs : (s.dropWhile (· == ' ')).head? ≠ some '\n')
    (hx : s.dropWhile (· == ' ') = [] → after.isSome = true) :
    readFrom uni (f + 1) prev st (' ' :: s) after = readFrom uni f (some ' ') (.glyph (.char ' ' {}) :: st) s after := by
  rw [readFrom]
  simp only [show (' ' == '*') = false from by decide, show (' ' == '_') = false from by decide,
    show (' ' == '~') = false from by decide, show (' ' == '`') = false from by decide,
    show (' ' == '[') = false from by decide, show (' ' == '!') = false from by decide, Bool.false_and, Bool.or_false, Bool.false_eq_true, if_false, BEq.rfl, if_true]
  have hc : ¬ ((prev.isNone || prev == some '\n' || ((s.dropWhile (· == ' ')).isEmpty && after.isNone)) = true) := by
    cases prev with
    | none => cases hp
    | some p =>
      simp only [ne_eq, Option.some.injEq] at hp'
      simp only [Option.isNone_some, Option.some_beq_some, Bool.false_or, Bool.or_eq_true, beq_iff_eq, hp', false_or,
        Bool.and_eq_true, List.isEmpty_iff, not_and]
      intro h
      cases after with
      | none => exact absurd (hx h) (by simp)
      | some a => simp
  split
  · next r h => rw [h] at hs; simp at hs
  · rw [if_neg hc]

theorem calm_nl {prev next : Option Char} {t : Str} (h : calm uni prev t next = true) : '\n' ∉ t := by
  induction t generalizing prev with
  | nil => simp
  | cons c s ih =>
    simp only [calm, Bool.and_eq_true] at h
    have := ih h.2
    rintro hm
    rcases List.mem_cons.mp hm with rfl | hm
    · have := h.1
      simp [literal, loose] at this
    · exact this hm

theorem dropWhile_cases (p : Char → Bool) (s : Str) :
    (∃ x r, s.dropWhile p = x :: r ∧ p x = false ∧ x ∈ s) ∨ (∀ x ∈ s, p x = true) := by
  induction s with
  | nil => right; simp
  | cons a s ih =>
    cases ha : p a with
    | true =>
      rcases ih with ⟨x, r, h1, h2, h3⟩ | h
      · left
        exact ⟨x, r, by rw [List.dropWhile_cons, if_pos ha, h1], h2, by simp [h3]⟩
      · right
        intro x hx
        rcases List.mem_cons.mp hx with rfl | hx
        · exact ha
        · exact h x hx
    | false =>
      left
      exact ⟨a, s, by simp [ha], ha, by simp⟩

/-- Where the spaces at the end of a calm text lead. -/
theorem calm_spaces {prev next : Option Char} {t : Str} (h : calm uni prev (' ' :: t) next = true) :
    ∀ rest after, next = rest.head?.or after →
      ((t ++ rest).dropWhile (· == ' ')).head? ≠ some '\n' ∧
      ((t ++ rest).dropWhile (· == ' ') = [] → after.isSome = true) := by
  intro rest after hn
  have hnl := calm_nl uni h
  rcases dropWhile_cases (· == ' ') t with ⟨x, r, h1, h2, h3⟩ | hall
  · have : (t ++ rest).dropWhile (· == ' ') = x :: r ++ rest := by
      have e : t = t.takeWhile (· == ' ') ++ x :: r := by rw [← h1, List.takeWhile_append_dropWhile]
      rw [e, List.append_assoc, List.dropWhile_append_of_pos]
      · rw [List.cons_append, List.dropWhile_cons, if_neg (by simpa using h2)]
      · intro a ha
        exact takeWhile_mem (p := fun x => x == ' ') ha
    rw [this]
    refine ⟨?_, by simp⟩
    simp only [List.cons_append, List.head?_cons, ne_eq, Option.some.injEq]
    rintro rfl
    exact hnl (by simp [h3])
  · rw [List.dropWhile_append_of_pos hall]
    -- the last space is before `next`
    have hx : ∃ y, next = some y ∧ y ≠ ' ' ∧ y ≠ '\n' := by
      clear hnl
      induction t generalizing prev with
      | nil =>
        simp only [calm, Bool.and_eq_true, BEq.rfl, if_true, List.head?_nil, Option.none_or, List.isEmpty_nil,
          Bool.not_true, Bool.false_or] at h
        obtain ⟨⟨⟨⟨_, h1⟩, h2⟩, h3⟩, _⟩ := h
        cases next with
        | none => simp at h1
        | some y => exact ⟨y, rfl, by simpa using h3, by simpa using h2⟩
      | cons a t ih =>
        have ha := hall a (by simp)
        simp only [beq_iff_eq] at ha
        subst ha
        rw [calm] at h
        simp only [Bool.and_eq_true] at h
        exact ih h.2 (fun x hx => hall x (by simp [hx]))
    obtain ⟨y, rfl, h1, h2⟩ := hx
    cases rest with
    | nil =>
      refine ⟨by simp, fun _ => ?_⟩
      simp only [List.head?_nil, Option.none_or] at hn
      rw [← hn]
      rfl
    | cons a rest =>
      simp only [List.head?_cons, Option.some_or, Option.some.injEq] at hn
      subst hn
      simp [h1, h2]

theorem read_calm {prev next : Option Char} {t : Str} (h : calm uni prev t next = true) :
    ∀ (st : List Entry) (rest : Str) (after : Option Char) (f : Nat), next = rest.head?.or after →
      (t ++ rest).length < f →
      ∃ f', rest.length < f' ∧ readFrom uni f prev st (t ++ rest) after =
        readFrom uni f' (t.getLast?.or prev) (gl (t.map (.char · {})) ++ st) rest after := by
  induction t generalizing prev with
  | nil => intro st rest after f _ hf; exact ⟨f, hf, rfl⟩
  | cons c s ih =>
    intro st rest after f hn hf
    have h' := h
    rw [calm] at h
    simp only [Bool.and_eq_true] at h
    obtain ⟨h1, h2⟩ := h
    cases f with
    | zero => simp at hf
    | succ f =>
      have hx : s.head?.or next = (s ++ rest).head?.or after := by
        cases s with
        | nil => simpa using hn
        | cons a s => simp
      have step : readFrom uni (f + 1) prev st (c :: s ++ rest) after =
          readFrom uni f (some c) (.glyph (.char c {}) :: st) (s ++ rest) after := by
        by_cases hc : c = ' '
        · subst hc
          obtain ⟨g1, g2⟩ := calm_spaces uni h' rest after hn
          simp only [BEq.rfl, if_true, Bool.and_eq_true] at h1
          obtain ⟨⟨⟨⟨h3, h4⟩, _⟩, _⟩, _⟩ := h1
          exact read_space uni h3 (by simpa using h4) g1 g2
        · rw [if_neg (by simpa using hc), hx, Bool.or_eq_true] at h1
          rcases h1 with h1 | h1
          · exact read_literal uni h1 hc
          · exact read_loose uni h1
      obtain ⟨f', hf', e⟩ := ih h2 (.glyph (.char c {}) :: st) rest after f hn (by simp at hf ⊢; omega)
      refine ⟨f', hf', ?_⟩
      rw [step, e]
      congr 1
      · cases s with
        | nil => rfl
        | cons a s => simp [List.getLast?_cons]
      · simp [gl]

/-! ## Code -/

theorem codeEnd_plain {n f : Nat} {a rest : Str} (hn : 0 < n) (ha : '`' ∉ a) (hr : rest.head? ≠ some '`') :
    codeEnd n (f + 1) (a ++ List.replicate n '`' ++ rest) = some (a, rest) := by
  have e1 : (a ++ List.replicate n '`' ++ rest).takeWhile (· != '`') = a := by
    rw [List.append_assoc]
    apply takeWhile_head
    · intro x hx; simp; rintro rfl; exact ha hx
    · intro x hx
      cases n with
      | zero => omega
      | succ n => simp [List.replicate_succ] at hx; simp [← hx]
  have e2 : (List.replicate n '`' ++ rest).takeWhile (· == '`') = List.replicate n '`' := by
    apply takeWhile_head
    · intro x hx; simp [List.eq_of_mem_replicate hx]
    · intro x hx; simp; rintro rfl; exact hr hx
  rw [codeEnd, e1]
  simp only [List.append_assoc, List.drop_left, e2, List.length_replicate]
  rw [if_neg (by omega)]
  simp

theorem read_code {n : Nat} {a rest : Str} {st : List Entry} {prev after : Option Char} {f : Nat} (hn : 0 < n)
    (ha : '`' ∉ a) (h0 : a ≠ []) (hl : ¬ (a.any fun x => x == '\n' || x == '\r') = true) (hr : rest.head? ≠ some '`') :
    readFrom uni (f + 1) prev st (List.replicate n '`' ++ a ++ List.replicate n '`' ++ rest) after =
      readFrom uni f (some '`') (gl ((unpad a).map fun x => .char x { code := true }) ++ st) rest after := by
  obtain ⟨n, rfl⟩ : ∃ m, n = m + 1 := ⟨n - 1, by omega⟩
  have e1 : (List.replicate n '`' ++ (a ++ List.replicate (n + 1) '`' ++ rest)).takeWhile (· == '`') = List.replicate n '`' := by
    apply takeWhile_head
    · intro x hx; simp [List.eq_of_mem_replicate hx]
    · intro x hx
      cases a with
      | nil => exact absurd rfl h0
      | cons y a => simp at hx; subst hx; simp at ha ⊢; tauto
  have e0 : List.replicate (n + 1) '`' ++ a ++ List.replicate (n + 1) '`' ++ rest =
      '`' :: (List.replicate n '`' ++ (a ++ List.replicate (n + 1) '`' ++ rest)) := by
    simp [List.replicate_succ]
  rw [e0, readFrom]
  simp only [show ('`' == '*') = false from by decide, show ('`' == '_') = false from by decide,
    show ('`' == '~') = false from by decide, Bool.or_false, Bool.false_eq_true, if_false, BEq.rfl, if_true, e1,
    List.length_replicate, Nat.add_sub_cancel]
  rw [List.drop_left' (by simp), codeEnd_plain (by omega) ha hr]
  simp only [if_neg hl]
  simp [gl, Function.comp_def]

/-! ## Links -/

theorem linkEnd_plain {label u rest : Str} (hl : ¬ (label.any fun c => c == '[' || c == ']') = true) (hu : plainDest u = true) :
    linkEnd (label ++ ']' :: '(' :: u ++ [')'] ++ rest) = some (label, u, rest) := by
  simp only [plainDest, Bool.and_eq_true, List.all_eq_true] at hu
  have e1 : (label ++ ']' :: '(' :: u ++ [')'] ++ rest).takeWhile (fun c => c != '[' && c != ']') = label := by
    rw [List.append_assoc, List.append_assoc]
    apply takeWhile_head
    · intro x hx
      simp only [List.any_eq_true, not_exists, not_and, Bool.or_eq_true, beq_iff_eq, not_or] at hl
      simp [hl x hx]
    · intro x hx; simp at hx; simp [← hx]
  have e2 : (u ++ ([')'] ++ rest)).takeWhile (fun c => !" \t\n\r\\()<>&\"".toList.contains c && 32 < c.toNat && c.toNat != 127) = u := by
    apply takeWhile_head
    · intro x hx; simp only [Bool.and_eq_true]; exact hu.2 x hx
    · intro x hx; simp at hx; simp [← hx]
  rw [linkEnd, e1]
  simp only [List.append_assoc, List.drop_left, List.cons_append]
  simp only [List.cons_append, List.nil_append] at e2 ⊢
  rw [e2]
  simp only [List.drop_left]
  rw [if_neg (by simpa using hu.1)]

theorem linkedImage_plain {label s : Str} (hl : ¬ (label.any fun c => c == '[' || c == ']') = true) :
    linkedImage (label ++ ']' :: s) = none := by
  rw [linkedImage]
  intro t h
  rcases label with _ | ⟨a, _ | ⟨b, label⟩⟩
  · simp at h
  · simp at h
  · simp only [List.cons_append, List.cons.injEq] at h
    obtain ⟨_, rfl, _⟩ := h
    simp at hl

/-! ## Delimiters -/

/-- A run of exactly `n` delimiters. -/
theorem read_run {c : Char} {n : Nat} {rest : Str} {st : List Entry} {prev after : Option Char} {f : Nat}
    (hc : (c = '*' ∧ (n = 1 ∨ n = 2 ∨ n = 3)) ∨ (c = '~' ∧ n = 2)) (hr : rest.head? ≠ some c) :
    readFrom uni (f + 1) prev st (List.replicate n c ++ rest) after =
      (let p := classOf uni prev
       let x := classOf uni (rest.head?.or after)
       let r := if canClose c p x then matchRun c n (canOpen c p x) n n st else (n, st)
       let st' := if r.1 = 0 then r.2
          else if canOpen c p x then .delim c r.1 n true (canClose c p x) :: r.2
          else List.replicate r.1 (.glyph (.char c {})) ++ r.2
       readFrom uni f (some c) st' rest after) := by
  obtain ⟨m, rfl⟩ : ∃ m, n = m + 1 := ⟨n - 1, by omega⟩
  have e1 : (List.replicate m c ++ rest).takeWhile (· == c) = List.replicate m c := by
    apply takeWhile_head
    · intro x hx; simp [List.eq_of_mem_replicate hx]
    · intro x hx; simp; rintro rfl; exact hr hx
  have h1 : (c == '*' || c == '_' || c == '~') = true := by
    rcases hc with ⟨rfl, _⟩ | ⟨rfl, _⟩ <;> rfl
  have h2 : ¬ ((c == '~' && (m + 1 != 2)) = true) := by
    rcases hc with ⟨rfl, _⟩ | ⟨rfl, h⟩
    · simp
    · simp; omega
  rw [List.replicate_succ, List.cons_append, readFrom, if_pos h1]
  simp only [e1, List.length_replicate, Nat.add_sub_cancel, if_neg h2]
  rw [List.drop_left' (by simp)]

theorem read_open {c : Char} {n : Nat} {rest : Str} {st : List Entry} {prev after : Option Char} {f : Nat}
    (hc : (c = '*' ∧ (n = 1 ∨ n = 2 ∨ n = 3)) ∨ (c = '~' ∧ n = 2)) (hr : rest.head? ≠ some c) (hst : NoDelim c st)
    (h1 : classOf uni (rest.head?.or after) ≠ .white)
    (h2 : classOf uni (rest.head?.or after) = .punct → classOf uni prev ≠ .other) :
    ∃ k, readFrom uni (f + 1) prev st (List.replicate n c ++ rest) after =
      readFrom uni f (some c) (.delim c n n true k :: st) rest after := by
  rw [read_run uni hc hr]
  generalize classOf uni prev = p at *
  generalize classOf uni (rest.head?.or after) = x at *
  have ho : canOpen c p x = true := by
    rcases hc with ⟨rfl, _⟩ | ⟨rfl, _⟩ <;> cases p <;> cases x <;> simp_all [canOpen, leftFlanking]
  have hn : n ≠ 0 := by rcases hc with ⟨_, h⟩ | ⟨_, h⟩ <;> omega
  refine ⟨canClose c p x, ?_⟩
  simp only [ho, if_true, matchRun_none hst, ite_self, hn, if_false]

theorem read_close {c : Char} {n : Nat} {rest : Str} {st : List Entry} {prev after : Option Char} {f : Nat} {k : Bool}
    {gs : List Glyph} (hc : (c = '*' ∧ (n = 1 ∨ n = 2 ∨ n = 3)) ∨ (c = '~' ∧ n = 2)) (hr : rest.head? ≠ some c)
    (h1 : classOf uni prev ≠ .white)
    (h2 : classOf uni prev = .punct → classOf uni (rest.head?.or after) ≠ .other) :
    readFrom uni (f + 1) prev (gl gs ++ .delim c n n true k :: st) (List.replicate n c ++ rest) after =
      readFrom uni f (some c) (gl (gs.map (layerStyle (.wrap c n))) ++ st) rest after := by
  rw [read_run uni hc hr]
  generalize classOf uni prev = p at *
  generalize classOf uni (rest.head?.or after) = x at *
  have ho : canClose c p x = true := by
    rcases hc with ⟨rfl, _⟩ | ⟨rfl, _⟩ <;> cases p <;> cases x <;> simp_all [canClose, rightFlanking]
  simp only [ho, if_true, matchRun_hit _ _ hc]

/-! ## Texts in layers -/

theorem spell_ne_nil {prev next : Option Char} {L : List Layer} {t : Str} (h : fine uni prev L t next = true) :
    spell L t ≠ [] := by
  cases L with
  | nil => simp only [fine, Bool.and_eq_true] at h; simpa [spell] using h.1
  | cons l L =>
    cases l with
    | wrap c n =>
      simp only [fine, Bool.and_eq_true, Bool.or_eq_true, beq_iff_eq] at h
      have : n ≠ 0 := by omega
      simp [spell, this]
    | link u => simp [spell]
    | code => simp [spell]
    | tick => simp [spell]

theorem head_ne {rest : Str} {after : Option Char} {c : Char} (h : rest.head?.or after ≠ some c) : rest.head? ≠ some c := by
  intro e
  rw [e] at h
  exact h rfl

theorem any_ticks {t : Str} (h : (!t.any fun c => c == '`' || c == '\n' || c == '\r') = true) :
    '`' ∉ t ∧ ¬ (t.any fun x => x == '\n' || x == '\r') = true := by
  simp only [Bool.not_eq_true', List.any_eq_false, Bool.or_eq_true, beq_iff_eq, not_or] at h
  refine ⟨fun hm => (h _ hm).1.1 rfl, ?_⟩
  simp only [List.any_eq_true, Bool.or_eq_true, beq_iff_eq, not_exists, not_and, not_or]
  exact fun x hx => ⟨(h x hx).1.2, (h x hx).2⟩

theorem read_fine (L : List Layer) : ∀ (t : Str) (prev next : Option Char), fine uni prev L t next = true →
    ∀ (st : List Entry) (rest : Str) (after : Option Char) (f : Nat), next = rest.head?.or after →
      (∀ c, free c L = false → NoDelim c st) → (spell L t ++ rest).length < f →
      ∃ f', rest.length < f' ∧ readFrom uni f prev st (spell L t ++ rest) after =
        readFrom uni f' ((spell L t).getLast?.or prev) (gl (glyphsL L t) ++ st) rest after := by
  induction L with
  | nil =>
    intro t prev next h st rest after f hn _ hf
    simp only [fine, Bool.and_eq_true] at h
    exact read_calm uni h.2 st rest after f hn hf
  | cons l L ih =>
    intro t prev next h st rest after f hn hst hf
    cases l with
    | code =>
      simp only [fine, Bool.and_eq_true, List.isEmpty_iff] at h
      obtain ⟨⟨⟨rfl, h1⟩, h2⟩, h3⟩ := h
      obtain ⟨g1, g2⟩ := any_ticks h1
      subst hn
      cases f with
      | zero => simp at hf
      | succ f =>
        have e0 : spell [.code] t ++ rest = List.replicate 2 '`' ++ (' ' :: (t ++ [' '])) ++ List.replicate 2 '`' ++ rest := by
          simp [spell, List.replicate_succ]
        have hu : unpad (' ' :: (t ++ [' '])) = t := by
          have : (' ' :: (t ++ [' '])).any (· != ' ') = true := by
            simp only [List.any_cons, List.any_append, h2, Bool.true_or, Bool.or_true]
          rw [unpad, if_pos ⟨rfl, by simp [List.getLast?_cons], this⟩]
          simp
        rw [e0, read_code uni (by omega) (by simpa using g1) (by simp) (by simpa using g2)
          (head_ne (by simpa using h3)), hu]
        refine ⟨f, by simp [spell] at hf; omega, ?_⟩
        have e1 : (spell [.code] t).getLast?.or prev = some '`' := by
          simp [spell, List.getLast?_cons, List.getLast?_append]
        rw [e1]
        simp [glyphsL, layerStyle, Function.comp_def]
    | tick =>
      simp only [fine, Bool.and_eq_true, List.isEmpty_iff] at h
      obtain ⟨⟨⟨⟨rfl, h1⟩, h2⟩, h3⟩, h4⟩ := h
      obtain ⟨g1, g2⟩ := any_ticks h1
      subst hn
      cases f with
      | zero => simp at hf
      | succ f =>
        have e0 : spell [.tick] t ++ rest = List.replicate 1 '`' ++ t ++ List.replicate 1 '`' ++ rest := by
          simp [spell]
        rw [e0, read_code uni (by omega) g1 (by simpa using h2) g2 (head_ne (by simpa using h4)), beq_iff_eq.mp h3]
        refine ⟨f, by simp [spell] at hf; omega, ?_⟩
        have e1 : (spell [.tick] t).getLast?.or prev = some '`' := by simp [spell, List.getLast?_cons]
        rw [e1]
        simp [glyphsL, layerStyle, Function.comp_def]
    | link u =>
      simp only [fine, Bool.and_eq_true] at h
      obtain ⟨⟨h1, h2⟩, h3⟩ := h
      cases f with
      | zero => simp at hf
      | succ f =>
        have e0 : spell (.link u :: L) t ++ rest = '[' :: (spell L t ++ ']' :: '(' :: u ++ [')'] ++ rest) := by
          simp [spell]
        obtain ⟨f', hf', e⟩ := ih t (some '[') (some ']') h3 [] [] (some ']') f rfl
          (by intro c _ e he; cases he) (by simp [spell] at hf ⊢; omega)
        rw [List.append_nil] at e
        have e2 : readFrom uni f (some '[') [] (spell L t) (some ']') = some (gl (glyphsL L t)) := by
          rw [e]
          obtain ⟨f', rfl⟩ : ∃ m, f' = m + 1 := ⟨f' - 1, by omega⟩
          rw [readFrom, List.append_nil]
        have e3 : linkedImage (spell L t ++ ']' :: '(' :: u ++ [')'] ++ rest) = none := by
          rw [List.append_assoc, List.append_assoc]
          exact linkedImage_plain (by simpa using h2)
        rw [e0, readFrom]
        simp only [show ('[' == '*') = false from by decide, show ('[' == '_') = false from by decide,
          show ('[' == '~') = false from by decide, show ('[' == '`') = false from by decide,
          show ('[' == '!') = false from by decide, Bool.false_and, Bool.or_false, e3,
          Bool.false_eq_true, if_false, BEq.rfl, if_true, linkEnd_plain (by simpa using h2) h1, e2]
        refine ⟨f, by simp [spell] at hf; omega, ?_⟩
        have e1 : (spell (.link u :: L) t).getLast?.or prev = some ')' := by
          simp [spell, List.getLast?_cons, List.getLast?_append]
        rw [e1]
        congr 2
        simp only [glyphsL, gl, List.flatMap_map, ← List.map_reverse, List.map_map]
        induction (glyphsL L t).reverse with
        | nil => rfl
        | cons g gs ih =>
          rw [List.flatMap_cons, ih]
          cases g <;> rfl
    | wrap c n =>
      have hh := h
      simp only [fine, Bool.and_eq_true, Bool.or_eq_true, beq_iff_eq, bne_iff_ne, ne_eq] at h
      obtain ⟨⟨⟨⟨⟨⟨⟨⟨hc, h1⟩, h2⟩, h3⟩, h5⟩, h6⟩, h7⟩, h8⟩, h9⟩ := h
      have hc : (c = '*' ∧ (n = 1 ∨ n = 2 ∨ n = 3)) ∨ (c = '~' ∧ n = 2) := by tauto
      have hne := spell_ne_nil uni h9
      have hn0 : 0 < n := by rcases hc with ⟨_, h⟩ | ⟨_, h⟩ <;> omega
      cases f with
      | zero => simp at hf
      | succ f =>
        have e0 : spell (.wrap c n :: L) t ++ rest =
            List.replicate n c ++ (spell L t ++ (List.replicate n c ++ rest)) := by
          simp [spell]
        have hd : ∀ r after', (spell L t ++ r).head?.or after' = (spell L t).head? := by
          intro r a
          cases hs : spell L t with
          | nil => exact absurd hs hne
          | cons x s => rfl
        have hd0 : ∀ r, (spell L t ++ r).head? = (spell L t).head? := by
          intro r
          cases hs : spell L t with
          | nil => exact absurd hs hne
          | cons x s => rfl
        have hstc : NoDelim c st := hst c (by simp [free])
        obtain ⟨k, e1⟩ := read_open uni (f := f) (prev := prev) (after := after) hc
          (rest := spell L t ++ (List.replicate n c ++ rest)) (by rw [hd0]; exact h3) hstc (by rw [hd]; exact h5)
          (by rw [hd]; intro e; rcases h7 with h7 | h7; exact absurd e h7; exact h7)
        have hx : some c = (List.replicate n c ++ rest).head?.or after := by
          obtain ⟨m, rfl⟩ : ∃ m, n = m + 1 := ⟨n - 1, by omega⟩
          simp [List.replicate_succ]
        obtain ⟨f', hf', e2⟩ := ih t (some c) (some c) h9 (.delim c n n true k :: st) (List.replicate n c ++ rest) after f hx
          (by
            intro d hfd e he
            rcases List.mem_cons.mp he with rfl | he
            · intro l r o k hk
              cases hk
              rw [h1] at hfd
              cases hfd
            · exact hst d (by simp [free, hfd]) e he)
          (by simp [spell] at hf ⊢; omega)
        rw [e0, e1, e2]
        have hl : (spell L t).getLast?.or (some c) = (spell L t).getLast? := by
          rw [List.getLast?_eq_getLast_of_ne_nil hne]
          rfl
        obtain ⟨f'', rfl⟩ : ∃ m, f' = m + 1 := ⟨f' - 1, by omega⟩
        rw [hl, read_close uni hc (head_ne (by rw [← hn]; exact h2)) h6
          (by rw [← hn]; intro e; rcases h8 with h8 | h8; exact absurd e h8; exact h8)]
        refine ⟨f'', by simp at hf'; omega, ?_⟩
        have e3 : (spell (.wrap c n :: L) t).getLast?.or prev = some c := by
          obtain ⟨m, rfl⟩ : ∃ m, n = m + 1 := ⟨n - 1, by omega⟩
          simp [spell, List.replicate_succ', List.getLast?_cons, List.getLast?_append]
        rw [e3]
        rfl

/-! ## Lists of words -/

def wordGlyphs : Word → List Glyph
  | .word L t => glyphsL L t
  | .brk => [.brk]
  | .image alt url link => [.image alt url link]

theorem read_brk {rest : Str} {st : List Entry} {prev after : Option Char} {f : Nat} (hp : prev.isSome = true)
    (hr : rest.head?.isSome = true) (hr' : rest.head? ≠ some ' ') :
    readFrom uni (f + 1) prev st ("  \n".toList ++ rest) after = readFrom uni f (some '\n') (.glyph .brk :: st) rest after := by
  rw [show "  \n".toList ++ rest = ' ' :: ' ' :: '\n' :: rest from rfl, readFrom]
  cases prev with
  | none => cases hp
  | some p =>
    cases rest with
    | nil => cases hr
    | cons x rest =>
      have : x ≠ ' ' := by simpa using hr'
      simp [this]

theorem found_gl (gs : List Glyph) : found (gl gs) = gs := by
  unfold found
  rw [List.reverse_eq_iff]
  unfold gl
  induction gs.reverse with
  | nil => rfl
  | cons g gs ih => rw [List.map_cons, List.flatMap_cons, ih]; rfl

theorem glyphText_chars (t : Str) : (t.map (Glyph.char · {})).flatMap glyphText = t := by
  induction t with
  | nil => rfl
  | cons c t ih => rw [List.map_cons, List.flatMap_cons, ih]; rfl

/-- The description of an image. -/
theorem read_label {alt : Str} (h : calm uni (some '[') alt (some ']') = true) {f : Nat} (hf : alt.length < f) :
    ∃ inner, readFrom uni f (some '[') [] alt (some ']') = some inner ∧ (found inner).flatMap glyphText = alt := by
  obtain ⟨f', hf', e⟩ := read_calm uni h [] [] (some ']') f rfl (by simpa using hf)
  refine ⟨gl (alt.map (.char · {})), ?_, by rw [found_gl, glyphText_chars]⟩
  rw [List.append_nil] at e
  rw [e]
  obtain ⟨f', rfl⟩ : ∃ m, f' = m + 1 := ⟨f' - 1, by omega⟩
  rw [readFrom, List.append_nil]

theorem calm_brackets {prev next : Option Char} {t : Str} (h : calm uni prev t next = true) :
    ¬ (t.any fun c => c == '[' || c == ']') = true := by
  induction t generalizing prev with
  | nil => simp
  | cons c s ih =>
    simp only [calm, Bool.and_eq_true] at h
    have := ih h.2
    rw [List.any_cons, Bool.or_eq_true, not_or]
    refine ⟨?_, this⟩
    intro hc
    simp only [Bool.or_eq_true, beq_iff_eq] at hc
    rcases hc with rfl | rfl <;> simp [literal, loose] at h

theorem read_image {alt url rest : Str} {st : List Entry} {prev after : Option Char} {f : Nat} (hu : plainDest url = true)
    (ha : calm uni (some '[') alt (some ']') = true) (hf : (imageText alt url ++ rest).length < f + 1) :
    readFrom uni (f + 1) prev st (imageText alt url ++ rest) after =
      readFrom uni f (some ')') (.glyph (.image alt url none) :: st) rest after := by
  have e0 : imageText alt url ++ rest = '!' :: '[' :: (alt ++ ']' :: '(' :: url ++ [')'] ++ rest) := by simp [imageText]
  obtain ⟨inner, h1, h2⟩ := read_label uni ha (f := f) (by simp [imageText] at hf; omega)
  rw [e0, readFrom]
  simp only [show ('!' == '*') = false from by decide, show ('!' == '_') = false from by decide,
    show ('!' == '~') = false from by decide, show ('!' == '`') = false from by decide, Bool.or_false,
    Bool.false_eq_true, if_false, BEq.rfl, Bool.true_and, List.head?_cons, if_true, List.drop_succ_cons, List.drop_zero,
    linkEnd_plain (calm_brackets uni ha) hu, h1, h2]

theorem read_linked {alt url u rest : Str} {st : List Entry} {prev after : Option Char} {f : Nat} (hu : plainDest url = true)
    (hl : plainDest u = true) (ha : calm uni (some '[') alt (some ']') = true)
    (hf : (spell [.link u] (imageText alt url) ++ rest).length < f + 1) :
    readFrom uni (f + 1) prev st (spell [.link u] (imageText alt url) ++ rest) after =
      readFrom uni f (some ')') (.glyph (.image alt url (some u)) :: st) rest after := by
  have e0 : spell [.link u] (imageText alt url) ++ rest = '[' :: '!' :: '[' ::
      (alt ++ ']' :: '(' :: url ++ [')'] ++ ([] ++ ']' :: '(' :: u ++ [')'] ++ rest)) := by simp [imageText, spell]
  obtain ⟨inner, h1, h2⟩ := read_label uni ha (f := f) (by simp [imageText, spell] at hf; omega)
  have e1 : linkedImage ('!' :: '[' :: (alt ++ ']' :: '(' :: url ++ [')'] ++ ([] ++ ']' :: '(' :: u ++ [')'] ++ rest))) =
      some (alt, url, u, rest) := by
    rw [linkedImage, linkEnd_plain (calm_brackets uni ha) hu]
    simp only
    rw [linkEnd_plain (by simp) hl]
  rw [e0, readFrom]
  simp only [show ('[' == '*') = false from by decide, show ('[' == '_') = false from by decide,
    show ('[' == '~') = false from by decide, show ('[' == '`') = false from by decide,
    show ('[' == '!') = false from by decide, Bool.or_false, Bool.false_and,
    Bool.false_eq_true, if_false, BEq.rfl, if_true, e1, h1, h2]

theorem read_words (ws : List Word) : ∀ (prev : Option Char) (st : List Entry) (f : Nat), fineWords uni prev ws = true →
    (∀ c, NoDelim c st) → (ws.flatMap Word.str).length < f →
    readFrom uni f prev st (ws.flatMap Word.str) none = some (gl (ws.flatMap wordGlyphs) ++ st) := by
  induction ws with
  | nil =>
    intro prev st f _ _ hf
    cases f with
    | zero => simp at hf
    | succ f => rfl
  | cons w ws ih =>
    intro prev st f h hst hf
    rw [fineWords, Bool.and_eq_true] at h
    obtain ⟨h1, h2⟩ := h
    simp only [List.flatMap_cons] at hf ⊢
    have key : ∃ f', (ws.flatMap Word.str).length < f' ∧
        readFrom uni f prev st (w.str ++ ws.flatMap Word.str) none =
          readFrom uni f' (w.str.getLast?.or prev) (gl (wordGlyphs w) ++ st) (ws.flatMap Word.str) none := by
      cases w with
      | word L t =>
        exact read_fine uni L t prev _ h1 st _ none f (by simp) (fun c _ => hst c) hf
      | brk =>
        simp only [fineWord, Bool.and_eq_true] at h1
        cases f with
        | zero => simp at hf
        | succ f =>
          refine ⟨f, by simp [Word.str] at hf ⊢; omega, ?_⟩
          exact read_brk uni h1.1.1 h1.1.2 (by simpa using h1.2)
      | image alt url link =>
        simp only [fineWord, Bool.and_eq_true] at h1
        obtain ⟨⟨g1, g2⟩, g3⟩ := h1
        cases f with
        | zero => simp at hf
        | succ f =>
          cases link with
          | none =>
            refine ⟨f, by simp [Word.str, imageText] at hf ⊢; omega, ?_⟩
            rw [show (Word.image alt url none).str = imageText alt url from rfl, read_image uni g1 g3 hf,
              show (imageText alt url).getLast?.or prev = some ')' by simp [imageText, List.getLast?_cons, List.getLast?_append]]
            rfl
          | some u =>
            refine ⟨f, by simp [Word.str, spell, imageText] at hf ⊢; omega, ?_⟩
            rw [show (Word.image alt url (some u)).str = spell [.link u] (imageText alt url) from rfl,
              read_linked uni g1 (by simpa using g2) g3 hf,
              show (spell [.link u] (imageText alt url)).getLast?.or prev = some ')' by
                simp [spell, List.getLast?_cons, List.getLast?_append]]
            rfl
    obtain ⟨f', hf', e⟩ := key
    rw [e, ih _ _ _ h2 (fun c => noDelim_gl c _ (hst c)) hf', gl_append, List.append_assoc]

theorem read_inline (ws : List Word) (h : fineWords uni none ws = true) :
    readInline uni (ws.flatMap Word.str) = some (ws.flatMap wordGlyphs) := by
  rw [readInline, read_words uni ws none [] _ h (by intro c e he; cases he) (Nat.lt_succ_self _)]
  rw [Option.map_some, List.append_nil, found_gl]

end Verif.Lemmas
