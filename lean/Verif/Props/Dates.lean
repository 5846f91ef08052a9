import Verif.Lemmas.Calendar
import Verif.Lemmas.Timestamp
import Verif.Lemmas.Float
import Verif.Lemmas.Attrs
/-!
# C37: dates
-/

namespace Verif.Props
open Verif

theorem isUtcDay_iff (t D : Int) : Spec.IsUtcDay t D ↔ D = Date.epochOrd + t.fdiv 86400000 := by
  unfold Spec.IsUtcDay
  rw [epoch_ok]
  have : t.fdiv 86400000 = t / 86400000 := Int.fdiv_eq_ediv_of_nonneg _ (by decide)
  rw [this]
  unfold Date.epochOrd
  omega

/-- The float division and the split into seconds and microseconds do not move an instant to another
day, and do not move an instant into or out of the years 1 to 9999. -/
theorem ofMillis_exact (t : Int) : Date.ofMillis t =
    if 1 ≤ Date.epochOrd + t.fdiv 86400000 ∧ Date.epochOrd + t.fdiv 86400000 ≤ Date.maxOrd then
      .ok (Date.isoFormat (Date.ord2ymd (Date.epochOrd + t.fdiv 86400000).toNat).1
        (Date.ord2ymd (Date.epochOrd + t.fdiv 86400000).toNat).2.1
        (Date.ord2ymd (Date.epochOrd + t.fdiv 86400000).toNat).2.2)
    else .error .valueError := by
  unfold Date.ofMillis
  dsimp only
  by_cases h : |t| ≤ 1000000000000000
  · have : (Flt.wholeSeconds (Flt.rnd ((t : Rat) / 1000))).fdiv Date.secPerDay = t.fdiv 86400000 :=
      Flt.day_exact t h
    rw [this]
  · have he : t.fdiv 86400000 = t / 86400000 := Int.fdiv_eq_ediv_of_nonneg _ (by decide)
    rw [if_neg, if_neg]
    · rw [he]
      unfold Date.epochOrd Date.maxOrd
      rw [abs_le] at h
      omega
    · have hs : Date.secPerDay = 86400 := rfl
      rw [hs]
      unfold Date.epochOrd Date.maxOrd
      rw [abs_le] at h
      rcases Classical.em (1000000000000000 < t) with h1 | h1
      · have := Flt.day_late t h1
        omega
      · have := Flt.day_early t (by omega)
        omega

/-- C37: `n.to_markdown()` for a timestamp of `t` milliseconds succeeds exactly when the UTC day lies
in the years 1 to 9999, and then it is the ISO string of the calendar date of that day. -/
theorem C37_utc_date (env : Env) (n : Node) (t : Int) (ig : Bool) (hn : n.cls = .date) (ts : Val)
    (ht : Spec.attr n "timestamp" = some ts) (hi : Spec.Timestamp env ts t) (v : Val) :
    n.toMarkdown env ig = .ok v ↔
      ∃ y m d, Spec.ValidDate y m d ∧ y ≤ 9999 ∧ Spec.IsUtcDay t (Spec.dayNumber y m d) ∧
        v = .str (Spec.isoDate y m d) := by
  have hn' : n.hd.cls = .date := hn
  rw [toMarkdown_eq]
  unfold dispatch
  simp only [hn', getAttr_eq ht, Option.isSome_none, Bool.false_and, Bool.false_eq_true, if_false]
  unfold Date.render
  rw [(toInt_iff env ts t).mpr hi]
  simp only [ofMillis_exact]
  constructor
  · intro h
    split at h
    · simp at h
    · next s hs =>
      split at hs
      · next hr =>
        have h1 : 1 ≤ (Date.epochOrd + t.fdiv 86400000).toNat := by omega
        obtain ⟨hv, hd⟩ := ord2ymd_ok _ h1
        have hy : (Date.ord2ymd (Date.epochOrd + t.fdiv 86400000).toNat).1 ≤ 9999 := by
          apply Nat.le_of_not_lt
          intro hlt
          have h9 : Spec.ValidDate 9999 12 31 := (dec31 9999 (by omega)).1
          have := dayNumber_lt h9 hv (.inl hlt)
          have hm := max_ok
          omega
        refine ⟨_, _, _, hv, hy, ?_, ?_⟩
        · rw [isUtcDay_iff, hd]; omega
        · simp only [Except.ok.injEq] at hs h
          rw [← h, ← hs, isoFormat_eq hv hy]
      · simp at hs
  · rintro ⟨y, m, d, hv, hy, hd, rfl⟩
    rw [isUtcDay_iff] at hd
    have h1 : 1 ≤ Spec.dayNumber y m d := by
      unfold Spec.dayNumber; have := hv.2.2.2.1; omega
    have h2 : Spec.dayNumber y m d ≤ Spec.dayNumber 9999 12 31 := by
      apply Nat.le_of_not_lt
      intro hlt
      have h9 : Spec.ValidDate 9999 12 31 := (dec31 9999 (by omega)).1
      have hv' := hv
      have := dateLt_of_dayNumber h9 hv hlt
      obtain ⟨_, _, h3, _, h5⟩ := hv'
      have := monthLength_le y m
      unfold DateLt at *
      omega
    have hm := max_ok
    rw [if_pos (by omega)]
    rw [← hd]
    have h3 : 1 ≤ ((Spec.dayNumber y m d : Nat) : Int).toNat := by omega
    obtain ⟨hv', hd'⟩ := ord2ymd_ok _ h3
    obtain ⟨e1, e2, e3⟩ := dayNumber_inj hv' hv (by rw [hd']; omega)
    simp only
    rw [e1, e2, e3, isoFormat_eq hv hy]

/-- C37: a day has one date: the day number determines year, month and day. -/
theorem C37_one_date (y m d y' m' d' : Nat) (h : Spec.ValidDate y m d) (h' : Spec.ValidDate y' m' d')
    (e : Spec.dayNumber y m d = Spec.dayNumber y' m' d') : y = y' ∧ m = m' ∧ d = d' :=
  dayNumber_inj h h' e

example := C37_one_date 2024 2 29 2024 2 29 ⟨by omega, by omega, by omega, by omega, by decide⟩
  ⟨by omega, by omega, by omega, by omega, by decide⟩ rfl

/-- C37: every day has a date. -/
theorem C37_every_day (D : Nat) (h : 1 ≤ D) :
    ∃ y m d, Spec.ValidDate y m d ∧ Spec.dayNumber y m d = D :=
  ⟨_, _, _, ord2ymd_ok D h⟩

example := C37_every_day 738945 (by omega)

/-- C37: instants of the same UTC day render equally; instants of a later UTC day render a later
date, which is also a later string. -/
theorem C37_order (env : Env) (n n' : Node) (t t' D D' : Int) (hn : n.cls = .date) (hn' : n'.cls = .date)
    (ts ts' : Val) (ht : Spec.attr n "timestamp" = some ts) (ht' : Spec.attr n' "timestamp" = some ts')
    (hi : Spec.Timestamp env ts t) (hi' : Spec.Timestamp env ts' t')
    (hD : Spec.IsUtcDay t D) (hD' : Spec.IsUtcDay t' D') (s s' : Str)
    (h : Spec.Md env n s) (h' : Spec.Md env n' s') : (D = D' → s = s') ∧ (D < D' → s < s') := by
  obtain ⟨y, m, d, hv, hy, hd, e⟩ := (C37_utc_date env n t false hn ts ht hi _).mp h
  obtain ⟨y', m', d', hv', hy', hd', e'⟩ := (C37_utc_date env n' t' false hn' ts' ht' hi' _).mp h'
  simp only [Val.str.injEq] at e e'
  rw [isUtcDay_iff] at hD hD' hd hd'
  constructor
  · intro heq
    obtain ⟨rfl, rfl, rfl⟩ := dayNumber_inj hv hv' (by omega)
    rw [e, e']
  · intro hlt
    have := dateLt_of_dayNumber hv hv' (by omega)
    rw [e, e']
    have h31 := monthLength_le y' m'
    obtain ⟨_, _, h3, _, h5⟩ := hv'
    exact isoDate_lt this (by omega) (by omega) (by omega)

/-- C37: other timestamps raise. -/
theorem C37_raises (env : Env) (n : Node) (ig : Bool) (hn : n.cls = .date) (ts : Val)
    (ht : Spec.attr n "timestamp" = some ts) (hi : ∀ t, ¬ Spec.Timestamp env ts t) :
    ∃ e, n.toMarkdown env ig = .error e := by
  have hn' : n.hd.cls = .date := hn
  rw [toMarkdown_eq]
  unfold dispatch
  simp only [hn', getAttr_eq ht, Option.isSome_none, Bool.false_and, Bool.false_eq_true, if_false]
  unfold Date.render
  cases h : Date.toInt env ts with
  | ok t => exact absurd ((toInt_iff env ts t).mp h) (hi t)
  | error e => exact ⟨e, rfl⟩

/-- C37: a timestamp denotes one instant. -/
theorem C37_one_instant (env : Env) (ts : Val) (t t' : Int) (h : Spec.Timestamp env ts t)
    (h' : Spec.Timestamp env ts t') : t = t' := by
  have := ((toInt_iff env ts t).mpr h).symm.trans ((toInt_iff env ts t').mpr h')
  exact Except.ok.inj this

example := C37_one_instant Samples.env (.int (-1)) (-1) (-1) (.int _) (.int _)

/-- C37: an ADF timestamp (a string of ASCII digits) is read as the number it denotes. -/
theorem C37_timestamp (env : Env) (ds : Str) (hne : ds ≠ [])
    (hd : ∀ c ∈ ds, '0'.toNat ≤ c.toNat ∧ c.toNat ≤ '9'.toNat) :
    Spec.Timestamp env (.str ds) (ds.foldl (fun a c => a * 10 + (c.toNat - '0'.toNat)) 0 : Nat) := by
  have := Spec.Timestamp.str (env := env) [] ds [] _ (by intro c hc; simp at hc)
    (.plain _ _ (numeral_ascii env ds hne hd)) (by intro c hc; simp at hc)
  simpa using this

/-- C37: every parsed date node has a timestamp. -/
theorem C37_has_timestamp (n : Node) (hp : Spec.Parsed n) (hn : n.cls = .date) :
    ∃ v, Spec.attr n "timestamp" = some v :=
  parsed_attr hp (by rw [hn]; decide) (by rw [hn]; decide)

example := C37_has_timestamp (Samples.parse (Samples.j "date" [("attrs", .dict [("timestamp", Samples.str "1709208000000")])]))
  (Samples.parsed rfl) rfl

/-- 2024-02-29T12:00:00Z -/
def sampleDate (t : Val) : Node :=
  .mk ⟨.date, Samples.str "date", none, none, Samples.attrs [("timestamp", t), ("localId", .opt)],
    .absent⟩ .absent

example : (parseNode true (Samples.j "date" [("attrs",
      .dict [("timestamp", Samples.str "1709208000000")])])).out =
    .ok (sampleDate (Samples.str "1709208000000")) := rfl

-- 2024-02-29T12:00:00Z
example : (sampleDate (Samples.str "1709208000000")).toMarkdown Samples.env false =
    .ok (Samples.str "2024-02-29") := by
  refine (C37_utc_date Samples.env _ 1709208000000 false rfl _ rfl ?_ _).mpr
    ⟨2024, 2, 29, ⟨by omega, by omega, by omega, by omega, by decide⟩, by omega, ?_, rfl⟩
  · exact C37_timestamp Samples.env "1709208000000".toList (by decide) (by decide)
  · rw [isUtcDay_iff]
    have : Spec.dayNumber 2024 2 29 = 738945 := by
      unfold Spec.dayNumber; rw [daysBeforeYear_closed 2023]; rfl
    rw [this]; rfl

-- one millisecond before the epoch
example : (sampleDate (.int (-1))).toMarkdown Samples.env false =
    .ok (Samples.str "1969-12-31") := by
  refine (C37_utc_date Samples.env _ (-1) false rfl _ rfl (.int _) _).mpr
    ⟨1969, 12, 31, (dec31 1969 (by omega)).1, by omega, ?_, rfl⟩
  rw [isUtcDay_iff, (dec31 1969 (by omega)).2, daysBeforeYear_closed 1969]
  rfl

-- a bool is an int
example : (sampleDate (.bool true)).toMarkdown Samples.env false = .ok (Samples.str "1970-01-01") := by
  refine (C37_utc_date Samples.env _ 1 false rfl _ rfl .true _).mpr
    ⟨1970, 1, 1, ⟨by omega, by omega, by omega, by omega, by decide⟩, by omega, ?_, rfl⟩
  rw [isUtcDay_iff, epoch_ok]
  rfl

-- the last millisecond `datetime` can represent, and the next one
example : (sampleDate (.int 253402300799999)).toMarkdown Samples.env false =
    .ok (Samples.str "9999-12-31") := by
  refine (C37_utc_date Samples.env _ 253402300799999 false rfl _ rfl (.int _) _).mpr
    ⟨9999, 12, 31, (dec31 9999 (by omega)).1, by omega, ?_, rfl⟩
  rw [isUtcDay_iff, (dec31 9999 (by omega)).2, daysBeforeYear_closed 9999]
  rfl
example (v : Val) : ¬ (sampleDate (.int 253402300800000)).toMarkdown Samples.env false = .ok v := by
  intro h
  obtain ⟨y, m, d, hv, hy, hd, -⟩ :=
    (C37_utc_date Samples.env _ 253402300800000 false rfl _ rfl (.int _) _).mp h
  rw [isUtcDay_iff] at hd
  have h2 := dayNumber_inj (y := y) (m := m) (d := d) (y' := 10000) (m' := 1) (d' := 1) hv
    ⟨by omega, by omega, by omega, by omega, by decide⟩ (by
      have e : Spec.dayNumber 10000 1 1 = 3652060 := by
        unfold Spec.dayNumber; rw [daysBeforeYear_closed 9999]; rfl
      have : Date.epochOrd + (253402300800000 : Int).fdiv 86400000 = 3652060 := rfl
      omega)
  omega
example : ∃ e, (sampleDate (Samples.str "1_")).toMarkdown Samples.env false = .error e := by
  refine C37_raises Samples.env _ false rfl _ rfl fun t h => ?_
  have := (toInt_iff _ _ _).mpr h
  have e : Date.toInt Samples.env (Samples.str "1_") = .error .valueError := rfl
  rw [e] at this
  cases this

-- `C37_order`: the last millisecond of one year and the first of the next one
example : Samples.str "1969-12-31" = Samples.str "1969-12-31" ∧ "1969-12-31".toList < "1970-01-01".toList := by
  have h1 : Spec.Md Samples.env (sampleDate (.int (-1))) "1969-12-31".toList := by
    refine (C37_utc_date Samples.env _ (-1) false rfl _ rfl (.int _) _).mpr
      ⟨1969, 12, 31, (dec31 1969 (by omega)).1, by omega, ?_, rfl⟩
    rw [isUtcDay_iff, (dec31 1969 (by omega)).2, daysBeforeYear_closed 1969]
    rfl
  have h2 : Spec.Md Samples.env (sampleDate (.int 0)) "1970-01-01".toList := by
    refine (C37_utc_date Samples.env _ 0 false rfl _ rfl (.int _) _).mpr
      ⟨1970, 1, 1, ⟨by omega, by omega, by omega, by omega, by decide⟩, by omega, ?_, rfl⟩
    rw [isUtcDay_iff, epoch_ok]
    rfl
  have d1 : Spec.IsUtcDay (-1) 719162 := by rw [isUtcDay_iff]; rfl
  have d2 : Spec.IsUtcDay 0 719163 := by rw [isUtcDay_iff]; rfl
  exact ⟨rfl, (C37_order Samples.env _ _ (-1) 0 719162 719163 rfl rfl _ _ rfl rfl (.int _) (.int _) d1 d2 _ _ h1 h2).2
    (by omega)⟩

end Verif.Props
