import Verif.Lemmas.FileText
import Verif.Spec.FileCache
/-!
# Invariants of the file cache
-/

namespace Verif
open Verif.Spec Verif.Json Verif.FileCache

theorem served_data {rf : Str → Str} (hrf : ∀ t, FloatRepr rf (rf t)) {served : Val → Prop} (hs : ServesObjects rf served)
    {v : Val} (hv : served v) : ∃ d, v = .dict d ∧ Data rf (.dict d) := by
  obtain ⟨⟨d, rfl⟩, t, ht⟩ := hs v hv
  exact ⟨d, rfl, loads_data hrf ht⟩

theorem writeAt_get (b : Bytes) (pos : Nat) (d : Bytes) (i : Nat) : (writeAt b pos d)[i]? =
    if i < pos then (if i < b.length then b[i]? else some 0)
    else if i < pos + d.length then d[i - pos]? else b[i]? := by
  unfold writeAt
  by_cases h1 : i < pos
  · simp only [h1, if_true]
    by_cases h2 : i < b.length
    · rw [List.append_assoc, List.append_assoc, List.getElem?_append_left (by simp; omega)]
      simp [h1, h2]
    · rw [List.append_assoc, List.getElem?_append_left (by simp; omega), List.getElem?_append_right (by simp; omega)]
      simp only [h2, if_false]
      rw [List.getElem?_replicate, if_pos (by simp; omega)]
  · simp only [h1, if_false]
    have e : (List.take pos b ++ List.replicate (pos - b.length) (0 : UInt8)).length = pos := by simp; omega
    by_cases h2 : i < pos + d.length
    · simp only [h2, if_true]
      rw [List.getElem?_append_left (by simp only [List.length_append] at e ⊢; omega),
        List.getElem?_append_right (by omega), e]
    · simp only [h2, if_false]
      rw [List.getElem?_append_right (by simp only [List.length_append] at e ⊢; omega)]
      simp only [List.length_append] at e ⊢
      rw [e, List.getElem?_drop]
      congr 1
      omega

theorem writeAt_length (b : Bytes) (pos : Nat) (d : Bytes) : (writeAt b pos d).length = max (max b.length pos) (pos + d.length) := by
  unfold writeAt; simp; omega

theorem mix_iff {q b : Bytes} : Mix q b ↔ q.length ≤ b.length ∧ ∀ i, i < q.length → q[i]? = b[i]? ∨ q[i]? = some 0 := by
  unfold Mix
  constructor
  · rintro ⟨h1, h2⟩
    refine ⟨h1, fun i hi => ?_⟩
    rcases h2 i hi with h | h
    · exact .inl h
    · right; rw [List.getElem?_eq_getElem hi, h]
  · rintro ⟨h1, h2⟩
    refine ⟨h1, fun i hi => ?_⟩
    rcases h2 i hi with h | h
    · exact .inl h
    · right; rw [List.getElem?_eq_getElem hi] at h; exact Option.some.inj h

theorem mix_write {a b : Bytes} {pos n : Nat} (ha : Mix a b) (hp : pos ≤ b.length) :
    Mix (writeAt a pos ((b.drop pos).take n)) b := by
  rw [mix_iff] at *
  obtain ⟨h1, h2⟩ := ha
  refine ⟨by rw [writeAt_length]; simp; omega, fun i hi => ?_⟩
  rw [writeAt_length] at hi
  rw [writeAt_get]
  split
  · split
    · rename_i h; exact h2 i h
    · exact .inr rfl
  · split
    · rename_i h3 h4
      left
      simp only [List.length_take, List.length_drop] at h4
      rw [List.getElem?_take, if_pos (by omega), List.getElem?_drop]
      congr 1; omega
    · rename_i h3 h4
      exact h2 i (by omega)

theorem mix_read {buf a b : Bytes} {n : Nat} (hb : Mix buf b) (ha : Mix a b) :
    Mix (buf ++ (a.drop buf.length).take n) b := by
  rw [mix_iff] at *
  refine ⟨by simp; omega, fun i hi => ?_⟩
  by_cases h : i < buf.length
  · rw [List.getElem?_append_left h]; exact hb.2 i h
  · rw [List.getElem?_append_right (by omega)]
    simp only [List.length_append, List.length_take, List.length_drop] at hi
    rw [List.getElem?_take, if_pos (by omega), List.getElem?_drop]
    have : buf.length + (i - buf.length) = i := by omega
    rw [this]
    exact ha.2 i (by omega)

theorem setProc_self (s : Sys) (p : Nat) (q : Proc) : (s.setProc p q).procs p = q := by simp [Sys.setProc]
theorem setProc_other (s : Sys) {p i : Nat} (q : Proc) (h : i ≠ p) : (s.setProc p q).procs i = s.procs i := by
  simp [Sys.setProc, h]

/-! ## One value on the server -/

/-- A process all of whose data stems from the value `v`, whose file has the bytes `b`. -/
structure ProcOk (v : Val) (b : Bytes) (q : Proc) : Prop where
  value : ∀ x, q.value = some x → x = v
  kept : ∀ x, q.kept = some x → x = v
  reading : ∀ f buf, q.stage = .reading f buf → Mix buf b
  fetched : ∀ x, q.stage = .fetched x → x = v
  writing : ∀ f pos rest x, q.stage = .writing f pos rest x → x = v ∧ rest = b.drop pos ∧ pos ≤ b.length

structure Inv (v : Val) (b : Bytes) (s : Sys) : Prop where
  files : ∀ f, Mix (s.files f) b
  procs : ∀ p, ProcOk v b (s.procs p)

theorem procOk_fresh (v : Val) (b : Bytes) : ProcOk v b Proc.fresh := by
  constructor <;> simp [Proc.fresh]

theorem inv_setProc {v : Val} {b : Bytes} {s : Sys} {p : Nat} {q : Proc} (h : Inv v b s) (hq : ProcOk v b q) :
    Inv v b (s.setProc p q) := by
  refine ⟨h.files, fun i => ?_⟩
  by_cases hi : i = p
  · subst hi; rw [setProc_self]; exact hq
  · rw [setProc_other s q hi]; exact h.procs i

theorem inv_files {v : Val} {b : Bytes} {s s' : Sys} (h : Inv v b s) (hp : s'.procs = s.procs) (hf : ∀ f, Mix (s'.files f) b) :
    Inv v b s' := ⟨hf, fun p => by rw [hp]; exact h.procs p⟩

theorem inv_step {cfg : Cfg} {served : Val → Prop} {v : Val} {b : Bytes} {s s' : Sys} {e : Event}
    (hdec : ∀ q x, Mix q b → decode cfg q = some x → x = v) (hone : ∀ x, served x → x = v)
    (hb : content cfg v = some b) (h : Inv v b s) (hst : Step cfg served s e s') :
    Inv v b s' ∧ ∀ p x, e = .ret p x → x = v := by
  cases hst with
  | hit p hp =>
    refine ⟨h, ?_⟩
    rintro _ _ ⟨⟩
    exact (h.procs p).value _ (by rw [hp])
  | openRead p f hp hf =>
    refine ⟨inv_setProc h ?_, by rintro _ _ ⟨⟩⟩
    have := h.procs p
    rw [hp] at this
    exact ⟨this.value, this.kept, by rintro _ _ ⟨⟩; exact mix_nil b, by rintro _ ⟨⟩, by rintro _ _ _ _ ⟨⟩⟩
  | openMissing p hp hf =>
    refine ⟨inv_setProc h ?_, by rintro _ _ ⟨⟩⟩
    have := h.procs p
    rw [hp] at this
    exact ⟨this.value, this.kept, by rintro _ _ ⟨⟩, by rintro _ ⟨⟩, by rintro _ _ _ _ ⟨⟩⟩
  | read p f n hp =>
    refine ⟨inv_setProc h ?_, by rintro _ _ ⟨⟩⟩
    have := h.procs p
    rw [hp] at this
    exact ⟨this.value, this.kept, by rintro _ _ ⟨⟩; exact mix_read (this.reading _ _ rfl) (h.files f), by rintro _ ⟨⟩, by rintro _ _ _ _ ⟨⟩⟩
  | eof p f hp hlen hdecode =>
    have := h.procs p
    rw [hp] at this
    have e := hdec _ _ (this.reading _ _ rfl) hdecode
    refine ⟨inv_setProc h ?_, by rintro _ _ ⟨⟩; exact e⟩
    exact ⟨by rintro _ ⟨⟩; exact e, this.kept, by rintro _ _ ⟨⟩, by rintro _ ⟨⟩, by rintro _ _ _ _ ⟨⟩⟩
  | eofBad p f hp hlen hdecode =>
    have := h.procs p
    rw [hp] at this
    refine ⟨inv_setProc h ?_, by rintro _ _ ⟨⟩⟩
    exact ⟨this.value, this.kept, by rintro _ _ ⟨⟩, by rintro _ ⟨⟩, by rintro _ _ _ _ ⟨⟩⟩
  | refetch p hk hp =>
    have := h.procs p
    rw [hp] at this
    refine ⟨inv_setProc h ?_, by rintro _ _ ⟨⟩⟩
    exact ⟨this.value, this.kept, by rintro _ _ ⟨⟩, by rintro _ ⟨⟩; exact this.kept _ rfl, by rintro _ _ _ _ ⟨⟩⟩
  | fetch p hp hk hsv =>
    have := h.procs p
    rw [hp] at this
    refine ⟨inv_setProc h ?_, by rintro _ _ ⟨⟩⟩
    refine ⟨this.value, ?_, by rintro _ _ ⟨⟩, by rintro _ ⟨⟩; exact hone _ hsv, by rintro _ _ _ _ ⟨⟩⟩
    intro x hx
    simp only at hx
    split at hx
    · cases hx; exact hone _ hsv
    · simp at hx
  | fetchFail p hp hk =>
    have := h.procs p
    rw [hp] at this
    refine ⟨inv_setProc h ?_, by rintro _ _ ⟨⟩⟩
    exact ⟨this.value, this.kept, by rintro _ _ ⟨⟩, by rintro _ ⟨⟩, by rintro _ _ _ _ ⟨⟩⟩
  | openWrite p hp hc =>
    have := h.procs p
    rw [hp] at this
    have e := this.fetched _ rfl
    subst e
    rw [hb] at hc
    cases hc
    refine ⟨inv_setProc ?_ ?_, by rintro _ _ ⟨⟩⟩
    · refine inv_files h ?_ ?_
      · unfold Sys.openWrite; split <;> rfl
      · intro f
        unfold Sys.openWrite
        split
        · simp only [Sys.setFile]; split
          · exact mix_nil b
          · exact h.files f
        · simp only [Sys.create]; split
          · exact mix_nil b
          · exact h.files f
    · exact ⟨this.value, this.kept, by rintro _ _ ⟨⟩, by rintro _ ⟨⟩, by rintro _ _ _ _ ⟨⟩; simp⟩
  | dumpFail p hp hc =>
    have := h.procs p
    rw [hp] at this
    refine ⟨inv_setProc h ?_, by rintro _ _ ⟨⟩⟩
    exact ⟨this.value, this.kept, by rintro _ _ ⟨⟩, by rintro _ ⟨⟩, by rintro _ _ _ _ ⟨⟩⟩
  | openFail p hp =>
    have := h.procs p
    rw [hp] at this
    refine ⟨inv_setProc h ?_, by rintro _ _ ⟨⟩⟩
    exact ⟨this.value, this.kept, by rintro _ _ ⟨⟩, by rintro _ ⟨⟩, by rintro _ _ _ _ ⟨⟩⟩
  | write p f pos n hp hn =>
    have := h.procs p
    rw [hp] at this
    obtain ⟨rfl, rfl, hpos⟩ := this.writing _ _ _ _ rfl
    refine ⟨inv_setProc (inv_files h rfl ?_) ?_, by rintro _ _ ⟨⟩⟩
    · intro g
      simp only [Sys.setFile]; split
      · exact mix_write (h.files f) hpos
      · exact h.files g
    · refine ⟨this.value, this.kept, by rintro _ _ ⟨⟩, by rintro _ ⟨⟩, ?_⟩
      rintro _ _ _ _ ⟨⟩
      simp only [List.length_drop] at hn
      exact ⟨rfl, by rw [List.drop_drop], by omega⟩
  | writeFail p f pos hp =>
    have := h.procs p
    rw [hp] at this
    refine ⟨inv_setProc h ?_, by rintro _ _ ⟨⟩⟩
    exact ⟨this.value, this.kept, by rintro _ _ ⟨⟩, by rintro _ ⟨⟩, by rintro _ _ _ _ ⟨⟩⟩
  | close p f pos hp =>
    have := h.procs p
    rw [hp] at this
    have e := (this.writing _ _ _ _ rfl).1
    refine ⟨inv_setProc h ?_, by rintro _ _ ⟨⟩; exact e⟩
    exact ⟨by rintro _ ⟨⟩; exact e, this.kept, by rintro _ _ ⟨⟩, by rintro _ ⟨⟩, by rintro _ _ _ _ ⟨⟩⟩
  | crash p => exact ⟨inv_setProc h (procOk_fresh v b), by rintro _ _ ⟨⟩⟩
  | delete => exact ⟨inv_files h rfl h.files, by rintro _ _ ⟨⟩⟩

theorem inv_exec {cfg : Cfg} {served : Val → Prop} {v : Val} {b : Bytes} {s s' : Sys} {tr : List Event}
    (hdec : ∀ q x, Mix q b → decode cfg q = some x → x = v) (hone : ∀ x, served x → x = v)
    (hb : content cfg v = some b) (h : Inv v b s) (hex : Exec cfg served s tr s') :
    Inv v b s' ∧ ∀ p x, .ret p x ∈ tr → x = v := by
  induction hex with
  | nil => exact ⟨h, by simp⟩
  | snoc _ hst ih =>
    obtain ⟨i1, i2⟩ := ih
    obtain ⟨j1, j2⟩ := inv_step hdec hone hb i1 hst
    refine ⟨j1, fun p x hx => ?_⟩
    rw [List.mem_append, List.mem_singleton] at hx
    rcases hx with hx | hx
    · exact i2 p x hx
    · exact j2 p x hx.symm

theorem inv_empty (v : Val) (b : Bytes) : Inv v b Sys.empty :=
  ⟨fun _ => mix_nil b, fun _ => procOk_fresh v b⟩

theorem inv_withFile (v : Val) {b q : Bytes} (h : Mix q b) : Inv v b (Sys.withFile q) :=
  ⟨fun _ => h, fun _ => procOk_fresh v b⟩

/-! ## A file that stays -/

/-- A process that only ever reads file `f`, whose bytes are `b`, and may have had the value `old`. -/
structure ReaderOk (cfg : Cfg) (f : Nat) (b : Bytes) (old : Option Val) (q : Proc) : Prop where
  value : ∀ x, q.value = some x → decode cfg b = some x ∨ old = some x
  stage : q.stage = .idle ∨ ∃ buf, q.stage = .reading f buf ∧ buf <+: b

structure Stays (cfg : Cfg) (f : Nat) (b : Bytes) (old : Nat → Option Val) (s : Sys) : Prop where
  path : s.path = some f
  file : s.files f = b
  procs : ∀ p, ReaderOk cfg f b (old p) (s.procs p)

theorem prefix_read {buf b : Bytes} {n : Nat} (h : buf <+: b) : buf ++ (b.drop buf.length).take n <+: b := by
  obtain ⟨t, rfl⟩ := h
  rw [List.drop_left, List.prefix_append_right_inj]
  exact List.take_prefix n t

theorem stays_setProc {cfg : Cfg} {f : Nat} {b : Bytes} {old : Nat → Option Val} {s : Sys} {p : Nat} {q : Proc} (h : Stays cfg f b old s)
    (hq : ReaderOk cfg f b (old p) q) : Stays cfg f b old (s.setProc p q) := by
  refine ⟨h.path, h.file, fun i => ?_⟩
  by_cases hi : i = p
  · subst hi; rw [setProc_self]; exact hq
  · rw [setProc_other s q hi]; exact h.procs i

/-- What happens while a file stays: it is read. -/
theorem stays_step {cfg : Cfg} {served : Val → Prop} {f : Nat} {b : Bytes} {old : Nat → Option Val} {s s' : Sys} {e : Event}
    (h : Stays cfg f b old s) (hst : Step cfg served s e s') (hd : e ≠ .delete) :
    Stays cfg f b old s' ∧ s'.files = s.files ∧ (∀ p v, e ≠ .fetch p v) ∧ (∀ p v, e = .ret p v → decode cfg b = some v ∨ old p = some v) ∧
      (∀ p x, e = .raise p x → x = .decode ∧ decode cfg b = none) := by
  cases hst with
  | hit p hp =>
    refine ⟨h, rfl, by simp, ?_, by simp⟩
    rintro _ _ ⟨⟩
    exact (h.procs p).value _ (by rw [hp])
  | openRead p g hp hf =>
    have := h.procs p
    rw [hp] at this
    rw [h.path] at hf
    cases hf
    refine ⟨stays_setProc h ⟨this.value, .inr ⟨_, rfl, List.nil_prefix⟩⟩, rfl, by simp, by simp, by simp⟩
  | openMissing p hp hf => rw [h.path] at hf; simp at hf
  | read p g n hp =>
    have := h.procs p
    rw [hp] at this
    obtain hs | ⟨buf, hs, hb⟩ := this.stage
    · simp at hs
    · cases hs
      refine ⟨stays_setProc h ⟨this.value, .inr ⟨_, rfl, ?_⟩⟩, rfl, by simp, by simp, by simp⟩
      rw [h.file]; exact prefix_read hb
  | eof p g hp hlen hdec =>
    have := h.procs p
    rw [hp] at this
    obtain hs | ⟨buf, hs, hb⟩ := this.stage
    · simp at hs
    · cases hs
      rw [h.file] at hlen
      rw [hb.eq_of_length_le hlen] at hdec
      refine ⟨stays_setProc h ⟨by rintro _ ⟨⟩; exact .inl hdec, .inl rfl⟩, rfl, by simp, ?_, by simp⟩
      rintro _ _ ⟨⟩; exact .inl hdec
  | eofBad p g hp hlen hdec =>
    have := h.procs p
    rw [hp] at this
    obtain hs | ⟨buf, hs, hb⟩ := this.stage
    · simp at hs
    · cases hs
      rw [h.file] at hlen
      rw [hb.eq_of_length_le hlen] at hdec
      refine ⟨stays_setProc h ⟨this.value, .inl rfl⟩, rfl, by simp, by simp, ?_⟩
      rintro _ _ ⟨⟩; exact ⟨rfl, hdec⟩
  | refetch p hk hp => have := (h.procs p).stage; rw [hp] at this; simp at this
  | fetch p hp hk hsv => have := (h.procs p).stage; rw [hp] at this; simp at this
  | fetchFail p hp hk => have := (h.procs p).stage; rw [hp] at this; simp at this
  | openWrite p hp hc => have := (h.procs p).stage; rw [hp] at this; simp at this
  | dumpFail p hp hc => have := (h.procs p).stage; rw [hp] at this; simp at this
  | openFail p hp => have := (h.procs p).stage; rw [hp] at this; simp at this
  | write p g pos n hp hn => have := (h.procs p).stage; rw [hp] at this; simp at this
  | writeFail p g pos hp => have := (h.procs p).stage; rw [hp] at this; simp at this
  | close p g pos hp => have := (h.procs p).stage; rw [hp] at this; simp at this
  | crash p => exact ⟨stays_setProc h ⟨by simp [Proc.fresh], .inl rfl⟩, rfl, by simp, by simp, by simp⟩
  | delete => exact absurd rfl hd

theorem stays_exec {cfg : Cfg} {served : Val → Prop} {f : Nat} {b : Bytes} {old : Nat → Option Val} {s s' : Sys} {tr : List Event}
    (h : Stays cfg f b old s) (hex : Exec cfg served s tr s') (hd : .delete ∉ tr) :
    Stays cfg f b old s' ∧ s'.files = s.files ∧ (∀ p v, .fetch p v ∉ tr) ∧ (∀ p v, .ret p v ∈ tr → decode cfg b = some v ∨ old p = some v) ∧
      (∀ p x, .raise p x ∈ tr → x = .decode ∧ decode cfg b = none) := by
  induction hex with
  | nil => exact ⟨h, rfl, by simp, by simp, by simp⟩
  | snoc _ hst ih =>
    simp only [List.mem_append, List.mem_singleton, not_or] at hd
    obtain ⟨i1, i2, i3, i4, i5⟩ := ih hd.1
    obtain ⟨j1, j2, j3, j4, j5⟩ := stays_step i1 hst (Ne.symm hd.2)
    simp only [List.mem_append, List.mem_singleton, not_or]
    refine ⟨j1, j2.trans i2, fun p v => ⟨i3 p v, fun he => j3 p v he.symm⟩, ?_, ?_⟩
    · rintro p v (hx | hx)
      · exact i4 p v hx
      · exact j4 p v hx.symm
    · rintro p v (hx | hx)
      · exact i5 p v hx
      · exact j5 p v hx.symm

theorem stays_idle {cfg : Cfg} {s : Sys} {f : Nat} (hq : Idle s) (hp : s.path = some f) :
    Stays cfg f (s.files f) (fun p => (s.procs p).value) s :=
  ⟨hp, rfl, fun p => ⟨fun x hx => .inr hx, .inl (hq p)⟩⟩

/-! ## One process at a time -/

/-- `v` came from the server in the history `tr`, or from the file that was there at the beginning. -/
def Seen (start : Option Val) (tr : List Event) (v : Val) : Prop := start = some v ∨ ∃ q, .fetch q v ∈ tr

theorem Seen.mono {start : Option Val} {tr : List Event} {v : Val} (e : Event) (h : Seen start tr v) :
    Seen start (tr ++ [e]) v := by
  rcases h with h | ⟨q, h⟩
  · exact .inl h
  · exact .inr ⟨q, by simp [h]⟩

structure SeqProc (cfg : Cfg) (seen : Val → Prop) (files : Nat → Bytes) (q : Proc) : Prop where
  value : ∀ x, q.value = some x → seen x
  kept : ∀ x, q.kept = some x → seen x
  reading : ∀ f buf, q.stage = .reading f buf → buf <+: files f
  fetched : ∀ x, q.stage = .fetched x → seen x
  writing : ∀ f pos rest x, q.stage = .writing f pos rest x → seen x ∧
    ∃ b, content cfg x = some b ∧ files f = b.take pos ∧ rest = b.drop pos ∧ pos ≤ b.length

structure SeqInv (cfg : Cfg) (seen : Val → Prop) (s : Sys) : Prop where
  objs : ∀ v, seen v → ∃ d, v = .dict d ∧ Data cfg.readFloat (.dict d)
  files : ∀ f, ∃ v b, (s.files f = [] ∨ seen v ∧ content cfg v = some b ∧ s.files f <+: b)
  procs : ∀ p, SeqProc cfg seen s.files (s.procs p)

theorem SeqProc.mono {cfg : Cfg} {seen seen' : Val → Prop} {files : Nat → Bytes} {q : Proc} (h : SeqProc cfg seen files q)
    (hm : ∀ v, seen v → seen' v) : SeqProc cfg seen' files q :=
  ⟨fun x hx => hm x (h.value x hx), fun x hx => hm x (h.kept x hx), h.reading, fun x hx => hm x (h.fetched x hx),
    fun f pos rest x hx => ⟨hm x (h.writing f pos rest x hx).1, (h.writing f pos rest x hx).2⟩⟩

theorem SeqProc.idle {cfg : Cfg} {seen : Val → Prop} {files files' : Nat → Bytes} {q : Proc} (h : SeqProc cfg seen files q)
    (hi : q.stage = .idle) : SeqProc cfg seen files' q :=
  ⟨h.value, h.kept, by simp [hi], by simp [hi], by simp [hi]⟩

theorem SeqInv.mono {cfg : Cfg} {seen seen' : Val → Prop} {s : Sys} (h : SeqInv cfg seen s)
    (hm : ∀ v, seen v → seen' v) (hs : ∀ v, seen' v → ∃ d, v = .dict d ∧ Data cfg.readFloat (.dict d)) : SeqInv cfg seen' s :=
  ⟨hs, fun f => by
    obtain ⟨v, b, h⟩ := h.files f
    exact ⟨v, b, h.imp id fun h => ⟨hm v h.1, h.2⟩⟩, fun p => (h.procs p).mono hm⟩

theorem seq_setProc {cfg : Cfg} {seen : Val → Prop} {s : Sys} {p : Nat} {q : Proc} (h : SeqInv cfg seen s)
    (hq : SeqProc cfg seen s.files q) : SeqInv cfg seen (s.setProc p q) := by
  refine ⟨h.objs, h.files, fun i => ?_⟩
  by_cases hi : i = p
  · subst hi; rw [setProc_self]; exact hq
  · rw [setProc_other s q hi]; exact h.procs i

/-- What can be read is what was seen. -/
theorem seq_decode {cfg : Cfg} {seen : Val → Prop} {s : Sys} (h : SeqInv cfg seen s) {f : Nat} {x : Val}
    (hx : decode cfg (s.files f) = some x) : seen x := by
  obtain ⟨v, b, h0 | ⟨h1, h2, h3⟩⟩ := h.files f
  · rw [h0] at hx
    have : decode cfg [] = none := by
      have e : ofUtf8 [] = some [] := ofUtf8_utf8 []
      simp [decode, e, universal, loads, skipWs, parse]
    rw [this] at hx; simp at hx
  · obtain ⟨d, rfl, hd⟩ := h.objs v h1
    rw [(decode_prefix hd h2 h3 hx).2]; exact h1

theorem seq_step {cfg : Cfg} {served : Val → Prop} {seen : Val → Prop} {s s' : Sys} {e : Event}
    (h : SeqInv cfg seen s) (hst : Step cfg served s e s') (hf : ∀ p v, e = .fetch p v → seen v)
    (hal : ∀ p, eventProc e = some p → ∀ q, q ≠ p → (s.procs q).stage = .idle) :
    SeqInv cfg seen s' ∧ ∀ p x, e = .ret p x → seen x := by
  cases hst with
  | hit p hp =>
    refine ⟨h, ?_⟩
    rintro _ _ ⟨⟩
    exact (h.procs p).value _ (by rw [hp])
  | openRead p f hp hf' =>
    refine ⟨seq_setProc h ?_, by rintro _ _ ⟨⟩⟩
    have := h.procs p
    rw [hp] at this
    exact ⟨this.value, this.kept, by rintro _ _ ⟨⟩; exact List.nil_prefix, by rintro _ ⟨⟩, by rintro _ _ _ _ ⟨⟩⟩
  | openMissing p hp hf' =>
    refine ⟨seq_setProc h ?_, by rintro _ _ ⟨⟩⟩
    have := h.procs p
    rw [hp] at this
    exact ⟨this.value, this.kept, by rintro _ _ ⟨⟩, by rintro _ ⟨⟩, by rintro _ _ _ _ ⟨⟩⟩
  | read p f n hp =>
    refine ⟨seq_setProc h ?_, by rintro _ _ ⟨⟩⟩
    have := h.procs p
    rw [hp] at this
    exact ⟨this.value, this.kept, by rintro _ _ ⟨⟩; exact prefix_read (this.reading _ _ rfl), by rintro _ ⟨⟩, by rintro _ _ _ _ ⟨⟩⟩
  | eof p f hp hlen hdecode =>
    have := h.procs p
    rw [hp] at this
    rw [(this.reading _ _ rfl).eq_of_length_le hlen] at hdecode
    have e := seq_decode h hdecode
    refine ⟨seq_setProc h ?_, by rintro _ _ ⟨⟩; exact e⟩
    exact ⟨by rintro _ ⟨⟩; exact e, this.kept, by rintro _ _ ⟨⟩, by rintro _ ⟨⟩, by rintro _ _ _ _ ⟨⟩⟩
  | eofBad p f hp hlen hdecode =>
    have := h.procs p
    rw [hp] at this
    refine ⟨seq_setProc h ?_, by rintro _ _ ⟨⟩⟩
    exact ⟨this.value, this.kept, by rintro _ _ ⟨⟩, by rintro _ ⟨⟩, by rintro _ _ _ _ ⟨⟩⟩
  | refetch p hk hp =>
    have := h.procs p
    rw [hp] at this
    refine ⟨seq_setProc h ?_, by rintro _ _ ⟨⟩⟩
    exact ⟨this.value, this.kept, by rintro _ _ ⟨⟩, by rintro _ ⟨⟩; exact this.kept _ rfl, by rintro _ _ _ _ ⟨⟩⟩
  | fetch p hp hk hsv =>
    have := h.procs p
    rw [hp] at this
    have hs := hf _ _ rfl
    refine ⟨seq_setProc h ?_, by rintro _ _ ⟨⟩⟩
    refine ⟨this.value, ?_, by rintro _ _ ⟨⟩, by rintro _ ⟨⟩; exact hs, by rintro _ _ _ _ ⟨⟩⟩
    intro x hx
    simp only at hx
    split at hx
    · cases hx; exact hs
    · simp at hx
  | fetchFail p hp hk =>
    have := h.procs p
    rw [hp] at this
    refine ⟨seq_setProc h ?_, by rintro _ _ ⟨⟩⟩
    exact ⟨this.value, this.kept, by rintro _ _ ⟨⟩, by rintro _ ⟨⟩, by rintro _ _ _ _ ⟨⟩⟩
  | openWrite p hp hc =>
    have := h.procs p
    rw [hp] at this
    have e := this.fetched _ rfl
    refine ⟨⟨h.objs, ?_, ?_⟩, by rintro _ _ ⟨⟩⟩
    · intro f
      unfold Sys.openWrite
      simp only [Sys.setProc]
      split
      · simp only [Sys.setFile]; split
        · exact ⟨.none, [], .inl rfl⟩
        · exact h.files f
      · simp only [Sys.create]; split
        · exact ⟨.none, [], .inl rfl⟩
        · exact h.files f
    · intro i
      by_cases hi : i = p
      · subst hi
        rw [setProc_self]
        refine ⟨this.value, this.kept, by rintro _ _ ⟨⟩, by rintro _ ⟨⟩, ?_⟩
        rintro _ _ _ _ ⟨⟩
        refine ⟨e, _, hc, ?_, by simp, by simp⟩
        unfold Sys.openWrite
        simp only [Sys.setProc]
        split <;> simp [Sys.setFile, Sys.create]
      · rw [setProc_other _ _ hi]
        have hid := hal p rfl i hi
        have hpr : (s.openWrite.2).procs i = s.procs i := by unfold Sys.openWrite; split <;> rfl
        rw [hpr]
        exact (h.procs i).idle hid
  | dumpFail p hp hc =>
    have := h.procs p
    rw [hp] at this
    refine ⟨seq_setProc h ?_, by rintro _ _ ⟨⟩⟩
    exact ⟨this.value, this.kept, by rintro _ _ ⟨⟩, by rintro _ ⟨⟩, by rintro _ _ _ _ ⟨⟩⟩
  | openFail p hp =>
    have := h.procs p
    rw [hp] at this
    refine ⟨seq_setProc h ?_, by rintro _ _ ⟨⟩⟩
    exact ⟨this.value, this.kept, by rintro _ _ ⟨⟩, by rintro _ ⟨⟩, by rintro _ _ _ _ ⟨⟩⟩
  | write p f pos n hp hn =>
    have := h.procs p
    rw [hp] at this
    obtain ⟨e, b, hb, hfl, rfl, hpos⟩ := this.writing _ _ _ _ rfl
    simp only [List.length_drop] at hn
    have hw : writeAt (s.files f) pos (List.take n (List.drop pos b)) = b.take (pos + n) := by
      rw [hfl]
      unfold writeAt
      simp only [List.length_take, List.take_take, Nat.min_self, Nat.min_eq_left hpos, Nat.sub_self, List.replicate_zero, List.append_nil]
      rw [List.drop_eq_nil_of_le (as := List.take pos b) (by simp only [List.length_take]; omega), List.append_nil, ← List.take_add]
    refine ⟨⟨h.objs, ?_, ?_⟩, by rintro _ _ ⟨⟩⟩
    · intro g
      simp only [Sys.setFile, Sys.setProc]; split
      · rw [hw]; exact ⟨_, b, .inr ⟨e, hb, List.take_prefix _ _⟩⟩
      · exact h.files g
    · intro i
      by_cases hi : i = p
      · subst hi
        rw [setProc_self]
        refine ⟨this.value, this.kept, by rintro _ _ ⟨⟩, by rintro _ ⟨⟩, ?_⟩
        rintro _ _ _ _ ⟨⟩
        refine ⟨e, b, hb, ?_, by rw [List.drop_drop], by omega⟩
        simp only [Sys.setProc, Sys.setFile, if_true]; exact hw
      · rw [setProc_other _ _ hi]
        exact (h.procs i).idle (hal p rfl i hi)
  | writeFail p f pos hp =>
    have := h.procs p
    rw [hp] at this
    refine ⟨seq_setProc h ?_, by rintro _ _ ⟨⟩⟩
    exact ⟨this.value, this.kept, by rintro _ _ ⟨⟩, by rintro _ ⟨⟩, by rintro _ _ _ _ ⟨⟩⟩
  | close p f pos hp =>
    have := h.procs p
    rw [hp] at this
    have e := (this.writing _ _ _ _ rfl).1
    refine ⟨seq_setProc h ?_, by rintro _ _ ⟨⟩; exact e⟩
    exact ⟨by rintro _ ⟨⟩; exact e, this.kept, by rintro _ _ ⟨⟩, by rintro _ ⟨⟩, by rintro _ _ _ _ ⟨⟩⟩
  | crash p =>
    refine ⟨seq_setProc h ⟨?_, ?_, ?_, ?_, ?_⟩, by rintro _ _ ⟨⟩⟩ <;> simp [Proc.fresh]
  | delete => exact ⟨⟨h.objs, h.files, h.procs⟩, by rintro _ _ ⟨⟩⟩

theorem seq_exec {cfg : Cfg} {served : Val → Prop} {start : Option Val} {s s' : Sys} {tr : List Event}
    (hsv : ∀ v, served v → ∃ d, v = .dict d ∧ Data cfg.readFloat (.dict d))
    (h : SeqInv cfg (Seen start []) s) (hex : OneAtATime cfg served s tr s') :
    SeqInv cfg (Seen start tr) s' ∧ ∀ p x, .ret p x ∈ tr → Seen start tr x := by
  induction hex with
  | nil => exact ⟨h, by simp⟩
  | @snoc tr s s' e _ hst hal ih =>
    obtain ⟨i1, i2⟩ := ih
    have hm : ∀ v, Seen start tr v → Seen start (tr ++ [e]) v := fun v => Seen.mono e
    have hs : ∀ v, Seen start (tr ++ [e]) v → ∃ d, v = .dict d ∧ Data cfg.readFloat (.dict d) := by
      rintro v (hv | ⟨q, hv⟩)
      · exact i1.objs v (.inl hv)
      · rw [List.mem_append, List.mem_singleton] at hv
        rcases hv with hv | hv
        · exact i1.objs v (.inr ⟨q, hv⟩)
        · subst hv
          cases hst with
          | fetch _ _ _ hv => exact hsv v hv
    obtain ⟨j1, j2⟩ := seq_step (i1.mono hm hs) hst (fun p v hv => .inr ⟨p, by simp [hv]⟩) hal
    refine ⟨j1, fun p x hx => ?_⟩
    rw [List.mem_append, List.mem_singleton] at hx
    rcases hx with hx | hx
    · exact hm x (i2 p x hx)
    · exact j2 p x hx.symm

/-! ## How often the server is asked -/

theorem asked_snoc (p : Nat) (tr : List Event) (e : Event) : asked p (tr ++ [e]) =
    match e with
    | .fetch q _ => if q = p then asked p tr + 1 else asked p tr
    | .crash q => if q = p then 0 else asked p tr
    | _ => asked p tr := by
  simp only [asked, List.foldl_append, List.foldl_cons, List.foldl_nil]
  cases e <;> rfl

theorem asked_exec {cfg : Cfg} {served : Val → Prop} {s s' : Sys} {tr : List Event} {p : Nat} (hk : cfg.keep = true)
    (hex : Exec cfg served s tr s') : asked p tr ≤ 1 ∧ (asked p tr = 1 → (s'.procs p).kept ≠ none) := by
  induction hex with
  | nil => simp [asked]
  | @snoc tr s1 s2 e _ hst ih =>
    obtain ⟨i1, i2⟩ := ih
    have keep : ∀ (s0 : Sys) (p' : Nat) (q : Proc), s0.procs p = s1.procs p → (p' = p → q.kept = (s1.procs p).kept) →
        asked p tr ≤ 1 ∧ (asked p tr = 1 → ((s0.setProc p' q).procs p).kept ≠ none) := by
      intro s0 p' q h0 hq
      refine ⟨i1, fun h1 => ?_⟩
      by_cases hi : p = p'
      · subst hi; rw [setProc_self, hq rfl]; exact i2 h1
      · rw [setProc_other _ _ hi, h0]; exact i2 h1
    rw [asked_snoc]
    cases hst with
    | hit q hq => exact ⟨i1, i2⟩
    | openRead q f hq hf => exact keep _ _ _ rfl (by rintro rfl; rw [hq])
    | openMissing q hq hf => exact keep _ _ _ rfl (by rintro rfl; rw [hq])
    | read q f n hq => exact keep _ _ _ rfl (by rintro rfl; rw [hq])
    | eof q f hq hlen hdec => exact keep _ _ _ rfl (by rintro rfl; rw [hq])
    | eofBad q f hq hlen hdec => exact keep _ _ _ rfl (by rintro rfl; rw [hq])
    | refetch q hk hq => exact keep _ _ _ rfl (by rintro rfl; rw [hq])
    | fetch q hq hk' hsv =>
      simp only
      split
      · rename_i e
        subst e
        have h0 : (s1.procs q).kept = none := by rw [hq]; exact hk' hk
        have : asked q tr = 0 := by
          by_contra hne
          exact i2 (by omega) h0
        rw [this, setProc_self]
        simp [hk]
      · rename_i hne
        rw [setProc_other _ _ (Ne.symm hne)]
        exact ⟨i1, i2⟩
    | fetchFail q hq hk => exact keep _ _ _ rfl (by rintro rfl; rw [hq])
    | openWrite q hq hc =>
      refine keep _ _ _ ?_ (by rintro rfl; rw [hq])
      unfold Sys.openWrite; split <;> rfl
    | dumpFail q hq hc => exact keep _ _ _ rfl (by rintro rfl; rw [hq])
    | openFail q hq => exact keep _ _ _ rfl (by rintro rfl; rw [hq])
    | write q f pos n hq hn => exact keep _ _ _ rfl (by rintro rfl; rw [hq])
    | writeFail q f pos hq => exact keep _ _ _ rfl (by rintro rfl; rw [hq])
    | close q f pos hq => exact keep _ _ _ rfl (by rintro rfl; rw [hq])
    | crash q =>
      simp only
      split
      · simp
      · rename_i hne
        rw [setProc_other _ _ (Ne.symm hne)]
        exact ⟨i1, i2⟩
    | delete => exact ⟨i1, i2⟩

end Verif
