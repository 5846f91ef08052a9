import Verif.Lemmas.FileCache
import Verif.Props.Json
/-!
# C69 – C71: the data cached in files (`PageSample.adf`, `AdfJsonSchema.data`)

Histories are arbitrary interleavings of any number of processes, any of which can be killed at any moment, while the
file can be deleted at any moment and requests and writes can fail at any moment.  `cfg` covers both programs and both
conventions for newlines.
-/

namespace Verif.Props
open Verif Verif.Json Verif.FileCache

/-- The page samples on Linux. -/
def pageCfg : Cfg := ⟨4, true, false, sampleFloat⟩
/-- The schema on Windows. -/
def schemaCfg : Cfg := ⟨2, false, true, sampleFloat⟩

/-! ## C69: only data of the server is returned -/

/-- C69 in full: in every history that starts without a file, what the property returns was answered by the server
before. -/
def OnlyServed (cfg : Cfg) (served : Val → Prop) : Prop :=
  ∀ tr p v s, Exec cfg served Sys.empty (tr ++ [.ret p v]) s → ∃ q, .fetch q v ∈ tr

def pageA : Val := .dict [("a", .int 1), ("b", .int 1)]
def pageB : Val := .dict [("a", .int 2), ("b", .int 2)]
def pageMix : Val := .dict [("a", .int 2), ("b", .int 1)]

def pageText (x y : String) : Bytes := utf8 ("{\n    \"a\": " ++ x ++ ",\n    \"b\": " ++ y ++ "\n}").toList

theorem content_pageA : content pageCfg pageA = some (pageText "1" "1") := by decide +kernel
theorem content_pageB : content pageCfg pageB = some (pageText "2" "2") := by decide +kernel
theorem content_pageMix : content pageCfg pageMix = some (pageText "2" "1") := by decide +kernel

theorem page_mix : writeAt (writeAt [] 0 ((pageText "1" "1").take 26)) 0 ((pageText "2" "2").take 12) = pageText "2" "1" := by
  decide +kernel

theorem page_length : (pageText "1" "1").length = 26 ∧ (pageText "2" "2").length = 26 ∧ (pageText "2" "1").length = 26 := by
  decide +kernel

theorem decode_pageMix : decode pageCfg (pageText "2" "1") = some pageMix :=
  decode_content (by simp [Spec.Data, Spec.DataDict, pageMix]) content_pageMix

/-- C69 is false if the page is edited while two processes fill the cache: the one that was killed has overwritten the
beginning of what the other wrote, and a third one is given a document that never existed. -/
theorem C69_false : ¬ OnlyServed pageCfg (fun v => v = pageA ∨ v = pageB) := by
  intro h
  have e0 : Exec pageCfg (fun v => v = pageA ∨ v = pageB) Sys.empty [] Sys.empty := .nil
  have e1 := e0.snoc (.openMissing 0 rfl rfl)
  have e2 := e1.snoc (.openMissing 1 rfl rfl)
  have e3 := e2.snoc (.fetch 0 rfl (fun _ => rfl) (.inl rfl))
  have e4 := e3.snoc (.fetch 1 rfl (fun _ => rfl) (.inr rfl))
  have e5 := e4.snoc (.openWrite 0 rfl content_pageA)
  have e6 := e5.snoc (.openWrite 1 rfl content_pageB)
  have e7 := e6.snoc (.write 0 0 0 26 rfl (by rw [page_length.1]; decide))
  have e8 := e7.snoc (.write 1 0 0 12 rfl (by rw [page_length.2.1]; decide))
  have e9 := e8.snoc (.crash 1)
  have e10 := e9.snoc (.openRead 2 0 rfl rfl)
  have e11 := e10.snoc (.read 2 0 26 rfl)
  have hfile : ∀ s : Sys, s.files 0 = writeAt (writeAt [] 0 ((pageText "1" "1").take 26)) 0 ((pageText "2" "2").take 12) →
      List.take 26 (List.drop 0 (s.files 0)) = pageText "2" "1" ∧ (s.files 0).length = 26 := by
    intro s hs
    rw [hs, page_mix]
    exact ⟨by rw [List.drop_zero, List.take_of_length_le (by rw [page_length.2.2]; decide)], page_length.2.2⟩
  generalize hs : (Sys.setProc _ 2 ⟨.reading 0 ([] ++ _), _, _⟩) = s11 at e11
  have hf := hfile s11 (by rw [← hs]; rfl)
  have hp : s11.procs 2 = ⟨.reading 0 (pageText "2" "1"), Option.none, Option.none⟩ := by
    rw [← hs, setProc_self]
    congr 2
  have e12 := e11.snoc (.eof 2 0 hp (by rw [hf.2, page_length.2.2]; decide) decode_pageMix)
  obtain ⟨q, hq⟩ := h _ _ _ _ e12
  simp only [List.nil_append, List.cons_append, List.mem_cons, reduceCtorEq, Event.fetch.injEq, false_or, or_false,
    List.not_mem_nil] at hq
  rcases hq with ⟨-, h⟩ | ⟨-, h⟩ <;> exact absurd h (by simp [pageMix, pageA, pageB])

/-- C69 as long as the server always gives the same answer: whatever the processes do, whatever fails, every value
returned, by whichever process, is the server's.  The file may be absent or complete at the
beginning, or left behind by an earlier crash. -/
theorem C69_partial (cfg : Cfg) (hrf : ∀ t, Spec.FloatRepr cfg.readFloat (cfg.readFloat t)) (v : Val)
    (hv : Spec.ServesObjects cfg.readFloat (· = v)) (b : Bytes) (hb : content cfg v = some b) (s₀ : Sys)
    (hs : s₀ = Sys.empty ∨ ∃ n, s₀ = Sys.withFile (b.take n)) (tr : List Event) (s : Sys)
    (hex : Exec cfg (· = v) s₀ tr s) (p : Nat) (x : Val) (hx : .ret p x ∈ tr) : x = v := by
  obtain ⟨d, rfl, hd⟩ := served_data hrf hv rfl
  have hdec : ∀ q x, Mix q b → decode cfg q = some x → x = .dict d := fun q x hq hx => (decode_mix hd hb hq hx).2
  have hinv : Inv (.dict d) b s₀ := by
    rcases hs with rfl | ⟨n, rfl⟩
    · exact inv_empty _ _
    · refine inv_withFile _ (mix_iff.2 ⟨by simp; omega, fun i hi => .inl ?_⟩)
      simp only [List.length_take] at hi
      rw [List.getElem?_take, if_pos (by omega)]
  exact (inv_exec hdec (fun _ h => h) hb hinv hex).2 p x hx

/-- C69 as long as the processes do not overlap: whatever the server answers over time, whoever is killed wherever,
every value returned was answered by the server before. -/
theorem C69_partial_sequential (cfg : Cfg) (hrf : ∀ t, Spec.FloatRepr cfg.readFloat (cfg.readFloat t)) (served : Val → Prop)
    (hv : Spec.ServesObjects cfg.readFloat served) (tr : List Event) (s : Sys) (p : Nat) (x : Val)
    (hex : Spec.OneAtATime cfg served Sys.empty (tr ++ [.ret p x]) s) : ∃ q, .fetch q x ∈ tr := by
  have hinv : SeqInv cfg (Seen Option.none []) Sys.empty := by
    refine ⟨?_, fun f => ⟨.none, [], .inl rfl⟩, fun p => ?_⟩
    · rintro v (h | ⟨q, h⟩) <;> simp at h
    · constructor <;> simp [Sys.empty, Proc.fresh]
  obtain h | ⟨q, h⟩ := (seq_exec (fun v h => served_data hrf hv h) hinv hex).2 p x (by simp)
  · simp at h
  · exact ⟨q, by simpa using h⟩

/-! ## C70: an interrupted download -/

/-- C70 in full: whatever happened before, as soon as nobody is in the middle of the property, somebody can obtain the
data (without the file being deleted by hand). -/
def Recovers (cfg : Cfg) (v : Val) : Prop :=
  ∀ tr s, Exec cfg (· = v) Sys.empty tr s → Spec.Quiet s →
    ∃ tr' s' p, Exec cfg (· = v) s tr' s' ∧ .delete ∉ tr' ∧ .ret p v ∈ tr'

/-- C70 is false, of both programs and for every document: a process killed right after opening the file for writing
leaves an empty file, and nobody ever gets the data again. -/
theorem C70_false (cfg : Cfg) (d : List (String × Val)) (hd : Spec.Data cfg.readFloat (.dict d)) :
    ¬ Recovers cfg (.dict d) := by
  intro h
  obtain ⟨b, hb⟩ := content_some hd
  have e0 : Exec cfg (· = .dict d) Sys.empty [] Sys.empty := .nil
  have e1 := e0.snoc (.openMissing 0 rfl rfl)
  have e2 := e1.snoc (.fetch 0 rfl (fun _ => rfl) rfl)
  have e3 := e2.snoc (.openWrite 0 rfl hb)
  have e4 := e3.snoc (.crash 0)
  obtain ⟨tr', s', p, hex, hdel, hret⟩ := h _ _ e4 (by
    intro q
    by_cases hq : q = 0
    · subst hq; rw [setProc_self]; simp [Proc.fresh]
    · rw [setProc_other _ _ hq, setProc_other _ _ hq]
      simp [Sys.openWrite, Sys.setProc, Sys.create, Sys.empty, Proc.fresh, hq])
  have hst := stays_exec (cfg := cfg) (f := 0) (b := []) (old := fun _ => Option.none) ⟨rfl, rfl, fun q => by
    by_cases hq : q = 0
    · subst hq; rw [setProc_self]; exact ⟨by simp [Proc.fresh], .inl rfl⟩
    · rw [setProc_other _ _ hq, setProc_other _ _ hq]
      simp only [Sys.openWrite, Sys.setProc, Sys.create, Sys.empty, hq, if_false]
      exact ⟨by simp [Proc.fresh], .inl rfl⟩⟩ hex hdel
  have := (hst.2.2.2.1 p _ hret).resolve_right (by simp)
  have e := (decode_prefix hd hb List.nil_prefix this).1
  have h0 := decode_content hd hb
  rw [← e] at h0
  have e' : ofUtf8 [] = some [] := ofUtf8_utf8 []
  simp [decode, e', universal, loads, skipWs, parse] at h0

/-- C70, what holds.  Whatever happened before (one answer of the server, no file at the beginning): once nobody is in the
middle of the property, if there is a file, then either it is complete and from now on (until somebody deletes it) every
access returns the data, or it is not and every access raises a decoding error, except in processes that have the data
already; in both cases nobody asks the server and the file does not change. -/
theorem C70_partial (cfg : Cfg) (hrf : ∀ t, Spec.FloatRepr cfg.readFloat (cfg.readFloat t)) (v : Val)
    (hv : Spec.ServesObjects cfg.readFloat (· = v)) (b : Bytes) (hb : content cfg v = some b) (tr : List Event) (s : Sys)
    (hex : Exec cfg (· = v) Sys.empty tr s) (hq : Spec.Idle s) (f : Nat) (hf : s.path = some f)
    (tr' : List Event) (s' : Sys) (hex' : Exec cfg (· = v) s tr' s') (hdel : .delete ∉ tr') :
    s'.path = some f ∧ s'.files f = s.files f ∧ (∀ p x, .fetch p x ∉ tr') ∧
    (∀ p x, .ret p x ∈ tr' → x = v ∧ (s.files f = b ∨ (s.procs p).value = some v)) ∧
    (∀ p e, .raise p e ∈ tr' → e = .decode ∧ s.files f ≠ b) := by
  obtain ⟨d, rfl, hd⟩ := served_data hrf hv rfl
  have hdec : ∀ q x, Mix q b → decode cfg q = some x → x = .dict d := fun q x hq hx => (decode_mix hd hb hq hx).2
  have hinv := (inv_exec hdec (fun _ h => h) hb (inv_empty _ _) hex).1
  obtain ⟨h1, h2, h3, h4, h5⟩ := stays_exec (stays_idle hq hf) hex' hdel
  refine ⟨h1.path, by rw [h2], h3, fun p x hx => ?_, fun p e he => ⟨(h5 p e he).1, fun heq => ?_⟩⟩
  · rcases h4 p x hx with h | h
    · have := decode_mix hd hb (hinv.files f) h
      exact ⟨this.2, .inl this.1⟩
    · have := (hinv.procs p).value x h
      exact ⟨this, .inr (by rw [h, this])⟩
  · have := (h5 p e he).2
    rw [heq, decode_content hd hb] at this
    simp at this

/-- C70: such an access always comes to an end: a process that runs undisturbed returns or raises after opening and reading
the file. -/
theorem C70_partial_ends (cfg : Cfg) (served : Val → Prop) (s : Sys) (p f : Nat)
    (hp : (s.procs p).stage = .idle ∧ (s.procs p).value = Option.none) (hf : s.path = some f) :
    ∃ e s', Exec cfg served s [.silent p, .silent p, e] s' ∧ (decode cfg (s.files f) = Option.none → e = .raise p .decode) ∧
      (∀ v, decode cfg (s.files f) = some v → e = .ret p v) := by
  have hp' : s.procs p = ⟨.idle, Option.none, (s.procs p).kept⟩ := by
    rw [← hp.1, ← hp.2]
  have e1 := (Exec.nil (cfg := cfg) (served := served) (s₀ := s)).snoc (.openRead p f hp' hf)
  have e2 := e1.snoc (.read p f (s.files f).length (setProc_self _ _ _))
  have hbuf : ([] ++ (((s.setProc p ⟨.reading f [], Option.none, (s.procs p).kept⟩).files f).drop ([] : Bytes).length).take
      (s.files f).length) = s.files f := by simp [Sys.setProc]
  rw [hbuf] at e2
  cases hd : decode cfg (s.files f) with
  | none =>
    exact ⟨_, _, e2.snoc (.eofBad p f (setProc_self _ _ _) (Nat.le_refl _) hd), fun _ => rfl, by simp⟩
  | some v =>
    refine ⟨_, _, e2.snoc (.eof p f (setProc_self _ _ _) (Nat.le_refl _) hd), by simp, ?_⟩
    intro v' hv'; cases hv'; rfl

/-- C70: without a file a process that runs undisturbed, with a server that answers, obtains the data and leaves a
complete file. -/
theorem C70_partial_downloads (cfg : Cfg) (served : Val → Prop) (v : Val) (hv : served v) (b : Bytes)
    (hb : content cfg v = some b) (s : Sys) (p : Nat) (hp : s.procs p = Proc.fresh) (hf : s.path = Option.none) :
    ∃ s' f, Exec cfg served s [.silent p, .fetch p v, .silent p, .silent p, .ret p v] s' ∧ s'.path = some f ∧ s'.files f = b := by
  have e1 := (Exec.nil (cfg := cfg) (served := served) (s₀ := s)).snoc (.openMissing p hp hf)
  have e2 := e1.snoc (.fetch p (setProc_self _ _ _) (fun _ => rfl) hv)
  have e3 := e2.snoc (.openWrite p (setProc_self _ _ _) hb)
  have e4 := e3.snoc (.write p _ 0 b.length (setProc_self _ _ _) (Nat.le_refl _))
  rw [List.drop_length, List.take_length] at e4
  have e5 := e4.snoc (.close p _ _ (setProc_self _ _ _))
  refine ⟨_, s.next, e5, ?_, ?_⟩
  · simp [Sys.setProc, Sys.setFile, Sys.openWrite, Sys.create, hf]
  · simp [Sys.setProc, Sys.setFile, Sys.openWrite, Sys.create, hf, writeAt]

/-! ## C71: the server is asked once -/

/-- C71: as soon as the data is in the file and nobody is in the middle of the property, every access by anybody
returns it (or the value the process has already), nothing is raised, the server is not asked and the file does not change (until
somebody deletes it). -/
theorem C71_cached (cfg : Cfg) (hrf : ∀ t, Spec.FloatRepr cfg.readFloat (cfg.readFloat t)) (served : Val → Prop) (v : Val)
    (hv : ∃ text, loads cfg.readFloat text = some v) (s : Sys) (hq : Spec.Idle s) (f : Nat) (hf : s.path = some f)
    (hb : content cfg v = some (s.files f)) (tr : List Event) (s' : Sys) (hex : Exec cfg served s tr s')
    (hdel : .delete ∉ tr) :
    s'.path = some f ∧ s'.files f = s.files f ∧ (∀ p x, .fetch p x ∉ tr) ∧
    (∀ p x, .ret p x ∈ tr → x = v ∨ (s.procs p).value = some x) ∧ (∀ p e, .raise p e ∉ tr) := by
  obtain ⟨t, ht⟩ := hv
  have hdec := decode_content (loads_data hrf ht) hb
  obtain ⟨h1, h2, h3, h4, h5⟩ := stays_exec (stays_idle hq hf) hex hdel
  refine ⟨h1.path, by rw [h2], h3, fun p x hx => ?_, fun p e he => ?_⟩
  · refine (h4 p x hx).imp (fun h => ?_) id
    rw [hdec] at h
    exact (Option.some.inj h).symm
  · have := (h5 p e he).2
    rw [hdec] at this
    simp at this

/-- A process that has the file open for writing, undisturbed: what it has written is there, what is missing it still holds. -/
theorem alone_writes {cfg : Cfg} {served : Val → Prop} {s s' : Sys} {p : Nat} {mid : List Event} (hex : Exec cfg served s mid s')
    (hs : (s.procs p).stage = .idle ∧ (s.procs p).value = Option.none) (hf : s.path = Option.none)
    (hm : ∀ e ∈ mid, e = .silent p ∨ ∃ x, e = .fetch p x) :
    (s'.procs p).value = Option.none ∧
    ((s'.path = Option.none ∧ (s'.procs p).stage ≠ .idle ∧ (∀ f q, (s'.procs p).stage ≠ .reading f q) ∧
        ∀ f pos rest v, (s'.procs p).stage ≠ .writing f pos rest v) ∨
      (s'.path = Option.none ∧ (s'.procs p).stage = .idle) ∨
      ∃ f pos rest v b, s'.path = some f ∧ (s'.procs p).stage = .writing f pos rest v ∧ content cfg v = some b ∧
        s'.files f ++ rest = b ∧ (s'.files f).length = pos) := by
  induction hex with
  | nil => exact ⟨hs.2, .inr (.inl ⟨hf, hs.1⟩)⟩
  | @snoc tr s1 s2 e _ hst ih =>
    obtain ⟨i0, i1⟩ := ih fun e he => hm e (by simp [he])
    have he := hm e (by simp)
    have key : ∀ q, (e = .silent q ∨ ∃ x, e = .fetch q x) → q = p := by
      rintro q (rfl | ⟨x, rfl⟩)
      · rcases he with h | ⟨y, h⟩
        · cases h; rfl
        · cases h
      · rcases he with h | ⟨y, h⟩
        · cases h
        · cases h; rfl
    cases hst with
    | openRead q f hq hx =>
      obtain rfl := key q (.inl rfl)
      rcases i1 with ⟨-, h, -⟩ | ⟨h, -⟩ | ⟨_, _, _, _, _, _, h, -⟩
      · rw [hq] at h; exact absurd rfl h
      · rw [h] at hx; cases hx
      · rw [hq] at h; cases h
    | openMissing q hq hx =>
      obtain rfl := key q (.inl rfl)
      rw [setProc_self]
      exact ⟨rfl, .inl ⟨hx, by simp, by simp, by simp⟩⟩
    | read q f n hq =>
      obtain rfl := key q (.inl rfl)
      rcases i1 with ⟨-, -, h, -⟩ | ⟨-, h⟩ | ⟨_, _, _, _, _, _, h, -⟩
      · rw [hq] at h; exact absurd rfl (h _ _)
      · rw [hq] at h; cases h
      · rw [hq] at h; cases h
    | refetch q hk hq =>
      obtain rfl := key q (.inl rfl)
      rcases i1 with ⟨h0, -⟩ | ⟨-, h⟩ | ⟨_, _, _, _, _, _, h, -⟩
      · rw [setProc_self]; exact ⟨rfl, .inl ⟨h0, by simp, by simp, by simp⟩⟩
      · rw [hq] at h; cases h
      · rw [hq] at h; cases h
    | fetch q hq hk hsv =>
      obtain rfl := key q (.inr ⟨_, rfl⟩)
      rcases i1 with ⟨h0, -⟩ | ⟨-, h⟩ | ⟨_, _, _, _, _, _, h, -⟩
      · rw [setProc_self]; exact ⟨rfl, .inl ⟨h0, by simp, by simp, by simp⟩⟩
      · rw [hq] at h; cases h
      · rw [hq] at h; cases h
    | @openWrite q v b k hq hc =>
      obtain rfl := key q (.inl rfl)
      rcases i1 with ⟨h0, -⟩ | ⟨-, h⟩ | ⟨_, _, _, _, _, _, h, -⟩
      · rw [setProc_self]
        refine ⟨rfl, .inr (.inr ⟨s1.next, 0, b, v, b, ?_, ?_, hc, ?_, ?_⟩)⟩ <;>
          simp [Sys.openWrite, h0, Sys.create, Sys.setProc]
      · rw [hq] at h; cases h
      · rw [hq] at h; cases h
    | @write q g pos n rest v k hq hn =>
      obtain rfl := key q (.inl rfl)
      rcases i1 with ⟨-, -, -, h⟩ | ⟨-, h⟩ | ⟨f, pos', rest', v', b, h1, h2, h3, h4, h5⟩
      · rw [hq] at h; exact absurd rfl (h _ _ _ _)
      · rw [hq] at h; cases h
      · rw [hq] at h2
        cases h2
        rw [setProc_self]
        refine ⟨rfl, .inr (.inr ⟨g, pos + n, rest.drop n, v, b, h1, rfl, h3, ?_, ?_⟩)⟩
        · subst h5
          simp only [Sys.setProc, Sys.setFile, if_true, writeAt, List.take_length, Nat.sub_self, List.replicate_zero, List.append_nil]
          rw [List.drop_eq_nil_of_le (by omega), List.append_nil, List.append_assoc, List.take_append_drop, h4]
        · subst h5
          simp only [Sys.setProc, Sys.setFile, if_true, writeAt, List.take_length, Nat.sub_self, List.replicate_zero, List.append_nil]
          rw [List.drop_eq_nil_of_le (by omega)]
          simp [Nat.min_eq_left hn]
    | _ => simp at he

/-- C71: a process that finds no file, is not disturbed and returns has left the complete data in the file: from then on
`C71_cached` applies. -/
theorem C71_downloaded (cfg : Cfg) (served : Val → Prop) (s s' : Sys) (p : Nat) (v : Val) (mid : List Event)
    (hs : (s.procs p).stage = .idle ∧ (s.procs p).value = Option.none) (hf : s.path = Option.none)
    (hex : Exec cfg served s (mid ++ [.ret p v]) s') (hm : ∀ e ∈ mid, e = .silent p ∨ ∃ x, e = .fetch p x) :
    ∃ f, s'.path = some f ∧ content cfg v = some (s'.files f) := by
  generalize htr : mid ++ [Event.ret p v] = tr at hex
  cases hex with
  | nil => simp at htr
  | @snoc tr s1 _ e hex hst =>
    have e1 := List.append_inj_left' htr rfl
    have e2 := (List.cons.inj (List.append_inj_right' htr rfl)).1
    subst e1
    subst e2
    obtain ⟨i0, i1⟩ := alone_writes hex hs hf hm
    generalize he : Event.ret p v = e at hst
    cases hst with
    | hit q hq => cases he; rw [hq] at i0; cases i0
    | eof q f hq hlen hdec =>
      cases he
      rcases i1 with ⟨-, -, h, -⟩ | ⟨-, h⟩ | ⟨_, _, _, _, _, _, h, -⟩
      · rw [hq] at h; exact absurd rfl (h _ _)
      · rw [hq] at h; cases h
      · rw [hq] at h; cases h
    | close q f pos hq =>
      cases he
      rcases i1 with ⟨-, -, -, h⟩ | ⟨-, h⟩ | ⟨f', pos', rest', v', b, h1, h2, h3, h4, h5⟩
      · rw [hq] at h; exact absurd rfl (h _ _ _ _)
      · rw [hq] at h; cases h
      · rw [hq] at h2
        cases h2
        refine ⟨f, h1, ?_⟩
        rw [List.append_nil] at h4
        rw [h3, ← h4]
        rfl
    | _ => cases he

/-- C71: a process asks the server for a page at most once, however often reading or writing the file fails. -/
theorem C71_once (cfg : Cfg) (hk : cfg.keep = true) (served : Val → Prop) (s₀ s : Sys) (tr : List Event)
    (hex : Exec cfg served s₀ tr s) (p : Nat) : Spec.asked p tr ≤ 1 := (asked_exec hk hex).1

/-- C71 is not true of the schema in that form: if the file cannot be opened for writing, every access asks again. -/
theorem C71_schema_asks_again (cfg : Cfg) (hk : cfg.keep = false) (v : Val) :
    ∃ tr s, Exec cfg (· = v) Sys.empty tr s ∧ Spec.asked 0 tr = 2 := by
  have e1 := (Exec.nil (cfg := cfg) (served := (· = v)) (s₀ := Sys.empty)).snoc (.openMissing 0 rfl rfl)
  have e2 := e1.snoc (.fetch 0 (setProc_self _ _ _) (fun _ => rfl) rfl)
  have e3 := e2.snoc (.openFail 0 (setProc_self _ _ _))
  have e4 := e3.snoc (.openMissing 0 (setProc_self _ _ _) rfl)
  have e5 := e4.snoc (.fetch 0 (setProc_self _ _ _) (fun h => by rw [hk] at h; simp at h) rfl)
  exact ⟨_, _, e5, rfl⟩

/-! ## The hypotheses are met -/

theorem serves_pageA : Spec.ServesObjects pageCfg.readFloat (· = pageA) := by
  rintro _ rfl
  refine ⟨⟨_, rfl⟩, ?_⟩
  have hd : Spec.Data sampleFloat pageA := by simp [Spec.Data, Spec.DataDict, pageA]
  obtain ⟨s, hs⟩ := Option.isSome_iff_exists.1 ((dumps_isSome sampleFloat Option.none pageA).2 rfl)
  exact ⟨s, loads_dumps hd hs⟩

/-- A history with two processes, a crash, and a value returned. -/
theorem page_history : ∃ tr s, Exec pageCfg (· = pageA) Sys.empty tr s ∧ .ret 1 pageA ∈ tr ∧ .crash 0 ∈ tr ∧ .raise 2 .decode ∈ tr := by
  have e0 : Exec pageCfg (· = pageA) Sys.empty [] Sys.empty := .nil
  have e1 := e0.snoc (.openMissing 0 rfl rfl)
  have e2 := e1.snoc (.openMissing 1 rfl rfl)
  have e3 := e2.snoc (.fetch 0 rfl (fun _ => rfl) rfl)
  have e4 := e3.snoc (.fetch 1 rfl (fun _ => rfl) rfl)
  have e5 := e4.snoc (.openWrite 0 rfl content_pageA)
  have e6 := e5.snoc (.openRead 2 0 rfl rfl)
  have e7 := e6.snoc (.eofBad 2 0 rfl (by simp [Sys.setProc, Sys.openWrite, Sys.create, Sys.empty]) (by
    have e' : ofUtf8 [] = some [] := ofUtf8_utf8 []
    simp [decode, e', universal, loads, skipWs, parse]))
  have e8 := e7.snoc (.write 0 0 0 7 rfl (by rw [page_length.1]; decide))
  have e9 := e8.snoc (.crash 0)
  have e10 := e9.snoc (.openWrite 1 rfl content_pageA)
  have e11 := e10.snoc (.write 1 0 0 26 rfl (by rw [page_length.1]; decide))
  rw [List.drop_eq_nil_of_le (as := pageText "1" "1") (i := 26) (by rw [page_length.1]; decide)] at e11
  have e12 := e11.snoc (.close 1 0 26 (setProc_self _ _ _))
  exact ⟨_, _, e12, by simp, by simp, by simp⟩

example : Spec.Quiet Sys.empty ∧ Spec.Quiet (Sys.withFile (pageText "1" "1")) :=
  ⟨fun _ => ⟨rfl, rfl⟩, fun _ => ⟨rfl, rfl⟩⟩

example : True := by
  obtain ⟨tr, s, hex, hr, -, -⟩ := page_history
  have h1 := C69_partial pageCfg sampleFloat_ok pageA serves_pageA _ content_pageA _ (.inl rfl) tr s hex 1 pageA hr
  have h2 := C71_once pageCfg rfl _ _ s tr hex 1
  trivial

example := C70_false pageCfg [("a", .int 1), ("b", .int 1)] (by simp [Spec.Data, Spec.DataDict])

/-- A history without overlap: one process is killed after it has asked the server, the next one gets the answer. -/
example : ∃ tr s, Spec.OneAtATime pageCfg (· = pageA) Sys.empty (tr ++ [.ret 1 pageA]) s ∧ .crash 0 ∈ tr := by
  have e0 : Spec.OneAtATime pageCfg (· = pageA) Sys.empty [] Sys.empty := .nil
  have e1 := e0.snoc (.openMissing 0 rfl rfl) (by intro p h q hq; rfl)
  have e2 := e1.snoc (.fetch 0 rfl (fun _ => rfl) rfl) (by
    intro p h q hq; cases h; simp [Sys.setProc, Sys.empty, Proc.fresh, hq])
  have e3 := e2.snoc (.crash 0) (by intro p h q hq; cases h; simp [Sys.setProc, Sys.empty, Proc.fresh, hq])
  have e4 := e3.snoc (.openMissing 1 rfl rfl) (by
    intro p h q hq; cases h; simp only [Sys.setProc, Sys.empty, Proc.fresh]; split <;> rfl)
  have e5 := e4.snoc (.fetch 1 rfl (fun _ => rfl) rfl) (by
    intro p h q hq; cases h; simp only [Sys.setProc, Sys.empty, Proc.fresh, hq, if_false]; split <;> rfl)
  have e6 := e5.snoc (.openWrite 1 rfl content_pageA) (by
    intro p h q hq; cases h; simp only [Sys.setProc, Sys.empty, Proc.fresh, hq, if_false]; split <;> rfl)
  have e7 := e6.snoc (.write 1 0 0 26 rfl (by rw [page_length.1]; decide)) (by
    intro p h q hq; cases h
    simp only [Sys.setProc, Sys.openWrite, Sys.create, Sys.empty, Proc.fresh, hq, if_false]; split <;> rfl)
  rw [List.drop_eq_nil_of_le (as := pageText "1" "1") (i := 26) (by rw [page_length.1]; decide)] at e7
  have e8 := e7.snoc (.close 1 0 26 (setProc_self _ _ _)) (by
    intro p h q hq; cases h
    simp only [Sys.setProc, Sys.setFile, Sys.openWrite, Sys.create, Sys.empty, Proc.fresh, hq, if_false]; split <;> rfl)
  have := C69_partial_sequential pageCfg sampleFloat_ok _ serves_pageA _ _ 1 pageA e8
  exact ⟨_, _, e8, by simp⟩

/-- A history as in `C70_partial`: a process is killed while it writes; the next one cannot read the file. -/
example : ∃ tr s tr' s' f, Exec pageCfg (· = pageA) Sys.empty tr s ∧ Spec.Quiet s ∧ s.path = some f ∧
    Exec pageCfg (· = pageA) s tr' s' ∧ .delete ∉ tr' ∧ tr'.length = 3 := by
  have e0 : Exec pageCfg (· = pageA) Sys.empty [] Sys.empty := .nil
  have e1 := e0.snoc (.openMissing 0 rfl rfl)
  have e2 := e1.snoc (.fetch 0 rfl (fun _ => rfl) rfl)
  have e3 := e2.snoc (.openWrite 0 rfl content_pageA)
  have e4 := e3.snoc (.write 0 0 0 7 rfl (by rw [page_length.1]; decide))
  have e5 := e4.snoc (.crash 0)
  generalize hs : Sys.setProc _ 0 Proc.fresh = s at e5
  have hq : Spec.Quiet s := by
    intro p
    rw [← hs]
    simp only [Sys.setProc, Sys.setFile, Sys.openWrite, Sys.create, Sys.empty, Proc.fresh]
    split <;> exact ⟨rfl, rfl⟩
  have hf : s.path = some 0 := by rw [← hs]; rfl
  obtain ⟨e, s', h, h1, h2⟩ := C70_partial_ends pageCfg (· = pageA) s 1 0 (hq 1) hf
  have he : Event.delete ∉ [.silent 1, .silent 1, e] := by
    cases hd : decode pageCfg (s.files 0) with
    | none => rw [h1 hd]; simp
    | some v => rw [h2 v hd]; simp
  have := C70_partial pageCfg sampleFloat_ok pageA serves_pageA _ content_pageA _ _ e5 (fun p => (hq p).1) 0 hf _ s' h he
  exact ⟨_, _, _, s', 0, e5, hq, hf, h, he, rfl⟩

example := C70_partial_downloads pageCfg (· = pageA) pageA rfl _ content_pageA Sys.empty 0 rfl rfl

/-- Three processes read a complete file. -/
example := C71_cached pageCfg sampleFloat_ok (fun _ => True) pageA (serves_pageA pageA rfl).2
  (Sys.withFile (pageText "1" "1")) (fun _ => rfl) 0 rfl content_pageA _ _
  (((Exec.nil.snoc (.openRead 0 0 rfl rfl)).snoc (.openRead 1 0 rfl rfl)).snoc (.openRead 2 0 rfl rfl)) (by simp)

/-- A download, as in `C71_downloaded`, and what follows from it. -/
example : ∃ s' f, Exec pageCfg (· = pageA) Sys.empty ([.silent 0, .fetch 0 pageA, .silent 0, .silent 0] ++ [.ret 0 pageA]) s' ∧
    s'.path = some f ∧ content pageCfg pageA = some (s'.files f) := by
  obtain ⟨s', f, h, -, -⟩ := C70_partial_downloads pageCfg (· = pageA) pageA rfl _ content_pageA Sys.empty 0 rfl rfl
  obtain ⟨f', h1, h2⟩ := C71_downloaded pageCfg _ _ s' 0 pageA [.silent 0, .fetch 0 pageA, .silent 0, .silent 0] ⟨rfl, rfl⟩ rfl h (by simp)
  exact ⟨s', f', h, h1, h2⟩

example := C71_schema_asks_again schemaCfg rfl pageA

end Verif.Props
