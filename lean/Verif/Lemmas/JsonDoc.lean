import Verif.Lemmas.JsonDump
import Verif.Props.Serial
/-!
# Text in, text out

What `json.loads` returns is plain data, and `to_dict()` of a document parsed from plain data is plain data as soon as
the sentinel does not occur in it.
-/

namespace Verif
open Verif.Spec Verif.Json Verif.Props

mutual
/-- `Spec.Data`, but the sentinel may occur. -/
def Clean (rf : Str → Str) : Val → Prop
  | .float r => FloatRepr rf r
  | .list l => CleanList rf l
  | .dict d => (d.map Prod.fst).Nodup ∧ CleanDict rf d
  | _ => True
def CleanList (rf : Str → Str) : List Val → Prop
  | [] => True
  | v :: l => Clean rf v ∧ CleanList rf l
def CleanDict (rf : Str → Str) : List (String × Val) → Prop
  | [] => True
  | (_, v) :: d => Clean rf v ∧ CleanDict rf d
end

theorem cleanList_iff {rf : Str → Str} {l : List Val} : CleanList rf l ↔ ∀ v ∈ l, Clean rf v := by
  induction l with
  | nil => simp [CleanList]
  | cons v l ih => simp [CleanList, ih]

theorem cleanDict_iff {rf : Str → Str} {d : List (String × Val)} : CleanDict rf d ↔ ∀ e ∈ d, Clean rf e.2 := by
  induction d with
  | nil => simp [CleanDict]
  | cons p d ih => obtain ⟨k, v⟩ := p; simp [CleanDict, ih]

theorem dataList_iff {rf : Str → Str} {l : List Val} : DataList rf l ↔ ∀ v ∈ l, Data rf v := by
  induction l with
  | nil => simp [DataList]
  | cons v l ih => simp [DataList, ih]

theorem dataDict_iff {rf : Str → Str} {d : List (String × Val)} : DataDict rf d ↔ ∀ e ∈ d, Data rf e.2 := by
  induction d with
  | nil => simp [DataDict]
  | cons p d ih => obtain ⟨k, v⟩ := p; simp [DataDict, ih]

mutual
theorem data_iff (rf : Str → Str) : ∀ v, Data rf v ↔ Clean rf v ∧ plain v = true
  | .none => by simp [Data, Clean, plain]
  | .bool _ => by simp [Data, Clean, plain]
  | .int _ => by simp [Data, Clean, plain]
  | .float _ => by simp [Data, Clean, plain]
  | .str _ => by simp [Data, Clean, plain]
  | .opt => by simp [Data, Clean, plain]
  | .list l => by rw [Data, Clean, plain, dataList_clean rf l]
  | .dict d => by rw [Data, Clean, plain, dataDict_clean rf d, and_assoc]
theorem dataList_clean (rf : Str → Str) : ∀ l, DataList rf l ↔ CleanList rf l ∧ plainList l = true
  | [] => by simp [DataList, CleanList, plainList]
  | v :: l => by
    rw [DataList, CleanList, plainList, data_iff rf v, dataList_clean rf l, Bool.and_eq_true]; tauto
theorem dataDict_clean (rf : Str → Str) : ∀ d, DataDict rf d ↔ CleanDict rf d ∧ plainDict d = true
  | [] => by simp [DataDict, CleanDict, plainDict]
  | (k, v) :: d => by
    rw [DataDict, CleanDict, plainDict, data_iff rf v, dataDict_clean rf d, Bool.and_eq_true]; tauto
end

theorem clean_lookup {rf : Str → Str} {d : List (String × Val)} {k : String} {v : Val} (hd : CleanDict rf d)
    (h : lookupKey d k = some v) : Clean rf v := by
  induction d with
  | nil => simp [lookupKey] at h
  | cons p d ih =>
    obtain ⟨k', v'⟩ := p
    rw [CleanDict] at hd
    rw [lookupKey] at h
    split at h
    · cases h; exact hd.1
    · exact ih hd.2 h

theorem cleanDict_append {rf : Str → Str} {a b : List (String × Val)} :
    CleanDict rf (a ++ b) ↔ CleanDict rf a ∧ CleanDict rf b := by
  simp only [cleanDict_iff, List.mem_append]
  exact ⟨fun h => ⟨fun e he => h e (.inl he), fun e he => h e (.inr he)⟩, fun h e he => he.elim (h.1 e) (h.2 e)⟩

theorem cleanEntry {rf : Str → Str} {k : String} {o : Option Val} :
    CleanDict rf (plainEntry k o) ↔ ∀ v, o = some v → Clean rf v := by
  cases o <;> simp [plainEntry, CleanDict]

theorem nodeDict_nodup (t v x a c m : Option Val) : ((nodeDict t v x a c m).map Prod.fst).Nodup := by
  cases t <;> cases v <;> cases x <;> cases a <;> cases c <;> cases m <;> simp [nodeDict, plainEntry]

theorem fieldValue_clean {rf : Str → Str} {d : List (String × Val)} {fs : List Field} (hl : noLit fs)
    (hd : CleanDict rf d) {f : Field} (hf : f ∈ fs) : Clean rf (fieldValue d f) := by
  rw [fieldValue_noLit hl hf]
  cases h : lookupKey d f.name with
  | none => simp [Clean]
  | some v => exact clean_lookup hd h

theorem clean_fields {rf : Str → Str} {d : List (String × Val)} {fs : List Field} (hn : (names fs).Nodup) (hl : noLit fs)
    (hd : CleanDict rf d) : ((fs.map fun f => (f.name, fieldValue d f)).map Prod.fst).Nodup ∧
      CleanDict rf (fs.map fun f => (f.name, fieldValue d f)) := by
  constructor
  · simpa [names, Function.comp_def] using hn
  · rw [cleanDict_iff]
    intro e he
    obtain ⟨f, hf, rfl⟩ := List.mem_map.1 he
    exact fieldValue_clean hl hd hf

theorem removeOptional_clean {rf : Str → Str} {l : List (String × Val)} (h : (l.map Prod.fst).Nodup ∧ CleanDict rf l) :
    ((removeOptional l).map Prod.fst).Nodup ∧ CleanDict rf (removeOptional l) := by
  constructor
  · exact h.1.sublist (List.Sublist.map _ List.filter_sublist)
  · rw [cleanDict_iff]
    intro e he
    exact cleanDict_iff.1 h.2 e (List.mem_of_mem_filter he)

theorem mark_clean {rf : Str → Str} {v : Val} {m : Mark} (hv : Clean rf v) (h : parseMark v = .ok m) : Clean rf m.toDict := by
  obtain ⟨d, t, rfl, ht, hr, hm⟩ := parseMark_ok h
  rw [Clean] at hv
  obtain ⟨_, h2, h3⟩ := markFromDict_ok hm
  rw [ht] at h2
  simp only [Option.getD_some] at h2
  have htp := clean_lookup hv.2 ht
  rw [Mark.toDict, Clean]
  refine removeOptional_clean ?_
  rcases h3 with ⟨hf, ha⟩ | ⟨fs, ad, a, hf, had, hok, ha⟩
  · simp [Mark.attrsEntry, ha, h2, CleanDict, htp]
  · have hpl := clean_lookup hv.2 had
    rw [Clean] at hpl
    obtain ⟨_, rfl⟩ := attrsFromDict_ok hok
    have := clean_fields (markAttrsFields_nodup _ fs hf) (markAttrsFields_noLit _ fs hf) hpl.2
    simp [Mark.attrsEntry, ha, h2, CleanDict, htp, Clean]
    simpa using this

theorem toDict_clean {rf : Str → Str} {w : Bool} (n : Node) : ∀ d, CleanDict rf d →
    (n.cls.fromDict w (.dict d)).out = .ok n → ∀ d', n.toDict = .ok d' → Clean rf d' := by
  induction n using Node.induction with
  | h hd s ih =>
    intro d hdp hf d' hd'
    obtain ⟨co, mo, hce, hme, rfl⟩ := toDict_ok hd'
    simp only [Node.content, Node.hd] at hce hme
    obtain ⟨co', hco', hc1, hc2, hc3, hc4⟩ := contentEntry_ok hce
    obtain ⟨mo', hmo', hm1, hm2, hm3, hm4⟩ := marksEntry_ok hme
    have hco : co' = co := by
      cases co <;> cases co' <;> simp [plainEntry] at hco' ⊢ <;> exact hco'.symm
    have hmo : mo' = mo := by
      cases mo <;> cases mo' <;> simp [plainEntry] at hmo' ⊢ <;> exact hmo'.symm
    subst hco; subst hmo
    obtain ⟨a, k, m, ha, hk, hm, hreq, heq⟩ := nodeFromDict_ok hf
    simp only [Node.cls, Node.hd, Node.mk.injEq] at heq ha
    obtain ⟨hhd, hs⟩ := heq
    generalize hcc : hd.cls = c at *
    have e1 : ∀ v, nn (some hd.type) = some v → Clean rf v := by
      rw [hhd]
      simp only
      rw [nodeFields_type]
      intro v hv
      cases hl : lookupKey d "type" with
      | none => rw [hl] at hv; simp [nn, Val.isOpt] at hv; rw [← hv.1]; simp [Clean]
      | some t =>
        rw [hl] at hv
        simp [nn, Option.filter] at hv
        rw [← hv.2]; exact clean_lookup hdp hl
    have e2 : ∀ v, nn hd.version = some v → Clean rf v := by
      rw [hhd]
      simp only
      rw [valOf_version]
      intro v hv
      split at hv
      · cases hl : lookupKey d "version" with
        | none => rw [hl] at hv; simp [nn, Val.isOpt] at hv; rw [← hv.1]; simp [Clean]
        | some t =>
          rw [hl] at hv
          simp [nn, Option.filter] at hv
          rw [← hv.2]; exact clean_lookup hdp hl
      · simp [nn] at hv
    have e3 : ∀ v, nn hd.text = some v → Clean rf v := by
      rw [hhd]
      simp only
      rw [valOf_text]
      intro v hv
      split at hv
      · cases hl : lookupKey d "text" with
        | none => rw [hl] at hv; simp [nn, Val.isOpt, Option.filter] at hv
        | some t =>
          rw [hl] at hv
          simp [nn, Option.filter] at hv
          rw [← hv.2]; exact clean_lookup hdp hl
      · simp [nn] at hv
    have e4 : ∀ v, nn (attrsVal hd.attrs) = some v → Clean rf v := by
      rw [hhd]
      simp only
      rw [slotOf_eq c _ (.inl rfl)]
      intro v hv
      split at hv
      · rcases attrsStep_ok_cases ha with ⟨rfl, _⟩ | ⟨fs, ad, o, hf', had, rfl, hok⟩
        · simp [attrsVal, nn, Val.isOpt, Option.filter] at hv
        · simp [attrsVal, nn, AttrsObj.toDict, Val.isOpt] at hv
          obtain ⟨rfl, _⟩ := hv
          have hpl := clean_lookup hdp had
          rw [Clean] at hpl
          obtain ⟨_, rfl⟩ := attrsFromDict_ok hok
          rw [Clean]
          exact removeOptional_clean (clean_fields (attrsFields_nodup _ fs hf') (attrsFields_noLit _ fs hf') hpl.2)
      · simp [attrsVal, nn] at hv
    have em : ∀ v, nn mo' = some v → Clean rf v := by
      cases hmk : hd.marks with
      | absent => rw [hm1 hmk]; simp [nn]
      | opt => rw [hm2 hmk]; simp [nn, Val.isOpt]
      | raw v => rw [hm3 v hmk]; simp [nn, Val.isOpt, Clean, CleanList]
      | val ms =>
        rw [hm4 ms hmk]
        have horig : ∀ m ∈ ms, ∃ v, Clean rf v ∧ parseMark v = .ok m := by
          rw [hhd] at hmk
          simp only at hmk
          rw [slotOf_eq c _ (.inr (.inr rfl))] at hmk
          split at hmk
          · next hdecl =>
            unfold marksStep at hm
            cases hl : lookupKey d "marks" with
            | none => rw [hl] at hm; simp [Res.ok] at hm; subst hm; simp at hmk
            | some v =>
              rw [hl] at hm
              cases v with
              | list l =>
                simp only [Res.map_out] at hm
                cases hp : (parseMarks w l).out with
                | error e => rw [hp] at hm; simp at hm
                | ok ms' =>
                  rw [hp] at hm
                  simp at hm
                  subst hm
                  simp at hmk
                  subst hmk
                  intro m hmem
                  obtain ⟨x, hx, hx'⟩ := parseMarks_mem hp hmem
                  have := clean_lookup hdp hl
                  rw [Clean, cleanList_iff] at this
                  exact ⟨x, this x hx, hx'⟩
              | _ => simp [Res.ok] at hm; subst hm; simp [rawSlot] at hmk
          · simp at hmk
        simp only [nn, Option.filter, Val.isOpt, Bool.not_false, if_true, Option.some.injEq,
          forall_eq', Clean, cleanList_iff, List.mem_map, forall_exists_index, and_imp,
          forall_apply_eq_imp_iff₂]
        intro m hm
        obtain ⟨v, hv1, hv2⟩ := horig m hm
        exact mark_clean hv1 hv2
    have ec : ∀ v, nn co' = some v → Clean rf v := by
      cases hsk : s with
      | absent => rw [hc1 hsk]; simp [nn]
      | opt => rw [hc2 hsk]; simp [nn, Val.isOpt]
      | raw v => rw [hc3 v hsk]; simp [nn, Val.isOpt, Clean, CleanList]
      | val ns =>
        obtain ⟨vs, hvs, ho⟩ := hc4 ns hsk
        rw [ho]
        obtain ⟨l, hl, hp⟩ := fromDict_child hf (show (Node.mk hd s).content = .val ns from hsk)
        simp only [nn, Option.filter, Val.isOpt, Bool.not_false, if_true, Option.some.injEq,
          forall_eq', Clean, cleanList_iff]
        intro v hv
        obtain ⟨x, hx, hxv⟩ := (listToDict_mem hvs).2 v hv
        obtain ⟨u, hu, hpu⟩ := parseNodes_mem hp hx
        obtain ⟨du, t, rfl, ht, hr, hfu⟩ := parseNode_ok hpu
        have hcl := clean_lookup hdp hl
        rw [Clean, cleanList_iff] at hcl
        have hcl := hcl _ hu
        rw [Clean] at hcl
        exact ih ns x hsk hx du hcl.2 hfu v hxv
    rw [Clean]
    refine ⟨nodeDict_nodup _ _ _ _ _ _, ?_⟩
    rw [nodeDict]
    simp only [cleanDict_append, cleanEntry]
    exact ⟨⟨⟨⟨⟨e1, e2⟩, e3⟩, e4⟩, ec⟩, em⟩

/-! ## Reading -/

theorem setPair_data {rf : Str → Str} {k : String} {v : Val} {d : List (String × Val)} (hv : Data rf v)
    (hn : (d.map Prod.fst).Nodup) (hd : DataDict rf d) :
    ((setPair k v d).map Prod.fst).Nodup ∧ DataDict rf (setPair k v d) ∧
      ∀ x, x ∈ (setPair k v d).map Prod.fst ↔ x = k ∨ x ∈ d.map Prod.fst := by
  induction d with
  | nil => simp [setPair, DataDict, hv]
  | cons p d ih =>
    obtain ⟨k', v'⟩ := p
    rw [DataDict] at hd
    simp only [List.map_cons, List.nodup_cons] at hn
    rw [setPair]
    split
    · rename_i hk
      subst hk
      refine ⟨by simpa using hn, ⟨hv, hd.2⟩, fun x => ?_⟩
      simp
    · rename_i hk
      obtain ⟨i1, i2, i3⟩ := ih hn.2 hd.2
      refine ⟨?_, ⟨hd.1, i2⟩, fun x => ?_⟩
      · simp only [List.map_cons, List.nodup_cons]
        refine ⟨?_, i1⟩
        rw [i3]
        rintro (h | h)
        · exact hk h
        · exact hn.1 h
      · simp only [List.map_cons, List.mem_cons, i3]
        tauto

theorem ofPairs_data {rf : Str → Str} (l : List (String × Val)) (hl : DataDict rf l) : Data rf (.dict (ofPairs l)) := by
  have key : ∀ (l d : List (String × Val)), DataDict rf l → (d.map Prod.fst).Nodup → DataDict rf d →
      Data rf (.dict (l.foldl (fun d p => setPair p.1 p.2 d) d)) := by
    intro l
    induction l with
    | nil => intro d _ h1 h2; exact ⟨h1, h2⟩
    | cons p l ih =>
      intro d hl h1 h2
      obtain ⟨k, v⟩ := p
      rw [DataDict] at hl
      have := setPair_data (k := k) hl.1 h1 h2
      exact ih _ hl.2 this.1 this.2.1
  exact key l [] hl (by simp) (by simp [DataDict])

theorem scanUnsigned_data {rf : Str → Str} (hrf : ∀ s, FloatRepr rf (rf s)) {neg : Bool} {s r : Str} {v : Val}
    (h : scanUnsigned rf neg s = some (v, r)) : Data rf v := by
  unfold scanUnsigned at h
  split at h
  · simp at h
  split at h
  · simp only at h
    split at h
    · split at h
      · simp only [Option.some.injEq, Prod.mk.injEq] at h; rw [← h.1]; simp [Data]
      · simp only [Option.some.injEq, Prod.mk.injEq] at h; rw [← h.1, Data]; exact hrf _
    · split at h
      · simp only [Option.some.injEq, Prod.mk.injEq] at h; rw [← h.1]; simp [Data]
      · simp only [Option.some.injEq, Prod.mk.injEq] at h; rw [← h.1, Data]; exact hrf _
  · simp at h

theorem scanScalar_data {rf : Str → Str} (hrf : ∀ s, FloatRepr rf (rf s)) {c : Char} {s r : Str} {v : Val}
    (h : scanScalar rf c s = some (v, r)) : Data rf v := by
  have lit : ∀ (p : Str) (x : Val), Data rf x → (afterPrefix p s).map (fun r => (x, r)) = some (v, r) → Data rf v := by
    intro p x hx h
    obtain ⟨r0, -, h⟩ := Option.map_eq_some_iff.1 h
    cases h; exact hx
  unfold scanScalar at h
  split at h; · exact lit _ _ (by simp [Data]) h
  split at h; · exact lit _ _ (by simp [Data]) h
  split at h; · exact lit _ _ (by simp [Data]) h
  split at h; · exact lit _ _ (by rw [Data]; exact Or.inl rfl) h
  split at h; · exact lit _ _ (by rw [Data]; exact Or.inr (Or.inl rfl)) h
  split at h
  · split at h
    · rename_i x hx
      cases h; exact scanUnsigned_data hrf hx
    · exact lit _ _ (by rw [Data]; exact Or.inr (Or.inr (Or.inl rfl))) h
  · exact scanUnsigned_data hrf h

theorem parse_data {rf : Str → Str} (hrf : ∀ s, FloatRepr rf (rf s)) (f : Nat) :
    (∀ s v r, parse rf f s = some (v, r) → Data rf v) ∧
    (∀ s vs r, parseItems rf f s = some (vs, r) → DataList rf vs) ∧
    (∀ s d r, parsePairs rf f s = some (d, r) → DataDict rf d) := by
  induction f with
  | zero => simp [parse, parseItems, parsePairs]
  | succ f ih =>
    obtain ⟨ihv, ihi, ihp⟩ := ih
    refine ⟨?_, ?_, ?_⟩
    · intro s v r h
      cases s with
      | nil => simp [parse] at h
      | cons c cs =>
        rw [parse] at h
        split at h
        · obtain ⟨⟨x, r0⟩, h1, h2⟩ := Option.map_eq_some_iff.1 h
          cases h2; simp [Data]
        split at h
        · split at h
          · cases h; simp [Data, DataDict]
          · obtain ⟨⟨d, r0⟩, h1, h2⟩ := Option.map_eq_some_iff.1 h
            cases h2
            exact ofPairs_data d (ihp _ _ _ h1)
        split at h
        · split at h
          · cases h; simp [Data, DataList]
          · obtain ⟨⟨d, r0⟩, h1, h2⟩ := Option.map_eq_some_iff.1 h
            cases h2
            exact ihi _ _ _ h1
        · exact scanScalar_data hrf h
    · intro s vs r h
      rw [parseItems] at h
      split at h
      · simp at h
      rename_i v r0 hv
      split at h
      · cases h; exact ⟨ihv _ _ _ hv, trivial⟩
      · obtain ⟨⟨l, r2⟩, h1, h2⟩ := Option.map_eq_some_iff.1 h
        cases h2
        exact ⟨ihv _ _ _ hv, ihi _ _ _ h1⟩
      · simp at h
    · intro s d r h
      rw [parsePairs.eq_def] at h
      simp only at h
      split at h
      swap
      · simp at h
      split at h
      · simp at h
      split at h
      swap
      · simp at h
      split at h
      · simp at h
      rename_i v r2 hv
      split at h
      · cases h; exact ⟨ihv _ _ _ hv, trivial⟩
      · obtain ⟨⟨l, r3⟩, h1, h2⟩ := Option.map_eq_some_iff.1 h
        cases h2
        exact ⟨ihv _ _ _ hv, ihp _ _ _ h1⟩
      · simp at h

/-- What `json.loads` returns is plain data. -/
theorem loads_data {rf : Str → Str} (hrf : ∀ s, FloatRepr rf (rf s)) {s : Str} {v : Val} (h : loads rf s = some v) :
    Data rf v := by
  unfold loads at h
  split at h
  · simp at h
  split at h
  · rename_i w r hp
    split at h
    · cases h; exact (parse_data hrf _).1 _ _ _ hp
    · simp at h
  · simp at h

/-! ## Writing -/

mutual
theorem encode_total (rf : Str → Str) (ind : Option Nat) : ∀ (v : Val) (l : Nat), plain v = true → (encode ind l v).isSome
  | .none, _, _ => by simp [encode]
  | .bool true, _, _ => by simp [encode]
  | .bool false, _, _ => by simp [encode]
  | .int _, _, _ => by simp [encode]
  | .float _, _, _ => by simp [encode]
  | .str _, _, _ => by simp [encode]
  | .opt, _, h => by simp [plain] at h
  | .list [], _, _ => by simp [encode]
  | .list (v :: vs), l, h => by
    rw [plain, plainList, Bool.and_eq_true] at h
    obtain ⟨a, ha⟩ := Option.isSome_iff_exists.1 (encode_total rf ind v (l + 1) h.1)
    obtain ⟨b, hb⟩ := Option.isSome_iff_exists.1 (encodeTail_total rf ind vs (l + 1) h.2)
    simp [encode, ha, hb]
  | .dict [], _, _ => by simp [encode]
  | .dict ((k, v) :: d), l, h => by
    rw [plain, plainDict, Bool.and_eq_true] at h
    obtain ⟨a, ha⟩ := Option.isSome_iff_exists.1 (encode_total rf ind v (l + 1) h.1)
    obtain ⟨b, hb⟩ := Option.isSome_iff_exists.1 (encodePairs_total rf ind d (l + 1) h.2)
    simp [encode, ha, hb]
theorem encodeTail_total (rf : Str → Str) (ind : Option Nat) : ∀ (vs : List Val) (l : Nat), plainList vs = true →
    (encodeTail ind l vs).isSome
  | [], _, _ => by simp [encodeTail]
  | v :: vs, l, h => by
    rw [plainList, Bool.and_eq_true] at h
    obtain ⟨a, ha⟩ := Option.isSome_iff_exists.1 (encode_total rf ind v l h.1)
    obtain ⟨b, hb⟩ := Option.isSome_iff_exists.1 (encodeTail_total rf ind vs l h.2)
    simp [encodeTail, ha, hb]
theorem encodePairs_total (rf : Str → Str) (ind : Option Nat) : ∀ (d : List (String × Val)) (l : Nat), plainDict d = true →
    (encodePairs ind l d).isSome
  | [], _, _ => by simp [encodePairs]
  | (k, v) :: d, l, h => by
    rw [plainDict, Bool.and_eq_true] at h
    obtain ⟨a, ha⟩ := Option.isSome_iff_exists.1 (encode_total rf ind v l h.1)
    obtain ⟨b, hb⟩ := Option.isSome_iff_exists.1 (encodePairs_total rf ind d l h.2)
    simp [encodePairs, ha, hb]
end

mutual
theorem encode_plain (ind : Option Nat) : ∀ (v : Val) (l : Nat), (encode ind l v).isSome → plain v = true
  | .none, _, _ => by simp [plain]
  | .bool _, _, _ => by simp [plain]
  | .int _, _, _ => by simp [plain]
  | .float _, _, _ => by simp [plain]
  | .str _, _, _ => by simp [plain]
  | .opt, _, h => by simp [encode] at h
  | .list [], _, _ => by simp [plain, plainList]
  | .list (v :: vs), l, h => by
    obtain ⟨s, h⟩ := Option.isSome_iff_exists.1 h
    rw [encode] at h
    obtain ⟨a, ha, h⟩ := Option.bind_eq_some_iff.1 h
    obtain ⟨b, hb, h⟩ := Option.bind_eq_some_iff.1 h
    rw [plain, plainList, encode_plain ind v (l + 1) (by simp [ha]), encodeTail_plain ind vs (l + 1) (by simp [hb])]
    rfl
  | .dict [], _, _ => by simp [plain, plainDict]
  | .dict ((k, v) :: d), l, h => by
    obtain ⟨s, h⟩ := Option.isSome_iff_exists.1 h
    rw [encode] at h
    obtain ⟨a, ha, h⟩ := Option.bind_eq_some_iff.1 h
    obtain ⟨b, hb, h⟩ := Option.bind_eq_some_iff.1 h
    rw [plain, plainDict, encode_plain ind v (l + 1) (by simp [ha]), encodePairs_plain ind d (l + 1) (by simp [hb])]
    rfl
theorem encodeTail_plain (ind : Option Nat) : ∀ (vs : List Val) (l : Nat), (encodeTail ind l vs).isSome → plainList vs = true
  | [], _, _ => by simp [plainList]
  | v :: vs, l, h => by
    obtain ⟨s, h⟩ := Option.isSome_iff_exists.1 h
    rw [encodeTail] at h
    obtain ⟨a, ha, h⟩ := Option.bind_eq_some_iff.1 h
    obtain ⟨b, hb, h⟩ := Option.bind_eq_some_iff.1 h
    rw [plainList, encode_plain ind v l (by simp [ha]), encodeTail_plain ind vs l (by simp [hb])]
    rfl
theorem encodePairs_plain (ind : Option Nat) : ∀ (d : List (String × Val)) (l : Nat), (encodePairs ind l d).isSome →
    plainDict d = true
  | [], _, _ => by simp [plainDict]
  | (k, v) :: d, l, h => by
    obtain ⟨s, h⟩ := Option.isSome_iff_exists.1 h
    rw [encodePairs] at h
    obtain ⟨a, ha, h⟩ := Option.bind_eq_some_iff.1 h
    obtain ⟨b, hb, h⟩ := Option.bind_eq_some_iff.1 h
    rw [plainDict, encode_plain ind v l (by simp [ha]), encodePairs_plain ind d l (by simp [hb])]
    rfl
end

theorem dumps_isSome (rf : Str → Str) (ind : Option Nat) (v : Val) : (dumps ind v).isSome ↔ plain v = true :=
  ⟨encode_plain ind v 0, encode_total rf ind v 0⟩

/-! ## Text round trip, truncated text -/

theorem parse_head {rf : Str → Str} {f : Nat} {c : Char} {t : Str} {x} (h : parse rf f (c :: t) = some x) :
    isWs c = false ∧ c ≠ Char.ofNat 0xFEFF := by
  have key : ∀ a : Char, isDigit a = false → a ≠ 'n' → a ≠ 't' → a ≠ 'f' → a ≠ 'N' → a ≠ 'I' → a ≠ '-' → a ≠ '"' →
      a ≠ '{' → a ≠ '[' → ∀ t, parse rf f (a :: t) = Option.none := by
    intro a h0 h1 h2 h3 h4 h5 h6 h7 h8 h9 t
    cases f with
    | zero => rfl
    | succ f => simp [parse, scanScalar, scanUnsigned, h0, h1, h2, h3, h4, h5, h6, h7, h8, h9]
  constructor
  · by_contra hw
    have hw : isWs c = true := by simpa using hw
    rcases isWs_cases hw with rfl | rfl | rfl | rfl
    all_goals rw [key _ (by decide) (by decide) (by decide) (by decide) (by decide) (by decide) (by decide) (by decide) (by decide) (by decide)] at h; simp at h
  · rintro rfl
    rw [key _ (by decide) (by decide) (by decide) (by decide) (by decide) (by decide) (by decide) (by decide) (by decide) (by decide)] at h; simp at h

theorem loads_dumps {rf : Str → Str} {ind : Option Nat} {v : Val} {s : Str} (hv : Data rf v) (h : dumps ind v = some s) :
    loads rf s = some v := by
  have hp := parse_encode rf ind v 0 s hv h s.length [] (Nat.le_refl _) (Or.inl rfl)
  rw [List.append_nil] at hp
  obtain ⟨c, q, hc, hw, -⟩ := encode_head rf ind 0 v s hv h
  have hb : c ≠ Char.ofNat 0xFEFF := by rw [hc] at hp; exact (parse_head hp).2
  have hs : skipWs s = s := by rw [hc]; exact skipWs_cons hw
  unfold loads
  rw [if_neg (by rw [hc]; simpa using hb), hs, hp]
  simp [skipWs]

theorem loads_plain {rf : Str → Str} {s : Str} {v : Val} (h : loads rf s = some v) : ∀ c ∈ s, Plain c := by
  unfold loads at h
  split at h
  · simp at h
  split at h
  · rename_i w r hp
    split at h
    · rename_i hr
      obtain ⟨q, h1, -, h2, -⟩ := (parse_spec_all rf _).1 _ _ _ hp
      obtain ⟨ws, e1, e2⟩ := skipWs_spec s
      obtain ⟨ws', e3, e4⟩ := skipWs_spec r
      have hr : skipWs r = [] := by simpa using hr
      intro c hc
      rw [e1, h1, e3, hr] at hc
      simp only [List.mem_append, List.not_mem_nil, or_false] at hc
      rcases hc with hc | hc | hc
      · exact Or.inr (e2 c hc)
      · exact h2 c hc
      · exact Or.inr (e4 c hc)
    · simp at h
  · simp at h

/-- Text cut off anywhere is not JSON: of all beginnings of the text of a dict only the whole text can be read. -/
theorem loads_prefix {rf : Str → Str} {ind : Option Nat} {d : List (String × Val)} {s p : Str} {x : Val}
    (hv : Data rf (.dict d)) (h : dumps ind (.dict d) = some s) (hps : p <+: s) (hp : loads rf p = some x) :
    p = s ∧ x = .dict d := by
  obtain ⟨t, rfl⟩ := hps
  have hfull := parse_encode rf ind (.dict d) 0 _ hv h
  have hhead : ∃ q, p ++ t = '{' :: q := by
    cases d with
    | nil => rw [dumps, encode] at h; exact ⟨['}'], (Option.some.inj h).symm⟩
    | cons e d =>
      obtain ⟨k, v⟩ := e
      rw [dumps, encode] at h
      obtain ⟨a, -, h⟩ := Option.bind_eq_some_iff.1 h
      obtain ⟨b, -, h⟩ := Option.bind_eq_some_iff.1 h
      simp only [Option.some.injEq] at h
      exact ⟨_, h.symm⟩
  unfold loads at hp
  split at hp
  · simp at hp
  split at hp
  · rename_i w r hpp
    split at hp
    · rename_i hr
      cases hp
      cases p with
      | nil => simp [skipWs, parse] at hpp
      | cons c p' =>
        obtain ⟨q, hq⟩ := hhead
        simp only [List.cons_append, List.cons.injEq] at hq
        obtain ⟨rfl, -⟩ := hq
        rw [skipWs_cons (by decide)] at hpp
        obtain ⟨q, h1, h2, -, h3⟩ := (parse_spec_all rf _).1 _ _ _ hpp
        have hsd : SelfDelim q := by
          obtain ⟨c, q', rfl⟩ := List.exists_cons_of_ne_nil h2
          simp only [List.cons_append, List.cons.injEq] at h1
          exact ⟨c, q', rfl, by simp [← h1.1]⟩
        have e1 := h3 ('{' :: p' ++ t).length (r ++ t) (by rw [h1]; simp) (Or.inl hsd)
        have e2 := hfull ('{' :: p' ++ t).length [] (Nat.le_refl _) (Or.inl rfl)
        rw [List.append_nil, h1, List.append_assoc] at e2
        rw [h1, List.append_assoc] at e1
        rw [e1] at e2
        simp only [Option.some.injEq, Prod.mk.injEq, List.append_eq_nil_iff] at e2
        obtain ⟨rfl, rfl, rfl⟩ := e2
        simp
    · simp at hp
  · simp at hp

end Verif
