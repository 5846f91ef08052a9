import Verif.Lemmas.RoundTrip
import Verif.Spec.Serial
/-!
# C04: object → dict → object
-/

namespace Verif.Props
open Verif

theorem within_trans {a b c : Node} (h1 : Spec.Within a b) (h2 : Spec.Within b c) :
    Spec.Within a c := by
  induction h2 with
  | self => exact h1
  | child _ hc hm ih => exact .child ih hc hm

theorem converted_child {n x : Node} {l : List Node} (h : Spec.Converted n)
    (hc : n.content = .val l) (hx : x ∈ l) : Spec.Converted x :=
  fun y hy => h y (within_trans (.child .self hc hx) hy)

/-- Children of a parsed node come from registered children of its JSON content. -/
theorem fromDict_child {w : Bool} {c : NodeCls} {d : List (String × Val)} {n : Node}
    (h : (c.fromDict w (.dict d)).out = .ok n) {ns : List Node} (hc : n.content = .val ns) :
    ∃ l, lookupKey d "content" = some (.list l) ∧ (parseNodes w l).out = .ok ns := by
  obtain ⟨a, k, m, _, hk, _, _, rfl⟩ := nodeFromDict_ok h
  simp only [Node.content] at hc
  rw [slotOf_eq c _ (.inr (.inl rfl))] at hc
  split at hc
  · rw [contentStep_eq] at hk
    cases hl : lookupKey d "content" with
    | none => rw [hl] at hk; simp [Res.ok] at hk; subst hk; simp at hc
    | some v =>
      rw [hl] at hk
      cases v with
      | list l =>
        simp only [Res.map_out] at hk
        cases hp : (parseNodes w l).out with
        | error e => rw [hp] at hk; simp at hk
        | ok ms =>
          rw [hp] at hk
          simp at hk
          subst hk
          simp at hc
          subst hc
          exact ⟨l, rfl, hp⟩
      | _ => simp [Res.ok] at hk; subst hk; simp [rawSlot] at hc
  · simp at hc

theorem parse_cls {w : Bool} {c : NodeCls} {v : Val} {n : Node}
    (h : (c.fromDict w v).out = .ok n) : n.cls = c := by
  cases v with
  | dict d =>
    obtain ⟨a, k, m, _, _, _, _, rfl⟩ := nodeFromDict_ok h
    rfl
  | _ => simp [NodeCls.fromDict, Res.err] at h

/-- C04: every object obtained from plain JSON by `from_dict` of any class, with list-valued (or
absent) content and marks at every depth, serialises, and `from_dict` of the same class on the result
gives back the same object and logs nothing (with either setting of the warning flag). -/
theorem C04_from_dict (w w' : Bool) (c : NodeCls) (v : Val) (n : Node) (hv : Spec.plain v = true)
    (h : (c.fromDict w v).out = .ok n) (hconv : Spec.Converted n) :
    ∃ d', n.toDict = .ok d' ∧ c.fromDict w' d' = ⟨[], .ok n⟩ ∧ Spec.typeOf d' = some n.hd.type := by
  rw [C08_flag_irrelevant_from_dict w w'] at h
  revert c n
  induction v using Val.contentInduction with
  | h v ih =>
    intro c n h hconv
    cases v with
    | dict d =>
      have hd : Spec.plainDict d = true := by simpa [Spec.plain] using hv
      obtain ⟨d', h1, h2, h3⟩ := node_roundtrip_step w' c hd h (hconv n .self).1 (hconv n .self).2
        (by
          intro ns hns
          obtain ⟨l, hl, hp⟩ := fromDict_child h hns
          have hpl : ∀ x ∈ l, Spec.plain x = true := by
            have := plain_lookup hd hl
            rwa [Spec.plain, plainList_iff] at this
          have hall : ∀ x ∈ ns, ∃ v, x.toDict = .ok v ∧ parseNode w' v = ⟨[], .ok x⟩ := by
            intro x hx
            obtain ⟨u, hu, hpu⟩ := parseNodes_mem hp hx
            obtain ⟨du, t, rfl, ht, hr, hf⟩ := parseNode_ok hpu
            obtain ⟨d', h1, h2, h3⟩ := ih d l _ rfl hl hu (hpl _ hu) x.cls x hf
              (converted_child hconv hns hx)
            refine ⟨d', h1, ?_⟩
            have htt : x.hd.type = t := by
              obtain ⟨a, k, m, _, _, _, _, heq⟩ := nodeFromDict_ok hf
              rw [heq]
              simp only [Node.hd]
              rw [nodeFields_type, ht]
              rfl
            cases d' with
            | dict dd =>
              simp only [Spec.typeOf] at h3
              rw [parseNode_dict, h3, htt]
              simp only [hr]
              exact h2
            | _ => simp [Spec.typeOf] at h3
          clear hns hp
          induction ns with
          | nil => exact ⟨[], rfl, rfl⟩
          | cons x xs ih2 =>
            obtain ⟨v, hv1, hv2⟩ := hall x (by simp)
            obtain ⟨vs, hvs1, hvs2⟩ := ih2 fun y hy => hall y (List.mem_cons_of_mem _ hy)
            refine ⟨v :: vs, by simp [listToDict, hv1, hvs1], ?_⟩
            simp [parseNodes, hv2, hvs2, Res.skipUnimplemented, Res.bind, Res.map, Res.ok])
      exact ⟨.dict d', h1, h2, h3⟩
    | _ => simp [NodeCls.fromDict, Res.err] at h

/-- C04 for `parse_node`. -/
theorem C04_parse_node (w w' : Bool) (v : Val) (n : Node) (hv : Spec.plain v = true)
    (h : (parseNode w v).out = .ok n) (hconv : Spec.Converted n) :
    ∃ d', n.toDict = .ok d' ∧ parseNode w' d' = ⟨[], .ok n⟩ ∧ n.cls.fromDict w' d' = ⟨[], .ok n⟩ := by
  obtain ⟨d, t, rfl, ht, hr, hf⟩ := parseNode_ok h
  obtain ⟨d', h1, h2, h3⟩ := C04_from_dict w w' n.cls _ n hv hf hconv
  refine ⟨d', h1, ?_, h2⟩
  have htt : n.hd.type = t := by
    obtain ⟨a, k, m, _, _, _, _, heq⟩ := nodeFromDict_ok hf
    rw [heq]
    simp only [Node.hd]
    rw [nodeFields_type, ht]
    rfl
  cases d' with
  | dict dd =>
    simp only [Spec.typeOf] at h3
    rw [parseNode_dict, h3, htt]
    simp only [hr]
    exact h2
  | _ => simp [Spec.typeOf] at h3

/-- C04 for marks: `parse_mark(m.to_dict()) == m`, and the same for the class's `from_dict`. -/
theorem C04_mark (v : Val) (m : Mark) (hv : Spec.plain v = true) (h : parseMark v = .ok m) :
    parseMark m.toDict = .ok m ∧ m.cls.fromDict m.toDict = .ok m := by
  refine ⟨parseMark_roundtrip hv h, ?_⟩
  obtain ⟨d, t, rfl, ht, hr, hm⟩ := parseMark_ok h
  obtain ⟨d', h1, h2, _⟩ := mark_roundtrip (by simpa [Spec.plain] using hv) hm
  rw [h1]
  exact h2

/-- A document with nested content, attrs, marks, an unsupported child and an unknown key. -/
def rtExample : Val := .dict
  [("type", .str "doc".toList), ("x", .int 1), ("content", .list
    [.dict [("type", .str "heading".toList), ("attrs", .dict [("level", .int 2)]),
       ("content", .list [.dict [("type", .str "text".toList), ("text", .str "T".toList),
         ("marks", .list [.dict [("type", .str "link".toList),
           ("attrs", .dict [("href", .str "u".toList)])]])]])],
     .dict [("type", .str "layoutSection".toList)],
     .dict [("type", .str "rule".toList)]])]

mutual
/-- Executable form of `Spec.Converted`, for the examples. -/
def noRaw : Node → Bool
  | .mk hd c => (match hd.marks with | .raw _ => false | _ => true) && noRawSlot c

def noRawSlot : Slot (List Node) → Bool
  | .raw _ => false
  | .val l => noRawList l
  | _ => true

def noRawList : List Node → Bool
  | [] => true
  | n :: ns => noRaw n && noRawList ns
end

theorem noRawList_mem {l : List Node} (h : noRawList l = true) {n : Node} (hn : n ∈ l) :
    noRaw n = true := by
  induction l with
  | nil => simp at hn
  | cons x xs ih =>
    simp only [noRawList, Bool.and_eq_true] at h
    rcases List.mem_cons.mp hn with rfl | hn
    · exact h.1
    · exact ih h.2 hn

theorem converted_of_noRaw {n : Node} (h : noRaw n = true) : Spec.Converted n := by
  intro x hx
  have hx' : noRaw x = true := by
    induction hx with
    | self => exact h
    | @child y z l _ hc hm ih =>
      obtain ⟨hd, c⟩ := y
      simp only [Node.content] at hc
      subst hc
      simp only [noRaw, noRawSlot, Bool.and_eq_true] at ih
      exact noRawList_mem ih.2 hm
  obtain ⟨hd, c⟩ := x
  simp only [noRaw, Bool.and_eq_true] at hx'
  constructor
  · rintro v rfl
    simp [noRawSlot] at hx'
  · intro v hv
    simp only [Node.hd] at hv
    rw [hv] at hx'
    simp at hx'

/-- The example meets the hypotheses of C04. -/
example : ∃ n, Spec.plain rtExample = true ∧ (parseNode true rtExample).out = .ok n ∧
    Spec.Converted n :=
  ⟨_, rfl, rfl, converted_of_noRaw rfl⟩

example : True := by
  obtain ⟨n, hn, hc⟩ : ∃ n, (parseNode true rtExample).out = .ok n ∧ Spec.Converted n := ⟨_, rfl, converted_of_noRaw rfl⟩
  have := C04_parse_node true false rtExample n rfl hn hc
  trivial

example : True := by
  obtain ⟨n, hn, hc⟩ : ∃ n, (NodeCls.doc.fromDict true rtExample).out = .ok n ∧ Spec.Converted n :=
    ⟨_, rfl, converted_of_noRaw rfl⟩
  have := C04_from_dict true false .doc rtExample n rfl hn hc
  trivial

example : True := by
  obtain ⟨m, hm⟩ : ∃ m, parseMark (.dict [("attrs", .dict [("href", .str "u".toList)]), ("type", .str "link".toList)]) = .ok m :=
    ⟨_, rfl⟩
  have := C04_mark _ m rfl hm
  trivial

end Verif.Props
