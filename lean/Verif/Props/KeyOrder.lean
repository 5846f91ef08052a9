import Mathlib.Data.List.Perm.Basic
import Verif.Props.UnknownKeys
/-!
# C51: the order of keys in the JSON does not matter
-/

namespace Verif.Props
open Verif

theorem lookup_swap (pre post : List (String × Val)) (a b : String × Val) (h : a.1 ≠ b.1) (j : String) :
    lookupKey (pre ++ a :: b :: post) j = lookupKey (pre ++ b :: a :: post) j := by
  induction pre with
  | nil =>
    obtain ⟨k, x⟩ := a
    obtain ⟨k', y⟩ := b
    simp only [List.nil_append, lookupKey]
    by_cases h1 : k = j <;> by_cases h2 : k' = j
    · exact absurd (h1.trans h2.symm) h
    all_goals simp [h1, h2]
  | cons e rest ih =>
    simp only [List.cons_append, lookupKey, ih]

theorem attrs_swap {afs : Option (List Field)} (pre post apre apost : List (String × Val))
    (a b : String × Val) (h : a.1 ≠ b.1) :
    attrsStep afs (pre ++ ("attrs", .dict (apre ++ a :: b :: apost)) :: post) =
      attrsStep afs (pre ++ ("attrs", .dict (apre ++ b :: a :: apost)) :: post) := by
  refine attrsStep_congr ?_
  rcases lookup_replace_self pre post "attrs" (.dict (apre ++ a :: b :: apost))
    (.dict (apre ++ b :: a :: apost)) with h' | ⟨h1, h2⟩
  · exact .inl h'
  · exact .inr ⟨_, _, h1, h2, fun fs _ j _ => lookup_swap _ _ _ _ h j⟩

theorem parseMark_swap {m m' : Val} (h : Spec.SwapMarkKeys m m') : parseMark m = parseMark m' := by
  cases h with
  | here pre post a b h =>
    exact parseMark_congr (fun c => attrsStep_congr (.inl (lookup_swap _ _ _ _ h _)))
      (by simp [hasKey, lookup_swap pre post a b h]) (lookup_swap _ _ _ _ h _)
  | attrs pre post apre apost a b h =>
    exact parseMark_congr (fun c => attrs_swap _ _ _ _ _ _ h) (hasKey_replace _ _ _ _ _ _)
      (lookup_replace_ne (by decide))

theorem fromDict_swap {w : Bool} {v v' : Val} (h : Spec.SwapNodeKeys v v') :
    parseNode w v = parseNode w v' ∧ ∀ c : NodeCls, c.fromDict w v = c.fromDict w v' := by
  induction h with
  | here pre post a b h =>
    have hl := lookup_swap pre post a b h
    have hfrom : ∀ c : NodeCls, c.fromDict w (.dict (pre ++ a :: b :: post)) =
        c.fromDict w (.dict (pre ++ b :: a :: post)) := fun c =>
      nodeFromDict_congr (attrsStep_congr (.inl (hl _))) (contentStep_congr (hl _))
        (marksStep_congr (hl _)) (fun j _ => by simp [hasKey, hl]) (hl _) (hl _) (hl _)
    exact ⟨parseNode_congr (hl _) hfrom, hfrom⟩
  | attrs pre post apre apost a b h =>
    have hfrom : ∀ c : NodeCls,
        c.fromDict w (.dict (pre ++ ("attrs", .dict (apre ++ a :: b :: apost)) :: post)) =
        c.fromDict w (.dict (pre ++ ("attrs", .dict (apre ++ b :: a :: apost)) :: post)) := fun c =>
      nodeFromDict_congr (attrs_swap _ _ _ _ _ _ h)
        (contentStep_congr (lookup_replace_ne (by decide)))
        (marksStep_congr (lookup_replace_ne (by decide)))
        (fun j _ => hasKey_replace _ _ _ _ _ _) (lookup_replace_ne (by decide))
        (lookup_replace_ne (by decide)) (lookup_replace_ne (by decide))
    exact ⟨parseNode_congr (lookup_replace_ne (by decide)) hfrom, hfrom⟩
  | marks pre post l₁ l₂ m m' hm =>
    have hfrom : ∀ c : NodeCls,
        c.fromDict w (.dict (pre ++ ("marks", .list (l₁ ++ m :: l₂)) :: post)) =
        c.fromDict w (.dict (pre ++ ("marks", .list (l₁ ++ m' :: l₂)) :: post)) := by
      intro c
      refine nodeFromDict_congr (attrsStep_congr (.inl (lookup_replace_ne (by decide))))
        (contentStep_congr (lookup_replace_ne (by decide))) ?_
        (fun j _ => hasKey_replace _ _ _ _ _ _) (lookup_replace_ne (by decide))
        (lookup_replace_ne (by decide)) (lookup_replace_ne (by decide))
      rcases lookup_replace_self pre post "marks" (.list (l₁ ++ m :: l₂))
        (.list (l₁ ++ m' :: l₂)) with h | ⟨h1, h2⟩
      · exact marksStep_congr h
      · unfold marksStep
        rw [h1, h2]
        simp only [parseMarks_replace (parseMark_swap hm)]
    exact ⟨parseNode_congr (lookup_replace_ne (by decide)) hfrom, hfrom⟩
  | content pre post l₁ l₂ v v' _ ih =>
    have hfrom : ∀ c : NodeCls,
        c.fromDict w (.dict (pre ++ ("content", .list (l₁ ++ v :: l₂)) :: post)) =
        c.fromDict w (.dict (pre ++ ("content", .list (l₁ ++ v' :: l₂)) :: post)) := by
      intro c
      refine nodeFromDict_congr (attrsStep_congr (.inl (lookup_replace_ne (by decide))))
        ?_ (marksStep_congr (lookup_replace_ne (by decide)))
        (fun j _ => hasKey_replace _ _ _ _ _ _) (lookup_replace_ne (by decide))
        (lookup_replace_ne (by decide)) (lookup_replace_ne (by decide))
      rcases lookup_replace_self pre post "content" (.list (l₁ ++ v :: l₂))
        (.list (l₁ ++ v' :: l₂)) with h | ⟨h1, h2⟩
      · exact contentStep_congr h
      · rw [contentStep_eq, contentStep_eq, h1, h2]
        simp only [parseNodes_replace ih.1]
    exact ⟨parseNode_congr (lookup_replace_ne (by decide)) hfrom, hfrom⟩

/-- C51: the order of keys, in nodes, attrs and marks at any depth, changes neither the parsed object
(so neither its Markdown nor its dict), nor the error, nor the log. -/
theorem C51_parse_node (w : Bool) (v v' : Val) (h : Spec.SameKeys v v') :
    parseNode w v' = parseNode w v := by
  induction h with
  | same => rfl
  | more _ h2 ih => rw [← ih, (fromDict_swap h2).1]

/-- C51 for `from_dict` of any node class. -/
theorem C51_from_dict (w : Bool) (c : NodeCls) (v v' : Val) (h : Spec.SameKeys v v') :
    c.fromDict w v' = c.fromDict w v := by
  induction h with
  | same => rfl
  | more _ h2 ih => rw [← ih, (fromDict_swap h2).2]

/-- C51 for `parse_mark`. -/
theorem C51_parse_mark (m m' : Val) (h : Spec.SwapMarkKeys m m') : parseMark m' = parseMark m :=
  (parseMark_swap h).symm

theorem sameKeys_trans {u v w : Val} (h1 : Spec.SameKeys u v) (h2 : Spec.SameKeys v w) :
    Spec.SameKeys u w := by
  induction h2 with
  | same => exact h1
  | more _ h ih => exact .more ih h

/-- `Spec.SameKeys` covers every rearrangement: an object with different keys is the same as any
permutation of its entries. -/
theorem C51_permutations (d d' : List (String × Val)) (h : d.Perm d') (hd : (d.map Prod.fst).Nodup) :
    Spec.SameKeys (.dict d) (.dict d') := by
  suffices key : ∀ pre, Spec.SameKeys (.dict (pre ++ d)) (.dict (pre ++ d')) from key []
  induction h with
  | nil => exact fun _ => .same _
  | cons x _ ih =>
    intro pre
    have := ih (List.nodup_cons.mp hd).2 (pre ++ [x])
    simpa using this
  | swap x y l =>
    intro pre
    refine .more (.same _) (.here pre l y x ?_)
    intro h
    simp [h] at hd
  | trans h1 _ ih1 ih2 =>
    intro pre
    exact sameKeys_trans (ih1 hd pre) (ih2 ((h1.map Prod.fst).nodup_iff.mp hd) pre)

theorem sampleKeys : Spec.SameKeys
    (.dict [("type", .str "paragraph".toList), ("content", .list
      [.dict [("type", .str "text".toList), ("text", .str "hi".toList)]])])
    (.dict [("content", .list
      [.dict [("text", .str "hi".toList), ("type", .str "text".toList)]]), ("type", .str "paragraph".toList)]) :=
  .more (.more (.same _) (.content [("type", .str "paragraph".toList)] [] [] [] _ _
    (.here [] [] ("type", .str "text".toList) ("text", .str "hi".toList) (by decide))))
    (.here [] [] ("type", .str "paragraph".toList) (_, _) (by decide))

example := C51_parse_mark
  (.dict [("type", .str "link".toList), ("attrs", .dict [("href", .str "u".toList), ("title", .str "t".toList)])]) _
  (.attrs [("type", .str "link".toList)] [] [] [] ("href", .str "u".toList) ("title", .str "t".toList) (by decide))

example := C51_parse_node true _ _ sampleKeys

example := C51_from_dict true .paragraph _ _ sampleKeys

example := C51_permutations
  [("type", .str "x".toList), ("a", .int 1), ("b", .list [])] [("b", .list []), ("type", .str "x".toList), ("a", .int 1)]
  (by refine ((List.Perm.swap _ _ []).cons _).trans (List.Perm.swap _ _ _) |>.symm.symm) (by decide)

end Verif.Props
