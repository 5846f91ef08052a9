import Verif.Lemmas.SizeNode
/-!
# How long the Markdown of a node can be: the tree
-/

namespace Verif.Size
open Verif Verif.Weight Verif.Spec.Size

variable {env : Env} {K L : Nat}

theorem head_parts (hd : Hd) : 1 ≤ headSize env hd ∧ attrsSize env hd.attrs + 1 ≤ headSize env hd ∧
    marksSize env hd.marks + 1 ≤ headSize env hd ∧ ∀ v, hd.text = some v → valSize env v + 1 + marksSize env hd.marks ≤ headSize env hd := by
  unfold headSize
  refine ⟨by omega, by omega, by omega, ?_⟩
  intro v hv
  rw [hv]
  simp only
  omega

theorem strVal_ok {x : Except PyErr Str} {s : Str} (h : strVal x = .ok (.str s)) : x = .ok s := by
  unfold strVal at h
  split at h
  · cases h
  · cases h; rfl

theorem mul_own {own x : Nat} (h : x ≤ own) : L * x ≤ L * own := Nat.mul_le_mul_left _ h

theorem leaf_bound {own m : Nat} {c : Slot (List Item)} (hK : 10000 + L ≤ K) (ho : 1 ≤ own) (hk : kidCount (kidsOf c) ≤ m)
    {s : Str} (hs : s.length ≤ 290 * own) : Bound K own m c 0 s := leaf_str hK ho hk hs (Nat.le_refl _)

theorem style_pass (he : EnvOk env) {own m : Nat} {c : Slot (List Item)} {marks : Slot (List Mark)} {s0 s : Str} {x y : Nat}
    (hK : 10000 + L ≤ K) (hmk : marksSize env marks + 1 ≤ own)
    (hL : ∀ ms, marks = .val ms → ∀ m ∈ ms, m.cls = .indentation → LevelAtMost L m.attrs)
    (h0 : ws wM s0 + kidCount (kidsOf c) ≤ 300 * m ∧ ws wW s0 + 16 * kidCount (kidsOf c) ≤ K * phi 0 m)
    (t : Str) (ht : addStyle env (.str s0) marks = .ok (.str t)) (hx : x ≤ 10) (hy : y ≤ 60)
    (h1 : ws wM s ≤ ws wM t + x) (h2 : ws wW s ≤ ws wW t + y) : Bound K own m c 0 s := by
  have b := style_bound he hL ht
  have e7 : ∀ x : Str, Val.pyStr env (.str x) = x := fun _ => rfl
  rw [e7, e7] at b
  have hm : L * marksSize env marks ≤ L * own := mul_own (by omega)
  have b2 := b.2
  rw [Nat.add_mul] at b2
  refine pass (s0 := s0) hK (by omega) h0 (by omega) ?_
  rw [Nat.add_mul]
  omega

theorem media_len (he : EnvOk env) {own m : Nat} {c : Slot (List Item)} {attrs : Slot AttrsObj} {marks : Slot (List Mark)}
    {s : Str} (hK : 10000 + L ≤ K) (ho : attrsSize env attrs + marksSize env marks + 1 ≤ own) (hk : kidCount (kidsOf c) ≤ m)
    (hL : ∀ ms, marks = .val ms → ∀ m ∈ ms, m.cls = .indentation → LevelAtMost L m.attrs)
    (h : mediaMd env attrs marks = .ok (.str s)) : Bound K own m c 0 s := by
  have style : ∀ alt target : Str, alt.length ≤ 60 + attrsSize env attrs → target.length ≤ 70 + attrsSize env attrs →
      addStyle env (.str (imageLink alt target)) marks = .ok (.str s) → Bound K own m c 0 s := by
    intro alt target h1 h2 h3
    have b := style_bound he hL h3
    have e7 : ∀ x : Str, Val.pyStr env (.str x) = x := fun _ => rfl
    rw [e7, e7] at b
    have hl : (imageLink alt target).length = alt.length + target.length + 5 := by
      unfold imageLink; simp; omega
    have m1 := M_le (imageLink alt target)
    have w1 := W_le (imageLink alt target)
    have hm : L * marksSize env marks ≤ L * own := mul_own (by omega)
    have b2 := b.2
    rw [Nat.add_mul] at b2
    refine finish_leaf (L := L) hK (by omega) hk (by omega) ?_
    rw [Nat.add_mul]
    omega
  unfold mediaMd at h
  split at h
  · cases h
  · split at h
    · cases h
    · rename_i url hurl
      split at h
      · cases h
      · rename_i alt halt
        split at h
        · cases h
        · rename_i id hid
          have halt' : alt.length ≤ 60 + attrsSize env attrs := by
            unfold mediaAlt at halt
            split at halt
            · cases halt
            · rename_i v hv
              simp only [Except.ok.injEq] at halt
              subst halt
              have := attr_len he hv
              cases hs : v.asStr? with
              | none =>
                rw [Option.getD_none, show "media".toList.length = 5 by decide]; omega
              | some x => rw [str_len hs] at this; exact this
          split at h
          · refine style _ _ halt' ?_ h
            have := attr_len he hurl
            cases hs : url.asStr? with
            | none => simp
            | some x => rw [str_len hs] at this; simp only [Option.getD_some]; omega
          · split at h
            · refine style _ _ halt' ?_ h
              have := attr_len he hid
              rw [List.length_append, show "media:".toList.length = 6 by decide]
              omega
            · split at h
              · cases h
                refine leaf_bound (L := L) hK (by omega) hk ?_
                rw [show "[media]".toList.length = 7 by decide]
                omega
              · cases h

/-- The statement for one node. -/
theorem node_bound (he : EnvOk env) (hK : 10000 + L ≤ K) {hd : Hd} {c : Slot (List Item)} {m : Nat} (hL : HeadLevels L hd)
    (hc : ContentB K c m) (hk : kidCount (kidsOf c) ≤ m) {lv : Option Int} {ig : Bool} {s : Str}
    (h : dispatch env hd c lv ig = .ok (.str s)) : Bound K (headSize env hd) m c (lvl lv) s := by
  obtain ⟨ho, ha, hm, ht⟩ := head_parts (env := env) hd
  have hK' : 10000 ≤ K := by omega
  unfold dispatch at h
  split at h
  · cases h
  · rename_i hlv
    have e7 : ∀ x : Str, Val.pyStr env (.str x) = x := fun _ => rfl
    have lv0 : hd.cls.takesLevel = false → lvl lv = 0 := by
      intro ht
      cases lv with
      | none => rfl
      | some _ => rw [ht] at hlv; simp at hlv
    have same : ∀ {t : Str}, (ws wM t + kidCount (kidsOf c) ≤ 300 * m ∧ ws wW t + 16 * kidCount (kidsOf c) ≤ K * phi 0 m) →
        Bound K (headSize env hd) m c 0 t := fun h0 => pass (L := L) hK ho h0 (by omega) (by omega)
    split at h <;> rename_i hcls
    case h_5 => exact bullet_node hK ho hc (strVal_ok h)
    case h_6 => exact ordered_node he hK ho hc (by omega) (strVal_ok h)
    case h_9 => exact task_node hK ho hc (strVal_ok h)
    all_goals rw [lv0 (by rw [hcls]; rfl)]
    -- doc
    · exact same (doc_sum hK' hc (strVal_ok h))
    -- text
    · unfold textMd at h
      split at h
      · cases h
      · rename_i v hv
        have b := style_bound he hL.2 h
        rw [e7] at b
        have h1 := val_len he v
        have h2 := ht v hv
        have m1 := M_le (v.pyStr env)
        have w1 := W_le (v.pyStr env)
        have hm : L * marksSize env hd.marks ≤ L * headSize env hd := mul_own (by omega)
        have b2 := b.2
        rw [Nat.add_mul] at b2
        refine finish_leaf (L := L) hK ho hk (by omega) ?_
        rw [Nat.add_mul]
        omega
    -- rule
    · cases h
      refine leaf_bound (L := L) hK ho hk ?_
      rw [show "\n\n---\n\n".toList.length = 7 by decide]; omega
    -- listItem
    · exact same (content_sum hK' hc (strVal_ok h) (by decide) (by decide))
    -- paragraph
    · have h := strVal_ok h
      unfold paragraphMd at h
      split at h
      · cases h
      · rename_i s0 hs0
        split at h
        · cases h
        · rename_i t hst
          cases h
          refine style_pass he (x := 1) (y := 4) hK hm hL.2 (content_sum hK' hc hs0 (by decide) (by decide)) t hst (by omega)
            (by omega) ?_ ?_
          · rw [ws_append, show ws wM [Str.nl] = 1 by decide]
          · rw [ws_append, show ws wW [Str.nl] = 4 by decide]
        · cases h
    -- taskItem
    · exact same (content_sum hK' hc (strVal_ok h) (by decide) (by decide))
    -- decisionItem, decisionList
    · exact decisionItem_node hK ho hc (strVal_ok h)
    · exact decisionList_node hK ho hc (strVal_ok h)
    -- emoji
    · have h := strVal_ok h
      unfold emojiMd at h
      split at h
      · cases h
      · rename_i v hv
        have h1 := attr_len he hv
        split at h
        · rename_i x hx
          cases h
          rw [str_len hx] at h1
          exact leaf_bound (L := L) hK ho hk (by omega)
        · split at h
          · cases h
          · rename_i n hn
            have h2 := attr_len he hn
            split at h
            · rename_i x hx
              cases h
              rw [str_len hx] at h2
              exact leaf_bound (L := L) hK ho hk (by omega)
            · cases h
    -- hardBreak
    · cases h
      refine leaf_bound (L := L) hK ho hk ?_
      rw [show "  \n".toList.length = 3 by decide]; omega
    -- date
    · split at h
      · cases h
      · unfold Date.render at h
        split at h
        · cases h
        · split at h
          · cases h
          · rename_i x hx
            cases h
            have := date_len hx
            exact leaf_bound (L := L) hK ho hk (by omega)
    -- mention
    · have h := strVal_ok h
      unfold mentionMd at h
      split at h
      · cases h
      · rename_i v hv
        have h1 := attr_len he hv
        cases h
        refine leaf_bound (L := L) hK ho hk ?_
        cases hx : v.asStr? with
        | none => rw [Option.getD_none, show "@Unknown".toList.length = 8 by decide]; omega
        | some x => rw [str_len hx] at h1; rw [Option.getD_some]; omega
    -- status
    · have h := strVal_ok h
      unfold statusMd at h
      split at h
      · cases h
      · rename_i v hv
        have h1 := attr_len he hv
        cases h
        refine leaf_bound (L := L) hK ho hk ?_
        simp only [List.length_append, List.length_cons, List.length_nil]
        omega
    -- heading
    · have h := strVal_ok h
      unfold headingMd at h
      split at h
      · cases h
      · rename_i level hl
        split at h
        · cases h
        · rename_i n hn
          split at h
          · cases h
          · rename_i s0 hs0
            cases h
            have hle : n ≤ L := by
              unfold getAttr at hl
              split at hl
              · rename_i o ho
                split at hl
                · rename_i w hw
                  cases hl
                  exact hL.1 hcls o level n ho hw hn
                · cases hl
              · cases hl
            have hr : ws wM (Str.rep ['#'] n) = 0 ∧ ws wW (Str.rep ['#'] n) = n.toNat := by
              unfold Str.rep
              rw [ws_rep, ws_rep, show ws wM ['#'] = 0 by decide, show ws wW ['#'] = 1 by decide]
              omega
            have hLo : L ≤ L * headSize env hd := Nat.le_mul_of_pos_right _ ho
            have e1 : ws wM ['\n', '\n'] = 2 := by decide
            have e2 : ws wW ['\n', '\n'] = 8 := by decide
            have e3 : ws wM [' '] = 0 := by decide
            have e4 : ws wW [' '] = 6 := by decide
            refine pass (L := L) hK ho (content_sum hK' hc hs0 (by decide) (by decide)) ?_ ?_
            · rw [ws_append, ws_append, ws_append, ws_append]; omega
            · rw [ws_append, ws_append, ws_append, ws_append, Nat.add_mul]; omega
    -- codeBlock
    · have h := strVal_ok h
      unfold codeBlockMd at h
      split at h
      · cases h
      · rename_i s0 hs0
        split at h
        · cases h
        · rename_i lang hlang
          cases h
          have hl : lang.length ≤ 60 + attrsSize env hd.attrs := by
            unfold codeLang at hlang
            split at hlang
            · cases hlang; simp
            · split at hlang
              · cases hlang
              · rename_i v hv
                have h1 := attr_len he hv
                split at hlang
                · cases hlang; simp
                · rename_i x hx
                  rw [str_len hx] at h1
                  split at hlang
                  · cases hlang; simp
                  · cases hlang; exact h1
          have m1 := M_le lang
          have w1 := W_le lang
          have e1 : ws wM ['`', '`', '`'] = 0 := by decide
          have e2 : ws wW ['`', '`', '`'] = 3 := by decide
          have e3 : ws wM ['\n'] = 1 := by decide
          have e4 : ws wW ['\n'] = 4 := by decide
          have e5 : ws wM ['\n', '`', '`', '`'] = 1 := by decide
          have e6 : ws wW ['\n', '`', '`', '`'] = 7 := by decide
          refine pass (L := L) hK ho (content_sum hK' hc hs0 (by decide) (by decide)) ?_ ?_
          · rw [ws_append, ws_append, ws_append, ws_append]; omega
          · rw [ws_append, ws_append, ws_append, ws_append, Nat.add_mul]; omega
    -- inlineCard
    · have h := strVal_ok h
      unfold inlineCardMd at h
      split at h
      · cases h
      · rename_i v hv
        have h1 := attr_len he hv
        split at h
        · rename_i x hx
          rw [str_len hx] at h1
          cases h
          refine leaf_bound (L := L) hK ho hk ?_
          simp only [selfLink, List.length_append, List.length_cons, List.length_nil]
          omega
        · cases h
    -- blockCard
    · have h := strVal_ok h
      unfold blockCardMd at h
      split at h
      · cases h
      · rename_i v hv
        have h1 := attr_len he hv
        split at h
        · rename_i x hx
          rw [str_len hx] at h1
          cases h
          refine leaf_bound (L := L) hK ho hk ?_
          simp only [selfLink, List.length_append, List.length_cons, List.length_nil]
          omega
        · cases h
    -- media
    · refine media_len he hK ?_ hk hL.2 h
      unfold headSize
      omega
    -- mediaGroup
    · cases h; exact leaf_bound (L := L) hK ho hk (by simp)
    -- mediaSingle
    · exact same (content_sum hK' hc (strVal_ok h) (by decide) (by decide))
    -- embedCard
    · have h := strVal_ok h
      unfold embedCardMd at h
      split at h
      · cases h
      · rename_i v hv
        have h1 := attr_len he hv
        cases h
        refine leaf_bound (L := L) hK ho hk ?_
        simp only [selfLink, List.length_append, List.length_cons, List.length_nil]
        omega
    -- extension
    · have h := strVal_ok h
      unfold extensionMd at h
      split at h
      · cases h
      · rename_i key hkey
        split at h
        · cases h
        · rename_i ty hty
          split at h
          · cases h
          · rename_i v hv
            have h1 := attr_len he hkey
            have h2 := attr_len he hty
            have h3 := attr_len he hv
            split at h
            · rename_i x y hx
              cases h
              rw [str_len hx] at h3
              refine leaf_bound (L := L) hK ho hk ?_
              rw [List.length_append, List.length_append, List.length_append, show "[Extension: ".toList.length = 12 by decide]
              simp only [List.length_cons, List.length_nil] at h3 ⊢
              omega
            · cases h
              refine leaf_bound (L := L) hK ho hk ?_
              rw [List.length_append, List.length_append, List.length_append, List.length_append,
                show "[Extension: ".toList.length = 12 by decide]
              simp only [List.length_cons, List.length_nil]
              omega
    -- caption, mediaInline
    · cases h; exact leaf_bound (L := L) hK ho hk (by simp)
    · cases h; exact leaf_bound (L := L) hK ho hk (by simp)
    -- panel, blockquote
    · exact panel_node he hK ho hc (by omega) (strVal_ok h)
    · exact quote_node hK ho hc (strVal_ok h)
    -- expand
    · unfold expandMd at h
      split at h
      · cases h
      · rename_i s0 hs0
        exact style_pass he (x := 0) (y := 0) hK hm hL.2 (doc_sum hK' hc hs0) s h (by omega) (by omega) (by omega) (by omega)
    -- nestedExpand
    · exact same (doc_sum hK' hc (strVal_ok h))
    -- cells, row, table
    · exact cell_node hK ho hc (strVal_ok h)
    · exact cell_node hK ho hc (strVal_ok h)
    · exact row_node hK ho hc (strVal_ok h)
    · exact table_node hK ho hc (strVal_ok h)

/-! ## The tree -/

theorem nodeSize_pos (n : Node) : 1 ≤ nodeSize env n := by
  cases n with
  | mk hd c =>
    have := (head_parts (env := env) hd).1
    simp only [nodeSize]
    omega

/-- The kids of a node whose content is bounded. -/
theorem kids_of {c : Slot (List Item)} {m : Nat} (hc : ContentB K c m) {ks : List Kid}
    (h : iterSlot alienKid (kidsOf c) = .ok ks) : ∃ gs, List.Forall₂ (KidB K) ks gs ∧ gs.sum ≤ m := by
  cases c with
  | absent => cases h
  | opt => cases h
  | raw v =>
    simp only [kidsOf, iterSlot] at h
    split at h
    · cases h
    · rename_i n hn
      cases h
      exact ⟨List.replicate n 0, forall2_replicate (kidB_alien K) n, by rw [sum_replicate_zero]; omega⟩
  | val l =>
    cases h
    obtain ⟨ns, hf, hm, hz⟩ := hc l rfl
    refine ⟨ns, ?_, hm⟩
    clear hm hc hz
    induction hf with
    | nil => exact .nil
    | cons h _ ih => exact .cons h.kid ih

theorem forall2_length {α β : Type} {R : α → β → Prop} {as : List α} {bs : List β} (h : List.Forall₂ R as bs) :
    as.length = bs.length := by
  induction h with
  | nil => rfl
  | cons _ _ ih => rw [List.length_cons, List.length_cons, ih]

mutual
theorem item_bound (he : EnvOk env) (hK : 10000 + L ≤ K) : ∀ n : Node, Levels L n → ItemB K (n.item env) (nodeSize env n)
  | .mk hd c, hL => by
    have hc := slot_bound he hK c hL.2
    refine ⟨fun _ => nodeSize_pos _, ?_, ?_⟩
    · intro lv ig s h
      exact node_bound he hK hL.1 hc.1 hc.2 h
    · intro _ ks hks
      obtain ⟨gs, hf, hg⟩ := kids_of hc.1 (ks := ks) hks
      refine ⟨gs, hf, ?_⟩
      have := (head_parts (env := env) hd).1
      simp only [nodeSize]
      omega

theorem slot_bound (he : EnvOk env) (hK : 10000 + L ≤ K) : ∀ c : Slot (List Node), SlotLevels L c →
    ContentB K (slotItems env c) (slotSize env c) ∧ kidCount (kidsOf (slotItems env c)) ≤ slotSize env c
  | .absent, _ => ⟨fun items h => (by cases h), Nat.zero_le _⟩
  | .opt, _ => ⟨fun items h => (by cases h), Nat.zero_le _⟩
  | .raw v, _ => by
    refine ⟨fun items h => ?_, Nat.zero_le _⟩
    simp only [slotItems, iterSlot] at h
    split at h
    · cases h
    · rename_i n hn
      cases h
      exact ⟨List.replicate n 0, forall2_replicate (itemB_alien K) n, by rw [sum_replicate_zero]; omega, .inl rfl⟩
  | .val l, hL => by
    obtain ⟨h1, h2⟩ := list_bound he hK l hL
    have hlen : (listItems env l).length = (l.map (nodeSize env)).length := forall2_length h1
    have hpos : ∀ n ∈ l.map (nodeSize env), 1 ≤ n := by
      intro n hn
      obtain ⟨x, _, rfl⟩ := List.mem_map.mp hn
      exact nodeSize_pos x
    refine ⟨fun items h => ?_, ?_⟩
    · cases h
      refine ⟨l.map (nodeSize env), h1, Nat.le_of_eq h2, .inr ⟨?_, hpos⟩⟩
      simp only [slotItems, kidsOf, kidCount, List.length_map] at hlen ⊢
      exact hlen
    · simp only [slotItems, kidsOf, kidCount, slotSize, List.length_map]
      rw [← h2, hlen]
      revert hpos
      generalize l.map (nodeSize env) = ns
      intro hpos
      induction ns with
      | nil => simp
      | cons n ns ih =>
        have := hpos n List.mem_cons_self
        have := ih fun x hx => hpos x (List.mem_cons_of_mem _ hx)
        simp only [List.length_cons, List.sum_cons]
        omega

theorem list_bound (he : EnvOk env) (hK : 10000 + L ≤ K) : ∀ l : List Node, ListLevels L l →
    List.Forall₂ (ItemB K) (listItems env l) (l.map (nodeSize env)) ∧ (l.map (nodeSize env)).sum = listSize env l
  | [], _ => ⟨.nil, rfl⟩
  | n :: ns, hL => by
    obtain ⟨h1, h2⟩ := list_bound he hK ns hL.2
    refine ⟨.cons (item_bound he hK n hL.1) h1, ?_⟩
    rw [List.map_cons, List.sum_cons, h2]
    rfl
end

end Verif.Size
