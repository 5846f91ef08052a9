import Verif.Lemmas.Samples
import Verif.Model.Message
import Verif.Spec.Message
import Verif.Props.Parsing
/-!
# C52: the log names what was skipped
-/

namespace Verif.Props
open Verif

theorem node_pre : capitalize "node".toList ++ " type '".toList = "Node type '".toList := by decide

theorem mark_pre : capitalize "mark".toList ++ " type '".toList = "Mark type '".toList := by decide

theorem notice_tail : unimplementedTail = Spec.noticeTail := by
  unfold unimplementedTail Spec.noticeTail
  exact congrArg String.toList (by simp)

theorem warn_text (env : Env) (s : Spec.Skipped) : s.warn.text env = s.notice := by
  cases s with
  | node t =>
    have h : (Spec.Skipped.node t).warn.text env =
        capitalize "node".toList ++ " type '".toList ++ t ++ unimplementedTail := rfl
    rw [h, node_pre, notice_tail]
    unfold Spec.Skipped.notice Spec.nodeNotice
    with_reducible rfl
  | mark t =>
    have h : (Spec.Skipped.mark t).warn.text env =
        capitalize "mark".toList ++ " type '".toList ++ t ++ unimplementedTail := rfl
    rw [h, mark_pre, notice_tail]
    unfold Spec.Skipped.notice Spec.markNotice
    with_reducible rfl

theorem cancel_both (p q a b : Str) (h : p ++ a ++ q = p ++ b ++ q) : a = b :=
  List.append_cancel_left (List.append_cancel_right h)

theorem notice_ne (x y : Str) : Spec.nodeNotice x ≠ Spec.markNotice y := by
  intro h
  have key : ∀ a b q : Str, "Node type '".toList ++ a ++ q ≠ "Mark type '".toList ++ b ++ q := by
    intro a b q h
    rw [show "Node type '".toList = 'N' :: "ode type '".toList by decide,
      show "Mark type '".toList = 'M' :: "ark type '".toList by decide,
      List.cons_append, List.cons_append, List.cons_append, List.cons_append] at h
    exact absurd (List.cons.inj h).1 (by decide)
  unfold Spec.nodeNotice Spec.markNotice at h
  exact key _ _ _ h

/-- C52: the notice determines whether a node or a mark was skipped, and its type. -/
theorem C52_injective (a b : Spec.Skipped) (h : a.notice = b.notice) : a = b := by
  cases a with
  | node x =>
    cases b with
    | node y =>
      unfold Spec.Skipped.notice Spec.nodeNotice at h
      rw [cancel_both _ _ _ _ h]
    | mark y => exact absurd h (notice_ne x y)
  | mark x =>
    cases b with
    | node y => exact absurd h.symm (notice_ne y x)
    | mark y =>
      unfold Spec.Skipped.notice Spec.markNotice at h
      rw [cancel_both _ _ _ _ h]

/-- C52: when all skipped elements have a string as type, a successful parse with
WARN_UNIMPLEMENTED_TYPE on logs exactly one notice per skipped element, in document order. -/
theorem C52_logged (env : Env) (v : Val) (n : Node) (h : (parseNode true v).out = .ok n)
    (skipped : List Spec.Skipped) (hs : Spec.warnings v = skipped.map Spec.Skipped.warn) :
    (parseNode true v).logged env = skipped.map Spec.Skipped.notice := by
  unfold Res.logged
  rw [C08_warnings v n h, hs, List.map_map]
  exact List.map_congr_left fun s _ => warn_text env s

/-- C52: so two documents that log the same text skip the same elements in the same order. -/
theorem C52_log_determines (env : Env) (v v' : Val) (n n' : Node)
    (h : (parseNode true v).out = .ok n) (h' : (parseNode true v').out = .ok n')
    (s s' : List Spec.Skipped) (hs : Spec.warnings v = s.map Spec.Skipped.warn)
    (hs' : Spec.warnings v' = s'.map Spec.Skipped.warn)
    (he : (parseNode true v).logged env = (parseNode true v').logged env) : s = s' := by
  rw [C52_logged env v n h s hs, C52_logged env v' n' h' s' hs'] at he
  exact List.map_inj_right (fun a b h => C52_injective a b h) |>.mp he

/-- C52: an unsupported root raises an error whose text is the notice for its type. -/
theorem C52_root (env : Env) (w : Bool) (d : List (String × Val)) (t : Str)
    (ht : lookupKey d "type" = some (.str t))
    (hu : ∀ name c, (name, c) ∈ Spec.nodeTypes → t ≠ name.toList) :
    ∃ ty cat, (parseNode w (.dict d)).out = .error (.unimplementedType ty cat) ∧
      unimplementedText env ty cat = Spec.nodeNotice t := by
  refine ⟨.str t, "node", (C10_unimplemented_iff w _ _ _).mpr ⟨ht, by simp, ?_, rfl⟩, warn_text env (.node t)⟩
  intro name c hm h
  exact hu name c hm (Val.str.inj h)

/-- C52: the same for marks. -/
theorem C52_mark (env : Env) (d : List (String × Val)) (t : Str)
    (ht : lookupKey d "type" = some (.str t))
    (hu : ∀ name c, (name, c) ∈ Spec.markTypes → t ≠ name.toList) :
    ∃ ty cat, parseMark (.dict d) = .error (.unimplementedType ty cat) ∧
      unimplementedText env ty cat = Spec.markNotice t := by
  refine ⟨.str t, "mark", (C10_mark_unimplemented_iff _ _ _).mpr ⟨ht, by simp, ?_, rfl⟩, warn_text env (.mark t)⟩
  intro name c hm h
  exact hu name c hm (Val.str.inj h)

/-- A document with a skipped node and a skipped mark. -/
def noticeDoc : Val :=
  .dict [("type", .str "doc".toList), ("content", .list
    [.dict [("type", .str "bodiedExtension".toList)],
     .dict [("type", .str "paragraph".toList), ("content", .list
       [.dict [("type", .str "text".toList), ("text", .str "a".toList),
         ("marks", .list [.dict [("type", .str "blink".toList)]])]])]])]

example : ∃ n, (parseNode true noticeDoc).out = .ok n := ⟨_, rfl⟩
example : Spec.warnings noticeDoc =
    [Spec.Skipped.node "bodiedExtension".toList, .mark "blink".toList].map Spec.Skipped.warn := rfl
example (env : Env) : (parseNode true noticeDoc).logged env =
    [Spec.nodeNotice "bodiedExtension".toList, Spec.markNotice "blink".toList] :=
  C52_logged env noticeDoc _ rfl [.node "bodiedExtension".toList, .mark "blink".toList] rfl

example := C52_injective (.node "a".toList) (.node "a".toList) rfl

example := C52_log_determines Samples.env noticeDoc noticeDoc _ _ rfl rfl
  [.node "bodiedExtension".toList, .mark "blink".toList] [.node "bodiedExtension".toList, .mark "blink".toList] rfl rfl rfl

example := C52_root Samples.env true [("type", .str "blink".toList)] "blink".toList rfl
  (fun name c h => (by decide : ∀ e ∈ Spec.nodeTypes, "blink".toList ≠ e.1.toList) (name, c) h)

example := C52_mark Samples.env [("type", .str "blink".toList)] "blink".toList rfl
  (fun name c h => (by decide : ∀ e ∈ Spec.markTypes, "blink".toList ≠ e.1.toList) (name, c) h)

end Verif.Props
