import Verif.Model.Markdown
import Verif.Model.FromDict
/-!
# Conversions that are interrupted by an exception

`to_markdown` calls itself for every child. When the interpreter's stack is full a call raises RecursionError (sys.getrecursionlimit()
frames; how many frames a call needs depends on the class, the Python version and the caller); a call may also raise MemoryError.
Both are subclasses of Exception, which the loops with `ignore_error` catch (markdown_helpers.py:88-99, 141-158, node_bullet_list.py:80-95,
node_ordered_list.py:102-117, node_task_list.py:95-122, node_decision_list.py:51-60, node_table.py:77-87).

Here the calls of `to_markdown` for some of the nodes raise `e`; which ones is given by `cut`, as a function of the node's place in the
tree (the indices of the children on the way to it). An exception anywhere between the entry of a node's `to_markdown` and the entry
of its children's is the node's own.
-/

namespace Verif

mutual
/-- A node as its parent sees it (`Node.item`), where `to_markdown` raises `e` at the places `cut`
(mark_or_node.py:170-196, nodes/*.py:to_markdown). -/
def Node.cutItem (env : Env) (e : PyErr) (cut : List Nat → Bool) (place : List Nat) : Node → Item
  | .mk hd content =>
    { isNode := true
      type := hd.type
      render := fun level ig =>
        if cut place then .error e else dispatch env hd (cutSlot env e cut place content) level ig
      attrs := hd.attrs
      content := kidsOf (cutSlot env e cut place content) }

def cutSlot (env : Env) (e : PyErr) (cut : List Nat → Bool) (place : List Nat) : Slot (List Node) → Slot (List Item)
  | .absent => .absent
  | .opt => .opt
  | .raw v => .raw v
  | .val l => .val (cutList env e cut place 0 l)

def cutList (env : Env) (e : PyErr) (cut : List Nat → Bool) (place : List Nat) : Nat → List Node → List Item
  | _, [] => []
  | i, n :: ns => n.cutItem env e cut (place ++ [i]) :: cutList env e cut place (i + 1) ns
end

/-- `node.to_markdown(level=level, ignore_error=ig)`, interrupted. -/
def Node.cutMarkdownAt (env : Env) (e : PyErr) (cut : List Nat → Bool) (n : Node) (level : Option Int) (ig : Bool) :
    Except PyErr Val :=
  (n.cutItem env e cut []).render level ig

/-! ## Parsing

The same for `parse_node` and `from_dict`: the loops catch UnimplementedTypeError only (mark_or_node.py:257-265, 273-281). -/

/-- The marks loop (`parseMarks`, mark_or_node.py:271-282) of the node at `place`, where `parse_mark` raises `e` for the marks `cutM`. -/
def cutParseMarks (warn : Bool) (e : PyErr) (cutM : Nat → Bool) : Nat → List Val → Res (List Mark)
  | _, [] => .ok []
  | i, v :: vs =>
    ((if cutM i then .err e else .ofExcept (parseMark v) : Res Mark).skipUnimplemented warn).bind fun o =>
      (cutParseMarks warn e cutM (i + 1) vs).map fun ms => o.toList ++ ms

/-- The marks step (`marksStep`, mark_or_node.py:269-282), interrupted. -/
def cutMarksStep (warn : Bool) (e : PyErr) (cutM : Nat → Bool) (d : List (String × Val)) : Res (Option (Slot (List Mark))) :=
  match lookupKey d "marks" with
  | none => .ok none
  | some (.list l) => (cutParseMarks warn e cutM 0 l).map fun ms => some (.val ms)
  | some v => .ok (some (rawSlot v))

/-- `BaseNode.from_dict` (`nodeFromDict`, mark_or_node.py:222-284), given the outcomes of its content and marks steps. -/
def cutNodeFromDict (c : NodeCls) (d : List (String × Val)) (content : Res (Option (Slot (List Node))))
    (marks : Res (Option (Slot (List Mark)))) : Res Node :=
  (Res.ofExcept (attrsStep c.attrsFields d)).bind fun attrs =>
  content.bind fun content =>
  marks.bind fun marks =>
  (Res.ofExcept (checkRequired c.fields (hasKey d))).bind fun _ =>
  .ok (.mk
    { cls := c
      type := (valOf c.fields "type" d).getD .opt
      version := valOf c.fields "version" d
      text := valOf c.fields "text" d
      attrs := slotOf c.fields "attrs" (attrs.map Slot.val)
      marks := slotOf c.fields "marks" marks }
    (slotOf c.fields "content" content))

mutual
/-- `parse_node` (`parseNode`, nodes/parse_node.py:100-113), where the calls of `parse_node` at the places `cut` raise `e` and those
of `parse_mark` for the marks `cutM` (place of the node, number of the mark). -/
def cutParseNode (warn : Bool) (e : PyErr) (cut : List Nat → Bool) (cutM : List Nat → Nat → Bool) (place : List Nat) : Val → Res Node
  | .dict d =>
    if cut place then .err e else
    match lookupKey d "type" with
    | none => .err .keyError
    | some t =>
      match registryLookup nodeRegistry t with
      | .error x => .err x
      | .ok none => .err (.unimplementedType t "node")
      | .ok (some c) => cutNodeFromDict c d (cutContentStep warn e cut cutM place d) (cutMarksStep warn e (cutM place) d)
  | _ => if cut place then .err e else .err .typeError

/-- The content step (`contentStep`, mark_or_node.py:253-266), interrupted. -/
def cutContentStep (warn : Bool) (e : PyErr) (cut : List Nat → Bool) (cutM : List Nat → Nat → Bool) (place : List Nat) :
    List (String × Val) → Res (Option (Slot (List Node)))
  | [] => .ok none
  | (k, .list l) :: rest =>
    if k = "content" then (cutParseNodes warn e cut cutM place 0 l).map fun ns => some (.val ns)
    else cutContentStep warn e cut cutM place rest
  | (k, v) :: rest =>
    if k = "content" then .ok (some (rawSlot v)) else cutContentStep warn e cut cutM place rest

/-- The content loop (`parseNodes`, mark_or_node.py:255-266), interrupted. -/
def cutParseNodes (warn : Bool) (e : PyErr) (cut : List Nat → Bool) (cutM : List Nat → Nat → Bool) (place : List Nat) :
    Nat → List Val → Res (List Node)
  | _, [] => .ok []
  | i, v :: vs =>
    ((cutParseNode warn e cut cutM (place ++ [i]) v).skipUnimplemented warn).bind fun o =>
      (cutParseNodes warn e cut cutM place (i + 1) vs).map fun ns => o.toList ++ ns
end

/-- `NodeXxx.from_dict(v)` (`NodeCls.fromDict`, mark_or_node.py:222-284), interrupted. -/
def NodeCls.cutFromDict (warn : Bool) (e : PyErr) (cut : List Nat → Bool) (cutM : List Nat → Nat → Bool) (c : NodeCls) : Val → Res Node
  | .dict d => if cut [] then .err e else
      cutNodeFromDict c d (cutContentStep warn e cut cutM [] d) (cutMarksStep warn e (cutM []) d)
  | _ => if cut [] then .err e else .err .typeError

end Verif
