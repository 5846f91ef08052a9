import Verif.Model.Objects
/-!
# Deserialisation: `from_dict`, `parse_mark`, `parse_node`

mark_or_node.py, marks/parse_mark.py, nodes/parse_node.py.  `copy.deepcopy(dct)`
(mark_or_node.py:153,242) is the identity on immutable model values; that it isolates the caller's
dict is the subject of `Model/Heap.lean`.
-/

namespace Verif

/-- The warning logged for a skipped child: `logger.warning(str(e))` where `e` is
`UnimplementedTypeError(type_value, category)` (mark_or_node.py:263,279; exc.py:33-40). The message
text is a function of these two values. -/
structure Warn where
  typeValue : Val
  category : String

/-- Outcome of a parse: the warnings logged so far and the result or exception. -/
structure Res (α : Type) where
  log : List Warn
  out : Except PyErr α

namespace Res

def ok {α : Type} (a : α) : Res α := ⟨[], .ok a⟩
def err {α : Type} (e : PyErr) : Res α := ⟨[], .error e⟩

/-- Sequencing: an exception skips the rest. -/
def bind {α β : Type} (x : Res α) (f : α → Res β) : Res β :=
  match x.out with
  | .error e => ⟨x.log, .error e⟩
  | .ok a => ⟨x.log ++ (f a).log, (f a).out⟩

def map {α β : Type} (g : α → β) (x : Res α) : Res β := x.bind fun a => .ok (g a)

def ofExcept {α : Type} (x : Except PyErr α) : Res α := ⟨[], x⟩

/-- `try: x = parse(d); lst.append(x)  except UnimplementedTypeError as e: warn`
(mark_or_node.py:257-265, 273-281).  `warn` is `settings.WARN_UNIMPLEMENTED_TYPE`. -/
def skipUnimplemented {α : Type} (warn : Bool) (x : Res α) : Res (Option α) :=
  match x.out with
  | .ok a => ⟨x.log, .ok (some a)⟩
  | .error (.unimplementedType t c) => ⟨x.log ++ (if warn then [⟨t, c⟩] else []), .ok none⟩
  | .error e => ⟨x.log, .error e⟩

end Res

/-- Is the key in the dict? (`"attrs" in dct`) -/
def hasKey (d : List (String × Val)) (k : String) : Bool := (lookupKey d k).isSome

/-- Checks of `cls(**kwargs)` for a frozen `func_args` dataclass: fields without default first
(TypeError from `__init__`), then fields left at `REQ` (ParamError from `__post_init__`). -/
def checkRequired (fs : List Field) (given : String → Bool) : Except PyErr Unit :=
  if fs.any fun f => f.dflt.isNoDefault && !given f.name then .error .typeError
  else if fs.any fun f => f.dflt.isReq && !given f.name then .error .paramError
  else .ok ()

/-- The value of one attrs field: the given one, else its default. (The last case is ruled out by
`checkRequired`.) -/
def fieldValue (d : List (String × Val)) (f : Field) : Val :=
  match lookupKey d f.name with
  | some v => v
  | none =>
    match f.dflt with
    | .lit v => v
    | _ => .opt

/-- `Base.from_dict` for an attrs dataclass (mark_or_node.py:67-88): picks only known fields, then
calls the constructor.  A non-dict argument makes `dct[field_name]` a TypeError (every attrs class
has at least one field). -/
def attrsFromDict (fs : List Field) : Val → Except PyErr AttrsObj
  | .dict d =>
    match checkRequired fs (hasKey d) with
    | .error e => .error e
    | .ok () => .ok ⟨fs.map fun f => (f.name, fieldValue d f)⟩
  | _ => .error .typeError

/-- The `attrs` step of `from_dict` (mark_or_node.py:154-160, 245-250).  `none`: key missing or
class without `attrs` field. -/
def attrsStep (afs : Option (List Field)) (d : List (String × Val)) :
    Except PyErr (Option AttrsObj) :=
  match lookupKey d "attrs", afs with
  | some v, some fs =>
    match attrsFromDict fs v with
    | .error e => .error e
    | .ok a => .ok (some a)
  | _, _ => .ok none

/-- What the instance stores in a field: nothing if the class lacks it, the given content, else
the default. -/
def slotOf {α : Type} (fs : List Field) (name : String) (given : Option (Slot α)) : Slot α :=
  match fieldDflt fs name with
  | none => .absent
  | some dflt =>
    match given with
    | some s => s
    | none =>
      match dflt with
      | .lit v => .raw v
      | _ => .opt

/-- Same for a field holding a plain value. -/
def valOf (fs : List Field) (name : String) (d : List (String × Val)) : Option Val :=
  match fs.find? fun f => f.name == name with
  | none => none
  | some f => some (fieldValue d f)

/-- `BaseMark.from_dict` (mark_or_node.py:145-161) of class `c` on a dict. -/
def markFromDict (c : MarkCls) (d : List (String × Val)) : Except PyErr Mark :=
  match attrsStep c.attrsFields d with
  | .error e => .error e
  | .ok attrs =>
    match checkRequired c.fields (hasKey d) with
    | .error e => .error e
    | .ok () => .ok
        { cls := c
          type := (valOf c.fields "type" d).getD .opt
          attrs := slotOf c.fields "attrs" (attrs.map Slot.val) }

/-- `MarkXxx.from_dict(v)` for any value; non-dicts raise TypeError on the first subscript. -/
def MarkCls.fromDict (c : MarkCls) : Val → Except PyErr Mark
  | .dict d => markFromDict c d
  | _ => .error .typeError

/-- `parse_mark` (marks/parse_mark.py:62-75). -/
def parseMark : Val → Except PyErr Mark
  | .dict d =>
    match lookupKey d "type" with
    | none => .error .keyError
    | some t =>
      match registryLookup markRegistry t with
      | .error e => .error e
      | .ok none => .error (.unimplementedType t "mark")
      | .ok (some c) => markFromDict c d
  | _ => .error .typeError

/-- The marks loop (mark_or_node.py:271-282). -/
def parseMarks (warn : Bool) : List Val → Res (List Mark)
  | [] => .ok []
  | v :: vs =>
    ((Res.ofExcept (parseMark v)).skipUnimplemented warn).bind fun o =>
      (parseMarks warn vs).map fun ms => o.toList ++ ms

/-- A value kept as it is in a slot: `OPT` stays the sentinel. -/
def rawSlot {α : Type} : Val → Slot α
  | .opt => .opt
  | v => .raw v

/-- The marks step (mark_or_node.py:269-282): only lists are converted. -/
def marksStep (warn : Bool) (d : List (String × Val)) : Res (Option (Slot (List Mark))) :=
  match lookupKey d "marks" with
  | none => .ok none
  | some (.list l) => (parseMarks warn l).map fun ms => some (.val ms)
  | some v => .ok (some (rawSlot v))

/-- `BaseNode.from_dict` (mark_or_node.py:222-284) of class `c` on a dict, given the outcome
`content` of its content step (lines 253-266).  Order of effects: attrs, content, marks,
constructor.  Content and marks are converted even when the class has no such field; the result is
then dropped by `Base.from_dict`. -/
def nodeFromDict (warn : Bool) (c : NodeCls) (d : List (String × Val))
    (content : Res (Option (Slot (List Node)))) : Res Node :=
  (Res.ofExcept (attrsStep c.attrsFields d)).bind fun attrs =>
  content.bind fun content =>
  (marksStep warn d).bind fun marks =>
  (Res.ofExcept (checkRequired c.fields (hasKey d))).bind fun _ =>
  .ok (.mk
    { cls := c
      type := (valOf c.fields "type" d).getD .opt
      version := valOf c.fields "version" d
      text := valOf c.fields "text" d
      attrs := slotOf c.fields "attrs" (attrs.map Slot.val)
      marks := slotOf c.fields "marks" marks }
    (slotOf c.fields "content" content))

mutual
/-- `parse_node` (nodes/parse_node.py:100-113). -/
def parseNode (warn : Bool) : Val → Res Node
  | .dict d =>
    match lookupKey d "type" with
    | none => .err .keyError
    | some t =>
      match registryLookup nodeRegistry t with
      | .error e => .err e
      | .ok none => .err (.unimplementedType t "node")
      | .ok (some c) => nodeFromDict warn c d (contentStep warn d)
  | _ => .err .typeError

/-- The content step of `BaseNode.from_dict` (mark_or_node.py:253-266): finds the `content` key and
converts it if it is a list. -/
def contentStep (warn : Bool) : List (String × Val) → Res (Option (Slot (List Node)))
  | [] => .ok none
  | (k, .list l) :: rest =>
    if k = "content" then (parseNodes warn l).map fun ns => some (.val ns)
    else contentStep warn rest
  | (k, v) :: rest =>
    if k = "content" then .ok (some (rawSlot v)) else contentStep warn rest

/-- The content loop (mark_or_node.py:255-266). -/
def parseNodes (warn : Bool) : List Val → Res (List Node)
  | [] => .ok []
  | v :: vs =>
    ((parseNode warn v).skipUnimplemented warn).bind fun o =>
      (parseNodes warn vs).map fun ns => o.toList ++ ns
end

/-- `NodeXxx.from_dict(v)` called directly on a class (no look at `type`). -/
def NodeCls.fromDict (warn : Bool) (c : NodeCls) : Val → Res Node
  | .dict d => nodeFromDict warn c d (contentStep warn d)
  | _ => .err .typeError

end Verif
