import Verif.Spec.Md
/-!
# Sample nodes for the non-vacuity examples

Each sample is what `parse_node` returns for the obvious JSON (see the examples at the end).
-/

namespace Verif.Samples
open Verif

/-- An environment for the examples. -/
def env : Env :=
  { strOther := fun _ => [], upperOther := fun c => [c], digitOther := fun _ => none,
    floatToInt := fun _ => .error .valueError }

def str (s : String) : Val := .str s.toList

def attrs (l : List (String × Val)) : Slot AttrsObj := .val ⟨l⟩

def mark (c : MarkCls) : Mark := ⟨c, .str c.typeEnum.value.toList, .absent⟩

def text (s : String) : Node :=
  .mk ⟨.text, str "text", none, some (str s), .absent, .opt⟩ .absent

def textM (s : String) (ms : List Mark) : Node :=
  .mk ⟨.text, str "text", none, some (str s), .absent, .val ms⟩ .absent

def para (kids : List Node) : Node :=
  .mk ⟨.paragraph, str "paragraph", none, none, .opt, .opt⟩ (.val kids)

def heading (n : Int) (kids : List Node) : Node :=
  .mk ⟨.heading, str "heading", none, none, attrs [("level", .int n), ("localId", .opt)], .opt⟩
    (.val kids)

def doc (kids : List Node) : Node :=
  .mk ⟨.doc, str "doc", some (.int 1), none, .absent, .absent⟩ (.val kids)

def item (kids : List Node) : Node :=
  .mk ⟨.listItem, str "listItem", none, none, .opt, .absent⟩ (.val kids)

def bullets (kids : List Node) : Node :=
  .mk ⟨.bulletList, str "bulletList", none, none, .absent, .absent⟩ (.val kids)

def ordered (a : Slot AttrsObj) (kids : List Node) : Node :=
  .mk ⟨.orderedList, str "orderedList", none, none, a, .absent⟩ (.val kids)

def orderAttrs (n : Int) : Slot AttrsObj := attrs [("order", .int n), ("localId", .opt)]

def quote (kids : List Node) : Node :=
  .mk ⟨.blockquote, str "blockquote", none, none, .opt, .absent⟩ (.val kids)

def panel (ty : String) (kids : List Node) : Node :=
  .mk ⟨.panel, str "panel", none, none, attrs [("panelType", str ty), ("panelIcon", .opt),
    ("panelIconId", .opt), ("panelIconText", .opt), ("panelColor", .opt), ("localId", .opt)],
    .absent⟩ (.val kids)

def code (a : Slot AttrsObj) (kids : List Node) : Node :=
  .mk ⟨.codeBlock, str "codeBlock", none, none, a, .absent⟩ (.val kids)

def cell (kids : List Node) : Node :=
  .mk ⟨.tableCell, str "tableCell", none, none, .opt, .absent⟩ (.val kids)

def hcell (kids : List Node) : Node :=
  .mk ⟨.tableHeader, str "tableHeader", none, none, .opt, .absent⟩ (.val kids)

def row (kids : List Node) : Node :=
  .mk ⟨.tableRow, str "tableRow", none, none, .opt, .absent⟩ (.val kids)

def table (kids : List Node) : Node :=
  .mk ⟨.table, str "table", none, none, .opt, .opt⟩ (.val kids)

def task (state : String) (content : Slot (List Node)) : Node :=
  .mk ⟨.taskItem, str "taskItem", none, none, attrs [("localId", str "i"), ("state", str state)],
    .absent⟩ content

def tasks (kids : List Node) : Node :=
  .mk ⟨.taskList, str "taskList", none, none, attrs [("localId", str "i")], .absent⟩ (.val kids)

def decision (kids : List Node) : Node :=
  .mk ⟨.decisionItem, str "decisionItem", none, none,
    attrs [("localId", str "i"), ("state", str "DECIDED")], .absent⟩ (.val kids)

def decisions (kids : List Node) : Node :=
  .mk ⟨.decisionList, str "decisionList", none, none, attrs [("localId", str "i")], .absent⟩
    (.val kids)

def hardBreak : Node := .mk ⟨.hardBreak, str "hardBreak", none, none, .opt, .absent⟩ .absent

/-- An inline card without url: its conversion raises NotImplementedError. -/
def badCard : Node :=
  .mk ⟨.inlineCard, str "inlineCard", none, none,
    attrs [("url", .opt), ("data", .dict []), ("localId", .opt)], .absent⟩ .absent

/-- JSON for a node. -/
def j (ty : String) (l : List (String × Val)) : Val := .dict (("type", str ty) :: l)

/-- What `parse_node` returns for `v`. -/
def parse (v : Val) : Node :=
  match (parseNode true v).out with
  | .ok n => n
  | .error _ => text ""

/-- `parse_node(v)` returns a node. -/
def parses (v : Val) : Bool :=
  match (parseNode true v).out with
  | .ok _ => true
  | .error _ => false

theorem out_parse {v : Val} (h : parses v = true) : (parseNode true v).out = .ok (parse v) := by
  unfold parses at h; unfold parse
  split at h <;> simp_all

theorem parsed {v : Val} (h : parses v = true) : Spec.Parsed (parse v) := ⟨true, v, out_parse h⟩

/-- Checks `Spec.HasType`. -/
def typed (k : Node) : Bool :=
  Spec.nodeTypes.any fun e => decide (e.2 = k.cls) && (match k.hd.type with | .str s => decide (s = e.1.toList) | _ => false)

theorem hasTypes {kids : List Node} (h : kids.all typed = true) : ∀ k ∈ kids, Spec.HasType k := by
  intro k hk
  have := List.all_eq_true.mp h k hk
  obtain ⟨⟨name, c⟩, hm, he⟩ := List.any_eq_true.mp this
  rw [Bool.and_eq_true, decide_eq_true_eq] at he
  obtain ⟨rfl, h2⟩ := he
  refine ⟨name, hm, ?_⟩
  split at h2
  · rename_i s hs; rw [hs, of_decide_eq_true h2]
  · simp at h2

/-- What `parse_mark` returns for `v`. -/
def parseM (v : Val) : Mark :=
  match parseMark v with
  | .ok m => m
  | .error _ => mark .strong

-- the samples are what parsing returns
example : (parseNode true (j "doc" [("version", .int 1), ("content", .list
    [j "paragraph" [("content", .list [j "text" [("text", str "a")]])]])])).out =
    .ok (doc [para [text "a"]]) := rfl
example : (parseNode true (j "heading" [("attrs", .dict [("level", .int 2)]), ("content", .list [])])).out =
    .ok (heading 2 []) := rfl
example : (parseNode true (j "bulletList" [("content", .list
    [j "listItem" [("content", .list [])]])])).out = .ok (bullets [item []]) := rfl
example : (parseNode true (j "orderedList" [("content", .list [])])).out = .ok (ordered .opt []) := rfl
example : (parseNode true (j "orderedList" [("attrs", .dict [("order", .int 3)]), ("content", .list [])])).out =
    .ok (ordered (orderAttrs 3) []) := rfl
example : (parseNode true (j "blockquote" [("content", .list [])])).out = .ok (quote []) := rfl
example : (parseNode true (j "panel" [("attrs", .dict [("panelType", str "info")]), ("content", .list [])])).out =
    .ok (panel "info" []) := rfl
example : (parseNode true (j "codeBlock" [("content", .list [])])).out = .ok (code .opt []) := rfl
example : (parseNode true (j "table" [("content", .list [j "tableRow" [("content", .list
    [j "tableHeader" [("content", .list [])], j "tableCell" [("content", .list [])]])]])])).out =
    .ok (table [row [hcell [], cell []]]) := rfl
example : (parseNode true (j "taskList" [("attrs", .dict [("localId", str "i")]), ("content", .list
    [j "taskItem" [("attrs", .dict [("localId", str "i"), ("state", str "DONE")])]])])).out =
    .ok (tasks [task "DONE" .opt]) := rfl
example : (parseNode true (j "decisionList" [("attrs", .dict [("localId", str "i")]), ("content", .list
    [j "decisionItem" [("attrs", .dict [("localId", str "i"), ("state", str "DECIDED")]),
      ("content", .list [])]])])).out = .ok (decisions [decision []]) := rfl
example : (parseNode true (j "inlineCard" [("attrs", .dict [("data", .dict [])])])).out =
    .ok badCard := rfl
example : (parseNode true (j "hardBreak" [])).out = .ok hardBreak := rfl
example : (parseNode true (j "text" [("text", str "a"), ("marks", .list [j "strong" []])])).out =
    .ok (textM "a" [mark .strong]) := rfl

end Verif.Samples
