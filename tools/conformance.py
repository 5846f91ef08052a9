"""Writes a Lean script that runs the model on the repository's own sample documents and compares
with the Markdown expected by the repository's tests (read as text with ast; nothing is executed).
Usage: python3 tools/conformance.py > /tmp/Conf.lean; cd lean; lake env lean --run /tmp/Conf.lean"""
import ast, json, re, textwrap, sys

SRC = "/repo/atlas_doc_parser/tests/data/samples.py"
ADF = "/repo/tests/adf_samples/%s.json"


def lit(node):
    return ast.literal_eval(node)


def jpath(p, data):
    for part in re.findall(r"[A-Za-z_]+|\[\d+\]", p):
        data = data[int(part[1:-1])] if part[0] == "[" else data[part]
    return data


def lstr(s):
    out = ['"']
    for ch in s:
        if ch == '"': out.append('\\"')
        elif ch == "\\": out.append("\\\\")
        elif ch == "\n": out.append("\\n")
        elif ch == "\t": out.append("\\t")
        elif ch == "\r": out.append("\\r")
        else: out.append(ch)
    return "".join(out) + '"'


def val(v):
    if v is None: return "Val.none"
    if isinstance(v, bool): return f"Val.bool {str(v).lower()}"
    if isinstance(v, int): return f"Val.int ({v})"
    if isinstance(v, float): return f"Val.float {lstr(repr(v))}.toList"
    if isinstance(v, str): return f"Val.str {lstr(v)}.toList"
    if isinstance(v, list): return "Val.list [" + ", ".join(val(x) for x in v) + "]"
    return "Val.dict [" + ", ".join(f"({lstr(k)}, {val(x)})" for k, x in v.items()) + "]"


cases = []
page = None


def handle(call, name):
    """call: <pagesample>.get_sample(jpath=..., md=...)"""
    global page
    recv = call.func.value
    if isinstance(recv, ast.Call):
        pg = {k.arg: lit(k.value) for k in recv.keywords}["name"]
    else:
        pg = page
    kw = {}
    for k in call.keywords:
        kw[k.arg] = lit(k.value)
    cases.append((name, pg, kw["jpath"], kw.get("md")))


tree = ast.parse(open(SRC, encoding="utf-8").read())
for cls in tree.body:
    if isinstance(cls, ast.ClassDef) and cls.name == "AdfSampleEnum":
        for st in cls.body:
            if not isinstance(st, ast.Assign): continue
            name = st.targets[0].id
            c = st.value
            if isinstance(c.func, ast.Name):
                page = {k.arg: lit(k.value) for k in c.keywords}["name"]
            else:
                handle(c, name)

print("import Verif\nopen Verif")
print('def env0 : Env := ⟨fun _ => "?".toList, fun c => [c], fun _ => none, fun _ => .error .valueError⟩')
print('''partial def vs : Val → String
  | .none => "null" | .bool b => toString b | .int n => toString n | .float r => String.ofList r
  | .str s => (String.ofList s).quote | .opt => "OPT"
  | .list l => "[" ++ ", ".intercalate (l.map vs) ++ "]"
  | .dict d => "{" ++ ", ".intercalate (d.map fun e => e.1.quote ++ ": " ++ vs e.2) ++ "}"
def chk (name : String) (v : Val) (md : Option String) : IO Unit := do
  match (parseNode true v).out with
  | .error _ => IO.println s!"{name}: PARSE ERROR"
  | .ok n =>
    let rt := match n.toDict with
      | .error _ => "TODICT ERROR"
      | .ok d => match (parseNode true d).out with
        | .error _ => "REPARSE ERROR"
        | .ok n2 => match n2.toDict with
          | .ok d2 => if vs d == vs d2 then "seder ok" else "SEDER DIFF"
          | .error _ => "TODICT2 ERROR"
    match n.toMarkdown env0 false with
    | .ok (.str s) =>
      match md with
      | none => IO.println s!"{name}: {rt}, md not specified"
      | some e => if Str.strip s == Str.strip e.toList then IO.println s!"{name}: {rt}, md ok"
                  else IO.println s!"{name}: MD DIFF\\n{String.ofList s}\\n-----\\n{e}"
    | .ok _ => IO.println s!"{name}: NON-STR"
    | .error _ => IO.println s!"{name}: {rt}, MD ERROR (expected {md})"''')
print("set_option maxRecDepth 100000")
calls = []
for name, pg, jp, md in cases:
    data = jpath(jp, json.load(open(ADF % pg, encoding="utf-8")))
    if name.startswith("mark_") and "text" not in data: continue
    m = "none" if md is None else f"(some {lstr(textwrap.dedent(md))})"
    print(f"def d_{name} : Val := {val(data)}")
    calls.append(f"  chk {lstr(name)} d_{name} {m}")
for i in range(0, len(calls), 10):
    print(f"def run{i} : IO Unit := do")
    print("\n".join(calls[i:i+10]))
print("def main : IO Unit := do")
for i in range(0, len(calls), 10):
    print(f"  run{i}")
