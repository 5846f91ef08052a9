#!/usr/bin/env python3
"""Turns the samples of /repo (atlas_doc_parser/tests/data/samples.py, tests/adf_samples/*.json) into Lean checks that the model
gives the Markdown which the project's own tests expect.  Reads /repo as text (ast, json); nothing of it is run."""
import ast, glob, json, re, sys, textwrap
SRC = "/repo/atlas_doc_parser/tests/data/samples.py"
PAGES = "/repo/tests/adf_samples/"
OUT = "/verif/lean/Verif/Conform/"
BIG = {"node_doc"}    # 200 kB, only serialised by the tests; checked by evaluation only
# The kernel needs too much memory or recursion for these two; `--all` writes them too, for `#eval`.
HEAVY = {"node_extension_draw_io_diagram", "node_table_complicated"}
GROUPS = [["node_nested_expand_in_expand", "node_decision_list", "node_expand"],
          ["node_table_simple", "node_task_list"], ["node_bullet_list"], ["node_ordered_list"]]
TESTS = "".join(open(f, encoding="utf-8").read() for f in sorted(glob.glob("/repo/tests/**/*.py", recursive=True)))

def search(path, data):
    if path == "@":
        return data
    for name, idx in re.findall(r"([a-z]+)(?:\[(\d+)\])?", path):
        data = data[name]
        if idx:
            data = data[int(idx)]
    return data

def lit(s):
    out = '"'
    for c in s:
        if c in '"\\': out += "\\" + c
        elif c == "\n": out += "\\n"
        elif c == "\t": out += "\\t"
        elif ord(c) < 32: out += "\\x%02x" % ord(c)
        else: out += c
    return out + '"'

def val(v):
    if v is None: return ".none"
    if v is True: return ".bool true"
    if v is False: return ".bool false"
    if isinstance(v, int): return ".int %s" % (v if v >= 0 else "(%d)" % v)
    if isinstance(v, float): return ".float %s.toList" % lit(repr(v))
    if isinstance(v, str): return ".str %s.toList" % lit(v)
    if isinstance(v, list): return ".list [" + ", ".join(val(x) for x in v) + "]"
    return ".dict [" + ", ".join("(%s, %s)" % (lit(k), val(x)) for k, x in v.items()) + "]"

def samples():
    tree = ast.parse(open(SRC, encoding="utf-8").read())
    cls = [n for n in tree.body if isinstance(n, ast.ClassDef) and n.name == "AdfSampleEnum"][0]
    page = None
    for st in cls.body:
        if not isinstance(st, ast.Assign): continue
        name, call = st.targets[0].id, st.value
        def kw(c): return {k.arg: k.value for k in c.keywords}
        if isinstance(call.func, ast.Name):          # PageSample(...)
            page = ast.literal_eval(kw(call)["name"]); continue
        owner = call.func.value
        pg = page if isinstance(owner, ast.Name) else ast.literal_eval(kw(owner)["name"])
        k = kw(call)
        md = ast.literal_eval(k["md"]) if "md" in k else None
        yield name, pg, ast.literal_eval(k["jpath"]), md, st.lineno

def main():
    out = ["import Verif.Model.Markdown", "import Verif.Model.ToDict", "import Verif.Model.Json", "import Verif.Lemmas.Samples",
           "/-!", "# The model against the project's own test data", "",
           "Generated by tools/conform.py from atlas_doc_parser/tests/data/samples.py and tests/adf_samples/*.json: for every sample, what",
           "`AdfSample.test` (samples.py:139-168, tests/helper.py:52-103) asserts. These are tests of the model, not theorems about the code.",
           "-/", "", "namespace Verif.Conform", "open Verif", "",
           "/-- `check_seder` (tests/helper.py:52-83): `to_dict`, `from_dict` and `to_dict` again; values are compared by their JSON text. -/",
           "def seder (n : Node) : Bool :=",
           "  match n.toDict with",
           "  | .ok d => match (parseNode true d).out with",
           "    | .ok n' => match n'.toDict with",
           "      | .ok d' => Json.dumps none d == Json.dumps none d'",
           "      | _ => false",
           "    | _ => false",
           "  | _ => false", "",
           "/-- `check_markdown` (tests/helper.py:86-103). -/",
           "def markdown (n : Node) (expected : String) : Bool :=",
           "  match n.toMarkdown Samples.env false with",
           "  | .ok (.str s) => Str.strip s == expected.toList",
           "  | _ => false", "",
           "/-- `AdfSample.test` of a node. -/",
           "def node (v : Val) (expected : Option String) : Bool :=",
           "  match (parseNode true v).out with",
           "  | .ok n => seder n && match expected with | some e => markdown n e | none => true",
           "  | _ => false", "",
           "/-- `AdfSample.test` of a mark. -/",
           "def mark (v : Val) : Bool :=",
           "  match parseMark v with",
           "  | .ok m => match parseMark m.toDict with",
           "    | .ok m' => Json.dumps none m.toDict == Json.dumps none m'.toDict",
           "    | _ => false",
           "  | _ => false", ""]
    defs = "\n".join(out + ["end Verif.Conform"]) + "\n"
    open(OUT + "Check.lean", "w", encoding="utf-8").write(defs)
    files, n = {}, 0
    for name, pg, jp, md, line in samples():
        if "--all" not in sys.argv and (name in HEAVY or pg in BIG and jp == "@"): continue
        if not re.search(r"AdfSampleEnum\.%s\b" % name, TESTS): continue    # e.g. node_table_cell, marked TODO
        data = search(jp, json.load(open(PAGES + pg + ".json", encoding="utf-8")))
        txt = files.setdefault(next((i + 2 for i, g in enumerate(GROUPS) if name in g), 1), [])
        txt.append("/-- `%s`, samples.py:%d -/" % (name, line))
        if name.startswith("mark_") and "marks" in jp:
            txt.append("example : mark (%s) = true := by decide +kernel\n" % val(data))
        else:
            e = "none" if md is None else "(some %s)" % lit(textwrap.dedent(md).strip())
            txt.append("example : node (%s) %s = true := by decide +kernel\n" % (val(data), e))
        n += 1
    for i, txt in files.items():
        # each file imports the one before, so that they are built one at a time (memory)
        head = ["import Verif.Conform." + ("Check" if i == 1 else "Samples%d" % (i - 1)), "/-!", "Generated by tools/conform.py, see Verif/Conform/Check.lean.", "-/", "",
                "namespace Verif.Conform", ""]
        open(OUT + "Samples%d.lean" % i, "w", encoding="utf-8").write("\n".join(head + txt + ["end Verif.Conform"]) + "\n")
    print(n, "samples")

if __name__ == "__main__":
    main()
