#!/usr/bin/env python3
"""Mechanical seeded bugs: one small edit of a model definition at a time (a changed literal, comparison, connective, list).

Each is made in a scratch copy and built until the first error.  `sites` lists them, `run A B` runs those numbered A..B-1 in a
fixed random order and appends one JSON line each to AUTO_OUT.  A mutant that the whole build accepts is a survivor: either it is
harmless, or a theorem is missing.
"""
import json, os, random, re, signal, subprocess, sys, time
SRC = os.environ.get("MUT_SRC", "/tmp/base5")
W = os.environ.get("MUT_DIR", "/tmp/wa")
OUT = os.environ.get("AUTO_OUT", "/tmp/mut/auto.jsonl")
DIRS = ["Verif/Model", "Verif/Py"]
DEF = re.compile(r"^(?:@\[[^\]]*\]\s*)?(?:private |protected |noncomputable )*(def|abbrev|instance|theorem|lemma|example|structure|inductive)\b\s*([^\s:({\[]*)")
OPS = [
    (re.compile(r'"((?:[^"\\]|\\.)+)"'), lambda m: ['"' + m.group(1)[:-1 if m.group(1)[-2:-1] != "\\" else -2] + '"', '"' + m.group(1) + 'x"']),
    (re.compile(r"'(\\.|[^\\'])'"), lambda m: ["'x'" if m.group(1) != "x" else "'y'"]),
    (re.compile(r"(?<![\w.'])(\d+)(?![\w.'])"), lambda m: [str(int(m.group(1)) + 1)] + ([str(int(m.group(1)) - 1)] if int(m.group(1)) > 0 else [])),
    (re.compile(r"(?<![\w.])true(?!\w)"), lambda m: ["false"]),
    (re.compile(r"(?<![\w.])false(?!\w)"), lambda m: ["true"]),
    (re.compile(r" ≤ "), lambda m: [" < "]),
    (re.compile(r" < "), lambda m: [" ≤ "]),
    (re.compile(r" && "), lambda m: [" || "]),
    (re.compile(r" \|\| "), lambda m: [" && "]),
    (re.compile(r" ∧ "), lambda m: [" ∨ "]),
    (re.compile(r" ∨ "), lambda m: [" ∧ "]),
    (re.compile(r" == "), lambda m: [" != "]),
    (re.compile(r" != "), lambda m: [" == "]),
    (re.compile(r"!(?=[\w(])"), lambda m: [""]),
    (re.compile(r"\.reverse\b"), lambda m: [""]),
    (re.compile(r"\[((?:[^\[\],]+, )+[^\[\],]+)\]"), lambda m: ["[" + ", ".join(m.group(1).split(", ")[:-1]) + "]", "[" + ", ".join(m.group(1).split(", ")[1:]) + "]"]),
    (re.compile(r"\((\w+) ([+-]) 1\)"), lambda m: [m.group(1)]),
    (re.compile(r"if (\w+) = (\S+) then"), lambda m: [f"if {m.group(1)} ≠ {m.group(2)} then"]),
    (re.compile(r"\.takeWhile"), lambda m: [".dropWhile"]),
    (re.compile(r"(\w+) \+\+ (\w+)(?![\w.])"), lambda m: [f"{m.group(2)} ++ {m.group(1)}"]),
]

def sites():
    r = []
    for d in DIRS:
        for f in sorted(os.listdir(f"{SRC}/{d}")):
            if not f.endswith(".lean"):
                continue
            lines = open(f"{SRC}/{d}/{f}").read().split("\n")
            comment, kind, name = False, None, None
            for i, l in enumerate(lines):
                if comment:
                    comment = "-/" not in l
                    continue
                if l.lstrip().startswith("/-"):
                    comment = "-/" not in l
                    continue
                m = DEF.match(l)
                if m:
                    kind, name = m.group(1), m.group(2)
                if kind not in ("def", "abbrev", "instance"):
                    continue
                code = l.split(" -- ")[0]
                if code.lstrip().startswith(("deriving", "termination_by", "decreasing_by", "namespace", "end", "open", "import")):
                    continue
                body = code.split(":=", 1)[1] if m and ":=" in code else ("" if m else code)
                off = len(code) - len(body)
                for k, (rx, fn) in enumerate(OPS):
                    for x in rx.finditer(body):
                        for new in fn(x):
                            a, b = off + x.start(), off + x.end()
                            r.append({"file": f"{d}/{f}", "line": i, "def": name, "old": l, "new": l[:a] + new + l[b:]})
    random.Random(7).shuffle(r)
    only = os.environ.get("AUTO_FILES")
    return [s for s in r if not only or s["file"].split("/")[-1][:-5] in only.split()]

def run(s):
    subprocess.run(f"rm -rf {W}/lean && mkdir -p {W} && cp -a {SRC} {W}/lean", shell=True)
    p = f"{W}/lean/{s['file']}"
    lines = open(p).read().split("\n")
    assert lines[s["line"]] == s["old"]
    lines[s["line"]] = s["new"]
    open(p, "w").write("\n".join(lines))
    t = time.time()
    pr = subprocess.Popen(["lake", "build", "Verif"], cwd=f"{W}/lean", stdout=subprocess.PIPE, stderr=subprocess.STDOUT, text=True, start_new_session=True)
    err = None
    for l in pr.stdout:
        m = re.match(r"error: (Verif/\S+?\.lean):(\d+):(\d+): (.*)", l)
        if m or (l.startswith("error:") and err is None):
            err = l.strip()[:200]
            break
    try:
        os.killpg(pr.pid, signal.SIGKILL)
    except ProcessLookupError:
        pass
    pr.wait()
    st = "survives" if err is None else ("invalid" if err.startswith("error: " + s["file"]) else "killed")
    return dict(s, status=st, error=err, seconds=round(time.time() - t))

if __name__ == "__main__":
    S = sites()
    if sys.argv[1:] == ["sites"]:
        from collections import Counter
        print(len(S), Counter(s["file"] for s in S))
    else:
        for i in range(int(sys.argv[2]), min(int(sys.argv[3]), len(S))):
            r = dict(run(S[i]), n=i)
            open(OUT, "a").write(json.dumps(r, ensure_ascii=False) + "\n")
            print(i, r["status"], r["seconds"], r["file"], r["def"], "|", r["new"].strip()[:100], "|", (r["error"] or "")[:80], flush=True)
