#!/usr/bin/env python3
"""Run seeded bugs (tools/mutants.py) against the theorems.

Each mutant is one text edit of a model file, made in a scratch copy of /verif/lean.  The scratch copy
is rebuilt; declarations whose proofs no longer check are left unproved there, and the build is repeated until
everything else is built.  An audit module then lists every C.. theorem that depends on an unproved
declaration ("tainted") and whether it failed itself ("direct").  One JSON line per mutant is
appended to the results file; `tools/seedlog.py` turns those into seeded/LOG.jsonl.
"""
import json, os, re, subprocess, sys, shutil, time
SRC = os.environ.get("MUT_SRC", "/verif/lean")
W = os.environ.get("MUT_DIR", "/tmp/w")
OUT = os.environ.get("MUT_OUT", "/tmp/mut/results.jsonl")
DECL = re.compile(r"^(?:@\[[^\]]*\]\s*)?(?:private |protected |noncomputable |unsafe |partial )*"
                  r"(theorem|lemma|def|abbrev|instance|example|structure|inductive)\b\s*([^\s:({\[]*)")
TOP = re.compile(r"^(?:@\[|private |protected |noncomputable |theorem|lemma|def|abbrev|instance|example|structure|"
                 r"inductive|/-|end\b|namespace|section|mutual|open|variable|set_option|#|import|attribute|deriving)")

def sh(cmd, cwd):
    return subprocess.run(cmd, shell=True, cwd=cwd, stdout=subprocess.PIPE, stderr=subprocess.STDOUT, text=True).stdout

def fresh():
    os.makedirs(W, exist_ok=True)
    sh(f"rm -rf {W}/lean && cp -a {SRC} {W}/lean", "/")

def decl_at(lines, ln):
    """(start, end, kind, name) of the declaration containing 0-based line ln"""
    i = ln
    while i >= 0 and not DECL.match(lines[i]):
        i -= 1
    if i < 0:
        return None
    m = DECL.match(lines[i])
    j = i + 1
    while j < len(lines) and not (TOP.match(lines[j])):
        j += 1
    return i, j, m.group(1), m.group(2)

def cut(lines, i, j):
    """statement part of theorem lines[i:j], as text without the proof"""
    text = "\n".join(lines[i:j])
    depth = 0
    k = 0
    n = len(text)
    while k < n:
        c = text[k]
        if text.startswith("--", k):
            while k < n and text[k] != "\n":
                k += 1
            continue
        if c == '"':
            k += 1
            while text[k] != '"':
                k += 2 if text[k] == "\\" else 1
        elif c == "'" :
            m = re.match(r"'(\\.|[^\\])'", text[k:])
            if m:
                k += len(m.group(0)) - 1
        elif c in "([{⟨":
            depth += 1
        elif c in ")]}⟩":
            depth -= 1
        elif depth == 0 and text.startswith(":=", k):
            return text[:k]
        elif depth == 0 and c == "\n" and re.match(r"\n  \| ", text[k:]) and not re.search(r"\bmatch\b", text[:k].split("\n")[-1]) and "match" not in text[:k]:
            return text[:k]
        k += 1
    return None

AUDIT = r'''
import Lean
import Verif
open Lean Elab Command
run_cmd liftCoreM do
  let env ← getEnv
  for (n, ci) in env.constants.toList do
    if let .thmInfo _ := ci then
      if (`Verif).isPrefixOf n then
        let s := n.getString!
        if s.startsWith "C" && ((s.drop 1).toString.take 2).all Char.isDigit then
          let ax ← collectAxioms n
          if ax.contains ``sorryAx then
            IO.println s!"TAINT {n}"
'''

def run(mut):
    fresh()
    p = f"{W}/lean/{mut['file']}"
    s = open(p).read()
    if s.count(mut["old"]) != mut.get("count", 1):
        return {"id": mut["id"], "error": f"old text occurs {s.count(mut['old'])} times"}
    open(p, "w").write(s.replace(mut["old"], mut["new"]))
    failed, notes = [], []
    for it in range(25):
        out = sh("lake build Verif 2>&1", f"{W}/lean")
        errs = re.findall(r"^error: (Verif/\S+?\.lean):(\d+):(\d+): (.*)$", out, re.M)
        if not errs:
            # a concrete check that has become false can exhaust memory: leave such checks unproved and go on
            dead = [x for x in re.findall(r"Building Verif\.(\S+) \(.*?\)(?:(?!Building)[\s\S])*?code 13[47]", out)]
            again = False
            for x in dead:
                f = "Verif/" + x.replace(".", "/") + ".lean"
                fp = f"{W}/lean/{f}"
                lines = open(fp).read().split("\n")
                for i in reversed(range(len(lines))):
                    d = DECL.match(lines[i])
                    if not d or d.group(1) not in ("theorem", "example"):
                        continue
                    _, j, kind, name = decl_at(lines, i)
                    if "decide +kernel" not in "\n".join(lines[i:j]):
                        continue
                    st = cut(lines, i, j) if kind == "theorem" else None
                    if kind == "theorem" and st is None:
                        continue
                    lines[i:j] = ["example : True := trivial"] if kind == "example" else (st + ":= sorry").split("\n")
                    again = True
                open(fp, "w").write("\n".join(lines))
                notes.append(f"out of memory: concrete checks of {f} left unproved")
            if again:
                continue
            if "Build completed" not in out:
                notes.append("build: " + out[-1500:])
            break
        byfile = {}
        for f, l, c, msg in errs:
            byfile.setdefault(f, []).append((int(l) - 1, msg))
        progress = False
        for f, es in byfile.items():
            fp = f"{W}/lean/{f}"
            lines = open(fp).read().split("\n")
            decls = {}
            for ln, msg in es:
                d = decl_at(lines, ln)
                if d:
                    decls.setdefault(d, msg)
            for d in sorted(decls, key=lambda d: -d[0]):
                i, j, kind, name = d
                if kind in ("theorem", "lemma"):
                    st = cut(lines, i, j)
                    if st is None or "sorry" in "\n".join(lines[i:j]):
                        notes.append(f"cannot stub {f}:{i+1} {kind} {name}: {decls[d][:200]}")
                        continue
                    failed.append(f"{f}:{name}")
                    lines[i:j] = (st + ":= sorry").split("\n")
                    progress = True
                elif kind == "example":
                    failed.append(f"{f}:example@{i+1}")
                    lines[i:j] = ["example : True := trivial"]
                    progress = True
                else:
                    notes.append(f"{kind} {name} in {f}:{i+1} fails: {decls[d][:200]}")
            open(fp, "w").write("\n".join(lines))
        if not progress:
            notes.append("stuck: " + "; ".join(f"{f}:{l} {m[:120]}" for f, l, c, m in errs[:4]))
            break
    open(f"{W}/lean/Audit.lean", "w").write(AUDIT)
    aud = sh("lake env lean Audit.lean 2>&1", f"{W}/lean")
    taint = re.findall(r"^TAINT (\S+)$", aud, re.M)
    if "error:" in aud:
        notes.append("audit: " + aud[-500:])
    return {"id": mut["id"], "failed": failed, "tainted": sorted(t.rsplit(".", 1)[-1] for t in taint), "notes": notes}

def main():
    sys.path.insert(0, "/verif/tools")
    from mutants import MUTANTS
    done = set()
    if os.path.exists(OUT):
        done = {json.loads(l)["id"] for l in open(OUT)}
    only = set(sys.argv[1:])
    for m in MUTANTS:
        if only and m["id"] not in only: continue
        if not only and m["id"] in done: continue
        t = time.time()
        r = run(m)
        r["secs"] = round(time.time() - t)
        with open(OUT, "a") as f:
            f.write(json.dumps(r, ensure_ascii=False) + "\n")
        print(r["id"], r.get("error") or "", r["secs"], "direct", len(r.get("failed", [])), "tainted", len(r.get("tainted", [])), r.get("notes"), flush=True)

if __name__ == "__main__":
    main()
