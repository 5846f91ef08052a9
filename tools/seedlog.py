#!/usr/bin/env python3
"""Join tools/mutants.py with the results of tools/mutate.py into seeded/LOG.jsonl."""
import json, os, sys
sys.path.insert(0, os.path.dirname(os.path.abspath(__file__)))
import mutants
OUTPATH = os.path.join(os.path.dirname(os.path.abspath(__file__)), "..", "seeded", "LOG.jsonl")
# id -> theorems of /verif added or strengthened because of this attempt
TIGHTENED = {"fd8": ["C23_input"]}
# id -> remark
REMARK = {}
try:
    import seednotes
    TIGHTENED.update(seednotes.TIGHTENED); REMARK.update(seednotes.REMARK)
except ImportError:
    pass
res = {}
for f in sys.argv[1:] or ["/tmp/mut/results.jsonl"]:
    for l in open(f):
        r = json.loads(l); res[r["id"]] = r
old = {}
if os.path.exists(OUTPATH):
    for l in open(OUTPATH):
        r = json.loads(l); old[r["id"]] = r
with open(OUTPATH + ".new", "w") as o:
    for x in mutants.MUTANTS:
        i = x["id"]
        if i not in res:
            if i in old: o.write(json.dumps(old[i], ensure_ascii=False) + "\n")
            continue
        r = res[i]
        t = r.get("tainted", [])
        direct = [f.split(":")[1] for f in r.get("failed", []) if ":" in f]
        row = {"id": i, "definition": x["definition"], "file": x["file"],
               "edit": {"old": x["old"], "new": x["new"]}, "claim_broken": x["claim"], "properties": x["props"],
               "theorems_failed": t,
               "failed_in_own_proof": sorted(set(d for d in direct if d in t)),
               "lemmas_failed": sorted(set(d for d in direct if d not in t and not d.startswith("example"))),
               "examples_failed": len([d for d in direct if d.startswith("example")]),
               "theorems_tightened": TIGHTENED.get(i, [])}
        if i in REMARK: row["remark"] = REMARK[i]
        o.write(json.dumps(row, ensure_ascii=False) + "\n")
os.replace(OUTPATH + ".new", OUTPATH)
