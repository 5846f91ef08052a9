"""Seeded bugs whose claimed property has no theorem that failed."""
import json, os, sys
sys.path.insert(0, os.path.dirname(os.path.abspath(__file__)))
import mutants
M = {x["id"]: x for x in mutants.MUTANTS}
for l in open(sys.argv[1] if len(sys.argv) > 1 else "/tmp/mut/results.jsonl"):
    r = json.loads(l)
    x = M.get(r["id"])
    if not x: print("??", r["id"]); continue
    props = x["props"] if isinstance(x["props"], list) else x["props"].split()
    hit = [t for t in r.get("tainted", []) if any(t.split(".")[-1].startswith(p + "_") for p in props)]
    miss = [p for p in props if not any(t.split(".")[-1].startswith(p + "_") for t in r.get("tainted", []))]
    print(r["id"], "OK" if not miss else ("PARTLY " + ",".join(miss) if hit else "SURVIVES " + ",".join(miss)), len(r.get("tainted", [])), r.get("error") or "", r.get("notes") or "")
