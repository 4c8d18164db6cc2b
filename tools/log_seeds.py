"""Append results of seed.py to seeded/LOG.jsonl.

usage: log_seeds.py mutants.json results.out [tightened.json]

tightened.json maps a mutant name to {"before": [...], "tightened": [...], "note": "..."}.
A mutant without result is skipped.
"""
import json, sys

muts = json.load(open(sys.argv[1]))
res = {}
for l in open(sys.argv[2]):
    try:
        d = json.loads(l)
    except ValueError:
        continue
    res[d["name"]] = d
tight = json.load(open(sys.argv[3])) if len(sys.argv) > 3 else {}
with open("/verif/seeded/LOG.jsonl", "a") as f:
    for m in muts:
        r = res.get(m["name"])
        if r is None or "error" in r:
            continue
        t = tight.get(m["name"], {})
        f.write(json.dumps({
            "name": m["name"], "module": m["module"] + ".lean", "definition": m["definition"], "edit": m["edit"],
            "old": m["old"], "new": m["new"], "breaks": m["breaks"],
            "failed": t.get("before", r["failed"]), "tightened": t.get("tightened", []),
            "failed_after_tightening": r["failed"] if t else [], "note": t.get("note", "")}, ensure_ascii=False) + "\n")
