"""Ask Lean which axioms each manifest theorem depends on; writes tools/axioms.json.

Run:  python3 tools/axioms.py   (from /verif, after lake build and tools/props.py)
"""
import json, os, re, subprocess

root = os.path.dirname(os.path.dirname(os.path.abspath(__file__)))
names = []
for c in json.load(open(os.path.join(root, "MANIFEST.json")))["claims"]:
    for t in c["theorems"]:
        if t not in names:
            names.append(t)
src = "import Verif\n" + "".join("#print axioms %s\n" % n for n in names)
path = "/tmp/print_axioms.lean"
open(path, "w").write(src)
out = subprocess.run(["lake", "env", "lean", path], cwd=os.path.join(root, "lean"), capture_output=True, text=True)
res = {}
for m in re.finditer(r"'([^']+)' (does not depend on any axioms|depends on axioms: \[([^\]]*)\])", out.stdout):
    res[m.group(1)] = [a.strip() for a in (m.group(3) or "").replace("\n", " ").split(",") if a.strip()]
missing = [n for n in names if n not in res]
bad = {n: a for n, a in res.items() if set(a) - {"propext", "Classical.choice", "Quot.sound"}}
json.dump(res, open(os.path.join(root, "tools", "axioms.json"), "w"), indent=0, sort_keys=True)
print(len(names), "theorems; missing", missing, "; unexpected axioms", bad)
print(out.stderr[-500:])
