"""Try wrong programs against the theorems, outside /verif.

usage: seed.py [--near] mutants.json [name ...]

With --near only the modules are rebuilt that hold theorems of the properties said to break.

Each mutant is {"name", "module", "definition", "old", "new", "edit", "breaks": [ids]}.
The module (relative to lean/, without .lean) is edited in memory; it and every
module that imports it are concatenated into one scratch file, so that a theorem is
reported as failed if its proof, or that of a lemma it uses, no longer checks.
Prints one JSON line per mutant: the manifest theorems that failed.
"""
import json, os, re, subprocess, sys, time
from concurrent.futures import ThreadPoolExecutor

ROOT = "/verif/lean"
SCRATCH = "/tmp/seed"
os.makedirs(SCRATCH, exist_ok=True)


def modules():
    mods = {}
    for d, _, fs in os.walk(ROOT + "/Verif"):
        for f in fs:
            if f.endswith(".lean"):
                path = os.path.join(d, f)
                name = os.path.relpath(path, ROOT)[:-5].replace("/", ".")
                text = open(path).read()
                imps = re.findall(r"^import (\S+)$", text, re.M)
                body = re.sub(r"^import \S+\n", "", text, flags=re.M)
                mods[name] = (imps, body)
    return mods


def closure(mods, start):
    dep = {start}
    while True:
        more = {m for m, (i, _) in mods.items() if m not in dep and any(x in dep for x in i)}
        if not more:
            break
        dep |= more
    order = []

    def visit(m):
        if m in order:
            return
        for i in mods[m][0]:
            if i in dep:
                visit(i)
        order.append(m)

    for m in sorted(dep):
        visit(m)
    return order


def near(mods, order, manifest, breaks):
    """Modules of `order` needed for the theorems of the properties `breaks`."""
    keep = set()
    for c in manifest:
        if c["property"] in breaks:
            for t in c["theorems"]:
                space, short = t.rsplit(".", 1)
                keep |= {m for m in order if "namespace %s\n" % space in mods[m][1]
                         and re.search(r"theorem %s\b" % re.escape(short), mods[m][1])}
    while True:
        more = {i for m in keep for i in mods[m][0] if i in order} - keep
        if not more:
            return [m for m in order if m in keep]
        keep |= more


def run(mut, mods, manifest, only_near=False):
    mod = mut["module"].replace("/", ".")
    imps, body = mods[mod]
    count = body.count(mut["old"])
    if count != mut.get("count", 1):
        return {"name": mut["name"], "error": "pattern occurs %d times" % count}
    body = body.replace(mut["old"], mut["new"])
    order = closure(mods, mod)
    if only_near:
        order = near(mods, order, manifest, mut["breaks"])
    imports, text = [], []
    for m in order:
        for i in mods[m][0]:
            if i not in order and i not in imports:
                imports.append(i)
    for m in order:
        b = body if m == mod else mods[m][1]
        text.append("section\n" + b + "\nend\n")
    src = "".join("import %s\n" % i for i in imports) + "\n".join(text)
    local = []
    names = {t: c["property"] for c in manifest for t in c["theorems"]}
    for t in names:
        space, short = t.rsplit(".", 1)
        if any("namespace %s\n" % space in mods[m][1]
               and re.search(r"theorem %s\b" % re.escape(short), mods[m][1]) for m in order):
            local.append(t)
    src += "\n" + "".join("#print axioms %s\n" % t for t in local)
    path = "%s/%s.lean" % (SCRATCH, mut["name"])
    open(path, "w").write(src)
    t0 = time.time()
    p = subprocess.run(["lake", "env", "lean", path], cwd=ROOT, capture_output=True, text=True)
    out = p.stdout + p.stderr
    ok, failed = set(), set()
    for m in re.finditer(r"'([^']+)' depends on axioms: \[([^\]]*)\]", out):
        (failed if "sorryAx" in m.group(2) else ok).add(m.group(1))
    for m in re.finditer(r"'([^']+)' does not depend on any axioms", out):
        ok.add(m.group(1))
    missing = [t for t in local if t not in ok and t not in failed]
    errs = [l for l in out.splitlines() if ": error" in l]
    starts = [(src[: m.start()].count("\n") + 1, m.group(1)) for m in
              re.finditer(r"^(?:private )?(?:noncomputable )?(?:theorem|lemma|def|example|instance)\s+(\S+)", src, re.M)]
    direct = []
    for l in errs:
        mm = re.search(r":(\d+):\d+: error", l)
        if mm:
            ln = int(mm.group(1))
            nm = [n for s, n in starts if s <= ln]
            if nm and nm[-1] not in direct:
                direct.append(nm[-1])
    # A proof that is cut off by the limit of time leaves a theorem without its proof term.
    failed |= {t for t in local if t.rsplit(".", 1)[1] in direct}
    bad = sorted(failed | set(missing))
    hit = sorted({names[t] for t in bad})
    return {"name": mut["name"], "failed": bad, "direct": direct, "properties": hit,
            "caught": all(b in hit for b in mut["breaks"]), "missed": [b for b in mut["breaks"] if b not in hit],
            "seconds": round(time.time() - t0)}


def main():
    args = [a for a in sys.argv[1:] if a != "--near"]
    only_near = "--near" in sys.argv
    muts = json.load(open(args[0]))
    want = set(args[1:])
    mods = modules()
    manifest = json.load(open("/verif/MANIFEST.json"))["claims"]
    todo = [m for m in muts if not want or m["name"] in want]
    with ThreadPoolExecutor(3) as pool:
        for res in pool.map(lambda m: run(m, mods, manifest, only_near), todo):
            print(json.dumps(res, ensure_ascii=False), flush=True)


if __name__ == "__main__":
    main()
