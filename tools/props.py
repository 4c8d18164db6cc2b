"""Single source for properties.jsonl, MANIFEST.json and the per-property table of DESIGN.md.

Run:  python3 tools/props.py   (from /verif)
"""
import json, os, re

P = []


def p(id, title, statement, quantifier, why, anchors, plan, status="partial", theorems=(), note=""):
    P.append(dict(id=id, title=title, statement=statement, quantifier=quantifier, why=why,
                  anchors=anchors, plan=plan, status=status, theorems=list(theorems), note=note))


exec(open(os.path.join(os.path.dirname(__file__), "props_data.py")).read())
exec(open(os.path.join(os.path.dirname(__file__), "status.py")).read())
for x in P:
    if x["id"] in STATUS:
        x["status"], x["theorems"], x["note"] = STATUS[x["id"]]

root = os.path.dirname(os.path.dirname(os.path.abspath(__file__)))
with open(os.path.join(root, "properties.jsonl"), "w") as f:
    for x in P:
        f.write(json.dumps({"id": x["id"], "title": x["title"], "statement": x["statement"],
                            "quantifier": x["quantifier"], "why_tests_cant": x["why"],
                            "anchors": x["anchors"]}) + "\n")
claims = []
for x in P:
    if x["status"] != "planned":
        claims.append({"property": x["id"], "status": x["status"], "theorems": x["theorems"], "note": x["note"]})
with open(os.path.join(root, "MANIFEST.json"), "w") as f:
    json.dump({"claims": claims}, f, indent=1)
    f.write("\n")
# DESIGN table
axfile = os.path.join(root, "tools", "axioms.json")
AX = json.load(open(axfile)) if os.path.exists(axfile) else {}


def ax(n):
    """Axioms as reported by Lean (tools/axioms.py)."""
    if n not in AX:
        return ""
    return " [" + ("".join({"propext": "p", "Classical.choice": "c", "Quot.sound": "q"}[a] for a in AX[n]) or "none") + "]"


def modelled():
    """One line per definition of the model, with its own description."""
    out = []
    mdir = os.path.join(root, "lean", "Verif", "Model")
    for f in sorted(os.listdir(mdir)):
        src = open(os.path.join(mdir, f)).read()
        out.append("### `Verif/Model/%s`\n" % f)
        head = re.search(r"/-!(.*?)-/", src, flags=re.S).group(1)
        out.append(re.sub(r"^#+ ", "", head.strip(), flags=re.M) + "\n")
        lines = []
        for m in re.finditer(r"/--((?:(?!-/).)*)-/\s*(?:@\[[^\]]*\]\s*)?(?:noncomputable )?(def|structure|inductive|abbrev) (\S+)", src, flags=re.S):
            doc = " ".join(m.group(1).split())
            lines.append("* `%s`: %s" % (m.group(3), doc))
        out.append("\n".join(lines) + "\n")
    return "\n".join(out)


d = os.path.join(root, "DESIGN.md")
s = open(d).read()
t = []
for x in P:
    t.append(f"### {x['id']} — {x['title']}\n\n*Status:* {x['status']}. *Model and proof:* {x['plan']}\n")
    if x["theorems"]:
        t.append("*Theorems:* " + ", ".join("`%s`%s" % (n, ax(n)) for n in x["theorems"]) + "\n")
    if x["note"]:
        t.append("*Note:* " + x["note"] + "\n")
t = "\n".join(t)
s = re.sub(r"<!-- BEGIN TABLE -->.*<!-- END TABLE -->",
           lambda m: "<!-- BEGIN TABLE -->\n\n" + t + "\n<!-- END TABLE -->", s, flags=re.S)
s = re.sub(r"<!-- BEGIN MODELLED -->.*<!-- END MODELLED -->",
           lambda m: "<!-- BEGIN MODELLED -->\n\n" + modelled() + "\n<!-- END MODELLED -->", s, flags=re.S)
open(d, "w").write(s)
print(len(P), "properties;", {k: sum(x["status"] == k for x in P) for k in ("proved", "partial", "not_applicable", "planned")})
