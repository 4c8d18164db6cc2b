"""List the line citations of the model whose range is not within one function or class of /repo."""
import ast, glob, os, re

idx = {}
for root, _, fs in os.walk("/repo/rubin_sim"):
    for f in fs:
        if f.endswith(".py"):
            idx.setdefault(f, []).append(os.path.join(root, f))

cache = {}


def scopes(path):
    if path not in cache:
        out = []

        def walk(n):
            for c in ast.iter_child_nodes(n):
                if isinstance(c, (ast.FunctionDef, ast.ClassDef)):
                    start = min([c.lineno] + [d.lineno for d in c.decorator_list])
                    out.append((start, c.end_lineno, c.name))
                walk(c)

        walk(ast.parse(open(path).read()))
        cache[path] = out
    return cache[path]


bad = 0
for m in sorted(glob.glob("lean/Verif/Model/*.lean")):
    s = open(m).read()
    last = None
    for c in re.finditer(r"/--.*?-/|/-!.*?-/", s, re.S):
        for mm in re.finditer(r"(\w+\.py)(?::(\d+)(?:-(\d+))?)?|[Ll]ines? (\d+)(?:-(\d+))?", c.group(0)):
            last = mm.group(1) or last
            a = mm.group(2) or mm.group(4)
            if not a:
                continue
            b = int(mm.group(3) or mm.group(5) or a)
            a = int(a)
            ok = any(s0 <= a and b <= e0 for p in idx.get(last, []) for s0, e0, _ in scopes(p))
            if not ok:
                bad += 1
                print(m, last, a, b)
print(bad, "citations to check")
