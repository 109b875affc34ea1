#!/usr/bin/env python3
"""Write COVERAGE.md: for each function of the code the model definitions whose comment cites its lines."""
import ast, os, re, glob
here = os.path.dirname(os.path.abspath(__file__))
src = "/repo/oelint_parser"
cites = {}
for path in sorted(glob.glob(os.path.join(here, "..", "lean", "Verif", "Model", "*.lean"))):
    text = open(path).read()
    for m in re.finditer(r"/--(.*?)-/\s*((?:@\[[^\]]*\]\s*)?(?:partial |noncomputable )?(?:def|abbrev|structure|inductive|instance|class)\s+(\S+))", text, re.S):
        doc, name = m.group(1), m.group(3)
        last = None
        for c in re.finditer(r"(?:oelint_parser/)?(\w+\.py):([\d,\-\s]+)|\b(\d+-\d+)\b", doc):
            if c.group(1):
                last = c.group(1)
                spec = c.group(2)
            else:
                continue
            for part in re.findall(r"\d+(?:-\d+)?", spec):
                a, _, b = part.partition("-")
                cites.setdefault(last, []).append((int(a), int(b or a), os.path.basename(path)[:-5] + "." + name))
rows, uncovered = [], []
for path in sorted(glob.glob(src + "/*.py")):
    fn = os.path.basename(path)
    tree = ast.parse(open(path).read())
    def walk(node, prefix):
        for n in ast.iter_child_nodes(node):
            if isinstance(n, ast.ClassDef):
                walk(n, prefix + n.name + ".")
            elif isinstance(n, (ast.FunctionDef, ast.AsyncFunctionDef)):
                a = min([d.lineno for d in n.decorator_list] + [n.lineno])
                b = n.end_lineno
                defs = []
                for (x, y, d) in cites.get(fn, []):
                    if x <= b and y >= a and d not in defs:
                        defs.append(d)
                rows.append((fn, prefix + n.name, a, b, defs))
                walk(n, prefix + n.name + ".")
            else:
                walk(n, prefix)
    walk(tree, "")
with open(os.path.join(here, "..", "COVERAGE.md"), "w") as f:
    f.write("# Which function is modelled where\n\nWritten by tools/gen_coverage.py from the comments of the model definitions. Functions without entry are listed in DESIGN.md under \"not modelled\".\n\n| file | function | lines | model definitions |\n|---|---|---|---|\n")
    for fn, name, a, b, defs in rows:
        f.write("| %s | `%s` | %d-%d | %s |\n" % (fn, name, a, b, ", ".join("`%s`" % d for d in defs) or "-"))
print(len(rows), "functions,", [r[0] + ":" + r[1] for r in rows if not r[4]])
