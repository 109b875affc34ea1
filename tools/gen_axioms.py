#!/usr/bin/env python3
"""Write AXIOMS.md: the axioms each claimed theorem depends on, as reported by `#print axioms`."""
import json, os, re, subprocess, tempfile
here = os.path.dirname(os.path.abspath(__file__))
claims = json.load(open(os.path.join(here, "..", "MANIFEST.json")))["claims"]
names = [t for c in sorted(claims, key=lambda c: int(c["property"][1:])) for t in c["theorems"]]
with tempfile.NamedTemporaryFile("w", suffix=".lean", delete=False) as f:
    f.write("import Verif\n" + "".join("#print axioms %s\n" % n for n in names))
out = subprocess.run(["lake", "env", "lean", f.name], cwd=os.path.join(here, "..", "lean"), capture_output=True, text=True).stdout
os.unlink(f.name)
out = re.sub(r"\n\s+", " ", out)
ax = {}
for m in re.finditer(r"'(\S+)' depends on axioms: \[([^\]]*)\]", out):
    ax[m.group(1)] = re.sub(r"\s+", " ", m.group(2))
for m in re.finditer(r"'(\S+)' does not depend on any axioms", out):
    ax[m.group(1)] = "none"
missing = [n for n in names if n not in ax]
assert not missing, missing
allowed = {"propext", "Classical.choice", "Quot.sound"}
bad = {n for n in names if ax[n] != "none" and not set(ax[n].split(", ")) <= allowed}
assert not bad, bad
with open(os.path.join(here, "..", "AXIOMS.md"), "w") as f:
    f.write("# Axioms\n\nWhat `#print axioms` reports for each claimed theorem (written by tools/gen_axioms.py). The axioms are those of Lean itself.\n\n| property | theorem | axioms |\n|---|---|---|\n")
    for c in sorted(claims, key=lambda c: int(c["property"][1:])):
        for t in c["theorems"]:
            f.write("| %s | `%s` | %s |\n" % (c["property"], t, ax[t]))
print(len(names), "theorems")
