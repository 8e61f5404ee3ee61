#!/usr/bin/env python3
"""Write AXIOMS.md: the axioms each theorem of MANIFEST.json depends on, as Lean reports them (run after `lake build`)."""
import json, re, os, subprocess, tempfile
root = os.path.dirname(os.path.dirname(os.path.abspath(__file__)))
names = []
for c in json.load(open(root + "/MANIFEST.json"))["claims"]:
    for t in c["theorems"]:
        if t not in names: names.append(t)
with tempfile.NamedTemporaryFile("w", suffix=".lean", delete=False) as f:
    f.write("import Verif\n" + "".join(f"#print axioms {t}\n" for t in names))
out = subprocess.run(["lake", "env", "lean", f.name], cwd=root + "/lean", capture_output=True, text=True).stdout
out = re.sub(r"\n\s+", " ", out)
res = {}
for line in out.split("\n"):
    m = re.match(r"'(.+)' depends on axioms: \[(.*)\]", line)
    if m: res[m.group(1)] = m.group(2)
    m = re.match(r"'(.+)' does not depend on any axioms", line)
    if m: res[m.group(1)] = "none"
missing = [n for n in names if n not in res]
assert not missing, missing
with open(root + "/AXIOMS.md", "w") as f:
    f.write("# Axioms each theorem depends on\n\nGenerated by tools/axioms.py from Lean's `#print axioms`.\n\n| theorem | axioms |\n|---|---|\n")
    for n in names: f.write(f"| `{n}` | {res[n]} |\n")
print(len(names), "theorems;", sorted({a for r in res.values() for a in r.split(", ")}))
