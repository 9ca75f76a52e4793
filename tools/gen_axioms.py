#!/usr/bin/env python3
"""Write AXIOMS.md: the axioms each manifest theorem depends on (needs a built tree)."""
import json, os, re, subprocess, tempfile
root = os.path.dirname(os.path.dirname(os.path.abspath(__file__)))
claims = json.load(open(f"{root}/MANIFEST.json"))["claims"]
names = [t for c in claims for t in c["theorems"]]
with tempfile.NamedTemporaryFile("w", suffix=".lean", delete=False) as f:
    f.write("import Verif\n" + "".join(f"#print axioms {n}\n" for n in names))
out = subprocess.run(["lake", "env", "lean", f.name], cwd=f"{root}/lean", capture_output=True, text=True).stdout
out = re.sub(r"\n\s+", " ", out)
got = {}
for l in out.split("\n"):
    m = re.match(r"'(\S+)' depends on axioms: \[(.*)\]", l)
    if m: got[m.group(1)] = m.group(2)
    m = re.match(r"'(\S+)' does not depend on any axioms", l)
    if m: got[m.group(1)] = "none"
with open(f"{root}/AXIOMS.md", "w") as f:
    f.write("# Axioms used by each property theorem\n\nGenerated by tools/gen_axioms.py from `#print axioms`.\n\n| theorem | axioms |\n|---|---|\n")
    for n in names: f.write(f"| {n} | {got.get(n, '?')} |\n")
print(len(names), sorted(set(got.values())), [n for n in names if n not in got])
