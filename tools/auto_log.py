#!/usr/bin/env python3
"""Writes seeded/AUTO.jsonl from the results of the automatic one-token edits of the model (seeded/AUTO.jsonl is described in DESIGN.md 5)."""
import json, os, sys
SRC = sys.argv[1] if len(sys.argv) > 1 else "/tmp/am/results.jsonl"
OUT = os.path.join(os.path.dirname(os.path.abspath(__file__)), "..", "seeded", "AUTO.jsonl")
NOTE = {
    ("ReturnDescriptor.variant", "1"): "equivalent: any two different numbers tell the variants apart",
    ("strHash", "0xFF"): "no claim breaks: equal texts still write the same to the hasher",
    ("loadableL", "false"): "equivalent: a method type has one cell, whose label is free",
}
if not os.path.exists(SRC):
    sys.exit(0)
rows = []
for l in open(SRC):
    d = json.loads(l)
    if d["status"] == "invalid":
        continue
    r = {"definition": d["definition"], "module": d["module"], "line": d["line"], "edit": d["old"] + " -> " + d["new"], "in": d["ctx"].strip(),
         "result": "a proof fails" if d["status"] == "killed" else "all theorems still prove", "first_module_failing": d["by"]}
    n = NOTE.get((d["definition"], d["old"]))
    if d["status"] == "survived" and n:
        r["note"] = n
    rows.append(r)
rows.sort(key=lambda r: (r["module"], r["line"], r["edit"]))
with open(OUT, "w") as f:
    for r in rows:
        f.write(json.dumps(r, ensure_ascii=False) + "\n")
print(len(rows), "automatic edits")
