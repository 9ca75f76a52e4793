#!/usr/bin/env python3
"""Convert the results of mutation runs (one JSON object per line) into seeded/LOG.jsonl."""
import json, sys, os
here = os.path.dirname(os.path.dirname(os.path.abspath(__file__)))
src = sys.argv[1:] or ["/tmp/seed/results.jsonl"]
# hand-written remarks: (definition, edit) -> fields to add
NOTES = json.load(open(os.path.join(here, "seeded", "notes.json"))) if os.path.exists(os.path.join(here, "seeded", "notes.json")) else {}
out, seen = [], {}
for f in src:
    for l in open(f):
        r = json.loads(l)
        seen[(r["definition"], r["edit"])] = r
for (d, e), r in seen.items():
    props = r["failed"]
    o = {"definition": d, "module": r["module"], "edit": e, "old": r["old"], "new": r["new"], "breaks": r["claims"],
         "failed": props, "first_broken": r["direct"], "claims_without_failing_theorem": r["claims_not_hit"], "tightened": []}
    o.update(NOTES.get(d + " | " + e, {}))
    out.append(o)
with open(os.path.join(here, "seeded", "LOG.jsonl"), "w") as g:
    for o in out:
        g.write(json.dumps(o, ensure_ascii=False) + "\n")
print(len(out), sum(1 for o in out if o["claims_without_failing_theorem"]))
