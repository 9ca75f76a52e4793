#!/usr/bin/env python3
"""Write MANIFEST.json from the property theorems `Cnn_*` in lean/Verif/Props (notes and non-default statuses below)."""
import json, re, glob, os
root = os.path.dirname(os.path.dirname(os.path.abspath(__file__)))
ids = [json.loads(l)["id"] for l in open(f"{root}/properties.jsonl")]
PARTIAL = {}
NOTES = {
 "C04": "Unconditional termination is false of the code (C05); proved under exactly the excluded case of C05, with the recursion budget linear in the input.",
 "C05": "Finding: the expected rejection is false of the code; the hang is characterised exactly.",
 "C06": "Finding: panic freedom is false; proved: the complete list of reachable panics, with witnesses for each.",
 "C07": "Agreement whenever the debug build does not panic with overflow, plus a witness that it is needed.",
 "C08": "Finding: u16 slot counter overflow; both sides proved with a witness.",
 "C15": "Finding: iteration can panic; the panicking entries are characterised exactly.",
 "C17": "Finding: try_from accepts \"\" and \"a/\"; the accepted set is characterised exactly.",
 "C32": "Finding: false in release builds for one (low, high) pair; proved for all others.",
 "C44": "Finding: memory requested is not proportional to the input for refused code; it is for accepted code.",
 "C46": "Finding: panics on 32-bit targets; the inputs where targets can differ are characterised, acceptance is proved target independent.",
 "C34": "Finding: Display(parse s) = s fails outside pool validation; the prefix and round-trip claims are proved.",
}
thms = {}
for f in sorted(glob.glob(f"{root}/lean/Verif/Props/*.lean")):
    ns = []
    for line in open(f):
        m = re.match(r"namespace\s+(\S+)", line)
        if m: ns.append(m.group(1))
        m = re.match(r"end\s+(\S+)", line)
        if m and ns and ns[-1] == m.group(1): ns.pop()
        m = re.match(r"(?:@\[[^\]]*\]\s*)?theorem\s+(C\d\d)(_\S+)", line)
        if m: thms.setdefault(m.group(1), []).append(".".join(ns + [m.group(1) + m.group(2)]))
claims = []
for i in ids:
    if i in thms:
        claims.append({"property": i, "status": "partial" if i in PARTIAL else "proved", "theorems": thms[i],
                       "note": PARTIAL.get(i) or NOTES.get(i, "")})
    else:
        print("no theorem for", i)
json.dump({"claims": claims}, open(f"{root}/MANIFEST.json", "w"), indent=1)
