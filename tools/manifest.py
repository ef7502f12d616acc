#!/usr/bin/env python3
"""Writes MANIFEST.json from the theorem names Cxx_* found in lean/Verif. Run: python3 tools/manifest.py"""
import json, os, re, glob
ROOT = os.path.join(os.path.dirname(os.path.abspath(__file__)), "..")
NOTES = json.load(open(os.path.join(ROOT, "tools", "notes.json")))
ids = [json.loads(l)["id"] for l in open(os.path.join(ROOT, "properties.jsonl"))]
thm = {i: [] for i in ids}
for f in sorted(glob.glob(os.path.join(ROOT, "lean/Verif/**/*.lean"), recursive=True)):
    stack = []
    for line in open(f):
        m = re.match(r"namespace\s+(\S+)", line)
        if m: stack.append(m.group(1))
        m = re.match(r"end\s+(\S+)", line)
        if m and stack and stack[-1] == m.group(1): stack.pop()
        m = re.match(r"(?:private |protected )?theorem\s+(C\d\d+)_(\w+)", line)
        if m:
            assert m.group(1) in thm, (f, line)
            thm[m.group(1)].append(".".join(stack + [m.group(1) + "_" + m.group(2)]))
claims = []
for i in ids:
    ts = thm[i]
    n = NOTES.get(i, {})
    st = n.get("status") or ("partial" if (not ts or any(t.endswith("_partial") for t in ts)) else "proved")
    note = n.get("note", "" if ts else "not yet modelled")
    claims.append(dict(property=i, status=st, theorems=ts, note=note))
json.dump({"claims": claims}, open(os.path.join(ROOT, "MANIFEST.json"), "w"), indent=1)
from collections import Counter
print(Counter(c["status"] for c in claims), [c["property"] for c in claims if not c["theorems"]])
