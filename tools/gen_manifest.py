#!/usr/bin/env python3
"""Writes /verif/MANIFEST.json from the theorem names in lean/Verif/Props and the notes below."""
import json, os, re, glob
root = os.path.join(os.path.dirname(os.path.abspath(__file__)), "..")
notes = json.load(open(os.path.join(root, "tools", "notes.json")))
ids = [json.loads(l)["id"] for l in open(os.path.join(root, "properties.jsonl"))]
ths = {}
for f in sorted(glob.glob(os.path.join(root, "lean/Verif/Props/*.lean"))):
    ns = []
    for line in open(f):
        m = re.match(r"namespace\s+(\S+)", line)
        if m: ns.append(m.group(1))
        m = re.match(r"end\s+(\S+)", line)
        if m and ns and ns[-1] == m.group(1): ns.pop()
        m = re.match(r"theorem\s+(C(\d+)_\S+)", line)
        if m: ths.setdefault("C" + m.group(2), []).append(".".join(ns + [m.group(1)]))
claims = []
for i in ids:
    t = ths.pop(i, [])
    n = notes.get(i, {})
    if not t and "status" not in n: continue
    st = n.get("status")
    if st is None:
        st = "partial" if any(x.endswith("_partial") or x.endswith("_false") for x in t) else "proved"
    claims.append(dict(property=i, status=st, theorems=t, note=n.get("note", "")))
assert not ths, ths
json.dump({"claims": claims}, open(os.path.join(root, "MANIFEST.json"), "w"), indent=1)
from collections import Counter
print(len(claims), "claims", Counter(c["status"] for c in claims), "missing", [i for i in ids if i not in [c["property"] for c in claims]])
