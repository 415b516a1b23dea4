#!/usr/bin/env python3
"""Writes AXIOMS.md: the axioms every theorem named in MANIFEST.json depends on, as printed by Lean (needs a finished build)."""
import json, os, re, subprocess, tempfile
root = os.path.join(os.path.dirname(os.path.abspath(__file__)), "..")
names = sorted({t for c in json.load(open(os.path.join(root, "MANIFEST.json")))["claims"] for t in c["theorems"]})
src = "import Verif\n" + "".join("#print axioms %s\n" % n for n in names)
with tempfile.NamedTemporaryFile("w", suffix=".lean", delete=False) as f:
    f.write(src)
out = subprocess.run(["lake", "env", "lean", f.name], cwd=os.path.join(root, "lean"), capture_output=True, text=True).stdout
os.unlink(f.name)
found = {}
for m in re.finditer(r"'([^']+'*)' (depends on axioms: \[([^\]]*)\]|does not depend on any axioms)", out):
    found[m.group(1)] = " ".join((m.group(3) or "none").replace("\n", " ").split())
groups = {}
for n in names:
    groups.setdefault(found[n], []).append(n)
with open(os.path.join(root, "AXIOMS.md"), "w") as f:
    f.write("# Axioms of the theorems in MANIFEST.json\n\nGenerated by tools/gen_axioms.py from `#print axioms`.\n")
    for g in sorted(groups):
        f.write("\n## %s (%d theorems)\n\n%s\n" % (g, len(groups[g]), ", ".join("`%s`" % n.split(".")[-1] for n in groups[g])))
print({g: len(v) for g, v in groups.items()})
