#!/usr/bin/env python3
"""Seed wrong programs into a scratch copy of the model and record which theorems stop proving.

usage: mutate.py mutants.py [first_index]
mutants.py defines M = [(file, definition, old, new, claim, theorems tightened since an earlier attempt...), ...]; file is relative to lean/Verif.
Each edit is applied to a scratch copy in /tmp/mut, everything is rebuilt there, and one line is appended to seeded/LOG.jsonl.
A mutant whose rebuild breaks no theorem (only examples, or nothing) is reported as SURVIVED and not logged.
"""
import json, os, re, subprocess, sys, shutil, importlib.util
ROOT = os.path.dirname(os.path.dirname(os.path.abspath(__file__)))
sys.path.insert(0, os.path.join(ROOT, "tools")); import deps
SRC, MUT = os.path.join(ROOT, "lean"), "/tmp/mut"
spec = importlib.util.spec_from_file_location("mutants", sys.argv[1]); mod = importlib.util.module_from_spec(spec); spec.loader.exec_module(mod)
start = int(sys.argv[2]) if len(sys.argv) > 2 else 0
DECL = re.compile(r"^(?:private |protected |noncomputable |@\[.*?\] )*(theorem|lemma|def|example|instance|inductive|structure|abbrev)\s*(\S*)")

def sync():
    subprocess.run(["rsync", "-a", "--delete", SRC + "/", MUT + "/"], check=True) if shutil.which("rsync") else \
        subprocess.run(f"mkdir -p {MUT} && cp -au {SRC}/. {MUT}/", shell=True, check=True)
    subprocess.run(f"sed -i /Verif.Conformance/d {MUT}/Verif.lean", shell=True, check=True)

def enclosing(path, line):
    kind, name = "?", "?"
    for i, l in enumerate(open(path), 1):
        if i > line: break
        m = DECL.match(l)
        if m: kind, name = m.group(1), m.group(2)
    return kind, name

sync()
DB = deps.load()
for idx, (file, definition, old, new, claim, *tightened) in enumerate(mod.M):
    if idx < start: continue
    p = os.path.join(MUT, "Verif", file)
    orig = open(os.path.join(SRC, "Verif", file)).read()
    at = re.search(r"^(?:noncomputable )?(?:def|structure|inductive|abbrev) " + re.escape(definition) + r"\b", orig, re.M) if orig.count(old) != 1 else None
    at, end = (at.start(), orig.find("\n\n", at.start())) if at else (0, len(orig))
    if orig.count(old, at, end) != 1:
        print(idx, definition, "PATTERN COUNT", orig.count(old)); continue
    open(p, "w").write(orig[:at] + orig[at:end].replace(old, new) + orig[end:])
    out = subprocess.run(["lake", "build"], cwd=MUT, capture_output=True, text=True)
    txt = out.stdout + out.stderr
    failed, examples, modelerr = [], 0, False
    for m in re.finditer(r"^error: (Verif/\S+?\.lean):(\d+):\d+:", txt, re.M):
        kind, name = enclosing(os.path.join(MUT, m.group(1)), int(m.group(2)))
        if kind == "example": examples += 1
        elif kind in ("theorem", "lemma"):
            if name not in failed: failed.append(name)
        else: modelerr = True; print("  error in", kind, name, m.group(0))
    open(p, "w").write(orig)
    if modelerr: print(idx, definition, "MODEL DOES NOT BUILD"); continue
    if not failed:
        print(idx, definition, "SURVIVED", "examples", examples, "rc", out.returncode); sys.stdout.flush(); continue
    props = deps.resting(DB, failed)
    print(idx, definition, "killed:", failed[:4], "->", props[:6]); sys.stdout.flush()
    with open(os.path.join(ROOT, "seeded", "LOG.jsonl"), "a") as f:
        f.write(json.dumps({"definition": f"{definition} (lean/Verif/{file})", "edit": f"{old.strip()}  ==>  {new.strip()}", "claim_broken": claim,
                            "failed": failed, "property_theorems_resting_on_them": props, "tightened": tightened}) + "\n")
