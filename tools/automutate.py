#!/usr/bin/env python3
"""Systematic small edits of every model definition (a definition whose comment cites lines of /repo).

usage: automutate.py list [per_def] | automutate.py run [per_def] [file substring ...] | automutate.py retry
retry builds the survivors listed in seeded/AUTO.jsonl again (after theorems were tightened) and replaces their lines; those with a "note" are kept.
Each mutant is built in /tmp/automut until the first theorem fails. One line per mutant goes to seeded/AUTO.jsonl; survivors have "killed_by": null.
"""
import json, os, re, subprocess, sys, hashlib, shutil, signal
ROOT = os.path.dirname(os.path.dirname(os.path.abspath(__file__)))
SRC, MUT = "/tmp/autosrc", "/tmp/automut"  # SRC is a built copy of lean/
DECL = re.compile(r"^(?:private |protected |noncomputable |@\[.*?\] )*(theorem|lemma|def|example|instance|inductive|structure|abbrev)\s*(\S*)")
OPS = [(r" < ", " ≤ "), (r" ≤ ", " < "), (r" > ", " ≥ "), (r" ≥ ", " > "), (r" = ", " ≠ "), (r" ≠ ", " = "), (r" == ", " != "), (r" != ", " == "),
       (r" && ", " || "), (r" \|\| ", " && "), (r" ∧ ", " ∨ "), (r" ∨ ", " ∧ "), (r" \+ 1\b", ""), (r" - 1\b", ""), (r"\btrue\b", "false"), (r"\bfalse\b", "true"),
       (r"(?<=[ (])!(?=[a-z(])", ""), (r"\.reverse\b", ""), (r" \+ (?!1\b)", " - "), (r" - (?!1\b)", " + "), (r"\b\d+\b", "NUM"), (r"\+\+ \[\w+\]", "++ []")]

def mutants(per_def, subs):
    res = []
    for d, _, fs in sorted(os.walk(os.path.join(SRC, "Verif"))):
        for f in sorted(fs):
            if not f.endswith(".lean"): continue
            rel = os.path.relpath(os.path.join(d, f), os.path.join(SRC, "Verif"))
            if subs and not any(s in rel for s in subs): continue
            src = open(os.path.join(d, f)).read()
            for m in re.finditer(r"/--(.*?)-/\n((?:private |noncomputable )?def .*?)(?=\n\n(?:/--|/-!|theorem|def|end|example|private|variable|open|namespace|section|instance|@\[|noncomputable|omit|structure|inductive|abbrev)|\Z)", src, re.S):
                if not re.search(r"\d{2,5}-\d{2,5}|\(\d{3,5}|\b\d{4,5}\b", m.group(1)): continue
                body, base = m.group(2), m.start(2)
                name = re.match(r"(?:private |noncomputable )?def (\S+)", body).group(1)
                # skip the signature
                k = re.search(r":=|\n\s*\|", body)
                if not k: continue
                pts = []
                for pat, rep in OPS:
                    for x in re.finditer(pat, body):
                        if x.start() < k.start(): continue
                        line = body[body.rfind("\n", 0, x.start()) + 1: x.start()]
                        if "--" in line or "/-" in line: continue
                        if pat == r" = " and re.search(r"let [^;]*$", line) and ":=" not in line: continue
                        r = rep
                        if rep == "NUM":
                            if int(x.group(0)) < 2 or body[x.start()-1] in "._": continue
                            r = str(int(x.group(0)) + 1)
                        pts.append((base + x.start(), base + x.end(), src[base + x.start(): base + x.end()], r))
                pts.sort(key=lambda p: hashlib.md5((rel + name + str(p)).encode()).hexdigest())
                for p in pts[:per_def]: res.append((rel, name) + p)
    return res

def enclosing(path, line):
    kind, name = "?", "?"
    for i, l in enumerate(open(path), 1):
        if i > line: break
        m = DECL.match(l)
        if m: kind, name = m.group(1), m.group(2)
    return kind, name

def tree(root):
    st = os.lstat(os.path.join(root, "Verif.lean")); t = {"Verif.lean": (st.st_mtime_ns, st.st_size)}
    for top in ("Verif", ".lake/build"):
        for d, _, fs in os.walk(os.path.join(root, top)):
            for f in fs:
                q = os.path.join(d, f); st = os.lstat(q); t[os.path.relpath(q, root)] = (st.st_mtime_ns, st.st_size)
    return t

def sync():
    if not os.path.exists(MUT): subprocess.run(["cp", "-a", SRC, MUT], check=True)
    a, b = tree(SRC), tree(MUT)
    for q in b:
        if q not in a: os.remove(os.path.join(MUT, q))
    for q in a:
        if a[q] != b.get(q):
            os.makedirs(os.path.dirname(os.path.join(MUT, q)), exist_ok=True)
            if os.path.exists(os.path.join(MUT, q)): os.remove(os.path.join(MUT, q))
            shutil.copy2(os.path.join(SRC, q), os.path.join(MUT, q))

mode = sys.argv[1]; per = int(sys.argv[2]) if len(sys.argv) > 2 else 3; subs = sys.argv[3:]
if mode == "retry": per = 10 ** 6
M = mutants(per, subs)
if mode == "list":
    print(len(M), len({(a, b) for a, b, *_ in M})); sys.exit()
LOG = os.path.join(ROOT, "seeded", "AUTO.jsonl")
done, again = set(), set()
if os.path.exists(LOG):
    for l in open(LOG):
        j = json.loads(l); k = (j["file"], j["definition"], j["context"], j["old"], j["new"])
        if mode == "retry":
            if j["killed_by"] is None and "note" not in j: again.add(k)
        else: done.add(k)
for rel, name, a, b, old, new in M:
    orig = open(os.path.join(SRC, "Verif", rel)).read()
    ls, le = orig.rfind("\n", 0, a) + 1, orig.find("\n", b)
    ctx = orig[ls:le].strip() + f" @{a - ls}"
    key = (rel, name, ctx, old, new)
    if key in done or orig[a:b] != old or (mode == "retry" and key not in again): continue
    sync()
    p = os.path.join(MUT, "Verif", rel)
    open(p, "w").write(orig[:a] + new + orig[b:])
    pr = subprocess.Popen(["lake", "build"], cwd=MUT, stdout=subprocess.PIPE, stderr=subprocess.STDOUT, text=True, start_new_session=True)
    res, ex, mod = None, 0, "?"
    for line in pr.stdout:
        m = re.match(r"✖ \[\d+/\d+\] Building (\S+)", line)
        if m: mod = m.group(1)
        if "Lean exited with code 137" in line:  # killed for its memory: the proof no longer goes through
            res = "prover out of memory: " + mod
            break
        m = re.match(r"error: (Verif/\S+?\.lean):(\d+):\d+:", line)
        if m:
            kind, nm = enclosing(os.path.join(MUT, m.group(1)), int(m.group(2)))
            if kind == "example": ex += 1; continue
            res = ("theorem " + nm) if kind in ("theorem", "lemma") else "does not build: " + nm
            break
    try: os.killpg(pr.pid, signal.SIGKILL)
    except ProcessLookupError: pass
    pr.wait()
    stuck = ex > 0 and res is None
    if mode == "retry":
        ls = [l for l in open(LOG) if (lambda j: (j["file"], j["definition"], j["context"], j["old"], j["new"]))(json.loads(l)) != key]
        open(LOG, "w").writelines(ls)
    with open(LOG, "a") as f:
        f.write(json.dumps({"file": rel, "definition": name, "context": ctx, "old": old, "new": new, "killed_by": res, "examples": ex}, ensure_ascii=False) + "\n")
    if res is None: print("SURVIVED", rel, name, repr(ctx), repr(old), "->", repr(new), "examples", ex); sys.stdout.flush()
