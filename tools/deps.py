#!/usr/bin/env python3
"""Which theorems rest on which, read from the compiled environment (needs a finished build).

As a program, rewrites the field property_theorems_resting_on_them of every line of seeded/LOG.jsonl.
"""
import collections, json, os, re, subprocess, tempfile
ROOT = os.path.join(os.path.dirname(os.path.abspath(__file__)), "..")
DUMP = r"""
import Lean
import Verif
open Lean
#eval show MetaM Unit from do
  let env ← getEnv
  let mut mine : Std.HashMap Name Name := {}
  for i in [0:env.header.moduleNames.size] do
    if env.header.moduleNames[i]!.getRoot == `Verif then
      for n in env.header.moduleData[i]!.constNames do mine := mine.insert n env.header.moduleNames[i]!
  let h ← IO.FS.Handle.mk "@OUT@" .write
  for (n, m) in mine.toList do
    if let some c := env.find? n then
      let used := c.getUsedConstantsAsSet.toList.filter mine.contains
      h.putStrLn (s!"{m}\t{n}\t" ++ " ".intercalate (used.map toString))
"""

def load():
    out = tempfile.mktemp(suffix=".tsv")
    with tempfile.NamedTemporaryFile("w", suffix=".lean", delete=False) as f: f.write(DUMP.replace("@OUT@", out))
    subprocess.run(["lake", "env", "lean", f.name], cwd=os.path.join(ROOT, "lean"), check=True, capture_output=True)
    users, names = collections.defaultdict(set), collections.defaultdict(set)
    for line in open(out):
        mod, name, used = line.rstrip("\n").split("\t")
        parts = name.split(".")
        for i in range(len(parts)): names[".".join(parts[i:])].add((mod, name))
        for u in used.split(): users[u].add(name)
    os.unlink(f.name); os.unlink(out)
    return users, names

def resting(db, failed):
    """The property theorems among `failed` and everything that uses them; `failed` are names as written in the source."""
    users, names = db
    todo = [n for f in failed for _, n in names.get(f, ())]
    seen = set(todo)
    while todo:
        for u in users[todo.pop()]:
            if u not in seen: seen.add(u); todo.append(u)
    last = {n.split(".")[-1] for n in seen} | set(failed)
    return sorted(n for n in last if re.match(r"C\d\d+_", n) and not re.search(r"_proof_|match_|eq_\d", n))

if __name__ == "__main__":
    db = load()
    p = os.path.join(ROOT, "seeded", "LOG.jsonl")
    rows = [json.loads(l) for l in open(p)]
    gone = 0
    for r in rows:
        if "failed" in r:
            new = resting(db, r["failed"])
            gone += not new
            if new: r["property_theorems_resting_on_them"] = new
    open(p, "w").write("".join(json.dumps(r) + "\n" for r in rows))
    print(len(rows), "lines,", gone, "whose failed theorems no longer exist under that name")
