#!/usr/bin/env python3
"""Write AXIOMS.txt: for every theorem of MANIFEST.json the axioms it depends on (needs a finished `lake build`)."""
import json, os, re, subprocess, tempfile
root = os.path.dirname(os.path.dirname(os.path.abspath(__file__)))
names = []
for c in json.load(open(os.path.join(root, "MANIFEST.json")))["claims"]:
    names += [(c["property"], t) for t in c["theorems"]]
src = """import Verif
import Lean
open Lean Elab Command
run_cmd do
  for s in [%s] do
    let ax ← liftCoreM (collectAxioms s.toName)
    let l := (ax.toList.map toString).toArray.qsort (· < ·)
    IO.println s!"AX {s} {l.toList}"
""" % ", ".join('"%s"' % t for _, t in names)
with tempfile.NamedTemporaryFile("w", suffix=".lean", delete=False) as f:
    f.write(src)
out = subprocess.run(["lake", "env", "lean", f.name], cwd=os.path.join(root, "lean"), capture_output=True, text=True).stdout
got = dict(re.findall(r"^AX (\S+) \[(.*)\]$", out, re.M))
allowed = {"propext", "Classical.choice", "Quot.sound"}
with open(os.path.join(root, "AXIOMS.txt"), "w") as f:
    for p, t in names:
        ax = got[t]
        assert set(a for a in ax.split(", ") if a) <= allowed, (t, ax)
        f.write("%s %s: %s\n" % (p, t, ax or "none"))
print(len(names), "theorems")
