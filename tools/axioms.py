#!/usr/bin/env python3
"""Regenerate AXIOMS.md: the axioms each property theorem depends on, as Lean computes them. Needs a built project."""
import json, os, subprocess, tempfile
root = os.path.dirname(os.path.dirname(os.path.abspath(__file__)))
claims = json.load(open(f"{root}/MANIFEST.json"))["claims"]
names = [t for c in claims for t in c["theorems"]]
src = """import Verif
open Lean
#eval show CoreM Unit from do
  for n in [%s] do
    unless (← getEnv).contains n do throwError "no theorem {n}"
    let axs := (← collectAxioms n).qsort Name.lt
    IO.println s!"AX {n} {axs.toList}"
""" % ", ".join("`" + n for n in names)
with tempfile.NamedTemporaryFile("w", suffix=".lean", delete=False) as f:
    f.write(src)
out = subprocess.run(["lake", "env", "lean", f.name], cwd=f"{root}/lean", capture_output=True, text=True).stdout
groups = {}
for l in out.split("\n"):
    if l.startswith("AX "):
        _, n, a = l.split(" ", 2)
        groups.setdefault(a, []).append(n)
assert sum(map(len, groups.values())) == len(names), out[-2000:]
with open(f"{root}/AXIOMS.md", "w") as f:
    f.write("# Axioms of the property theorems\n\nGenerated by `tools/axioms.py` (Lean's `collectAxioms`). "
            "No other axiom occurs.\n")
    for a, ns in sorted(groups.items(), key=lambda x: len(x[0])):
        f.write(f"\n## {a if a != '[]' else 'none'} ({len(ns)} theorems)\n\n")
        f.write(", ".join(f"`{n.split('.')[-1]}`" for n in ns) + "\n")
for a, ns in groups.items():
    print(a, len(ns))
