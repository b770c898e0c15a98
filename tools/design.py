#!/usr/bin/env python3
"""Rewrites the last section of DESIGN.md from MANIFEST.json."""
import json, os
root = os.path.dirname(os.path.dirname(os.path.abspath(__file__)))
s = open(root + "/DESIGN.md").read()
head = s[:s.index("## Why claims are partial")]
out = head + """## Why claims are partial
A claim is `partial` in the manifest if its English statement is not true of the code for every input, or not expressible in full; the
theorems prove it exactly where it holds, and the rest is refuted. (Generated by tools/design.py from MANIFEST.json.)

"""
for c in json.load(open(root + "/MANIFEST.json"))["claims"]:
    if c["status"] == "partial": out += f"* **{c['property']}** - {c['note']}\n"
open(root + "/DESIGN.md", "w").write(out)
