#!/usr/bin/env python3
"""Asks Lean for the axioms of every theorem in MANIFEST.json and writes the table into DESIGN.md,
between the two markers. Needs a finished `lake build`."""
import json, os, re, subprocess, tempfile
ROOT = os.path.dirname(os.path.dirname(os.path.abspath(__file__)))
names = []
for c in json.load(open(os.path.join(ROOT, "MANIFEST.json")))["claims"]:
    for t in c["theorems"]:
        if t not in names: names.append(t)
f = tempfile.NamedTemporaryFile("w", suffix=".lean", delete=False)
f.write("import Verif\n" + "".join("#print axioms %s\n" % n for n in names)); f.close()
out = subprocess.run(["lake", "env", "lean", f.name], cwd=os.path.join(ROOT, "lean"), capture_output=True, text=True).stdout
os.unlink(f.name)
ax = {}
for m in re.finditer(r"'([^']+)' (?:depends on axioms: \[([^\]]*)\]|does not depend on any axioms)", out):
    ax[m.group(1)] = tuple(sorted(a.strip() for a in (m.group(2) or "").replace("\n", " ").split(",") if a.strip()))
missing = [n for n in names if n not in ax]
groups = {}
for n in names:
    if n in ax: groups.setdefault(ax[n], []).append(n)
text = ""
for g in sorted(groups, key=lambda g: (len(g), g)):
    text += "**%s** (%d theorems): %s.\n\n" % (", ".join("`%s`" % a for a in g) if g else "No axioms", len(groups[g]),
        ", ".join("`%s`" % n.replace("Helper.", "", 1) for n in groups[g]))
p = os.path.join(ROOT, "DESIGN.md")
t = open(p).read()
a, b = "<!-- axioms -->\n", "<!-- /axioms -->\n"
i, j = t.index(a) + len(a), t.index(b)
open(p, "w").write(t[:i] + text + t[j:])
print({g: len(v) for g, v in groups.items()}, "missing:", missing)
