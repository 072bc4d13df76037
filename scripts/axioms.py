#!/usr/bin/env python3
"""Writes AXIOMS.md: the axioms each theorem named in MANIFEST.json depends on (run after `lake build`)."""
import json, os, re, subprocess, tempfile

ROOT = os.path.dirname(os.path.dirname(os.path.abspath(__file__)))
claims = json.load(open(ROOT + "/MANIFEST.json"))["claims"]
names = sorted({t for c in claims for t in c["theorems"]})
with tempfile.NamedTemporaryFile("w", suffix=".lean", delete=False) as f:
    f.write("import Verif\n" + "".join(f"#print axioms {n}\n" for n in names))
out = subprocess.run(["lake", "env", "lean", f.name], cwd=ROOT + "/lean", capture_output=True, text=True).stdout
os.unlink(f.name)
out = re.sub(r"\n\s+", " ", out)
ax = {}
for m in re.finditer(r"'([^']+)' depends on axioms: \[([^\]]*)\]", out):
    ax[m.group(1)] = ", ".join(sorted(m.group(2).split(", ")))
for m in re.finditer(r"'([^']+)' does not depend on any axioms", out):
    ax[m.group(1)] = "none"
with open(ROOT + "/AXIOMS.md", "w") as f:
    f.write("# Axioms\n\nWhat `#print axioms` reports for the theorems of MANIFEST.json (written by scripts/axioms.py).\n")
    for c in claims:
        f.write(f"\n## {c['property']}\n\n")
        for t in c["theorems"]:
            f.write(f"- `{t}`: {ax[t]}\n")
kinds = sorted({v for v in ax.values()})
print(len(names), "theorems;", {k: sum(1 for n in names if ax[n] == k) for k in kinds})
