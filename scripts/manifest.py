#!/usr/bin/env python3
"""Writes MANIFEST.json from the theorem names in lean/Verif/Props and the notes below.

A theorem belongs to property Cnn if its name starts with Cnn_; FINDINGS says which
counterexamples belong to which property."""
import json, re, glob, os

ROOT = os.path.dirname(os.path.dirname(os.path.abspath(__file__)))

FINDINGS = json.load(open(os.path.join(ROOT, "scripts", "findings.json")))
NOTES = json.load(open(os.path.join(ROOT, "scripts", "notes.json")))

names = {}
for p in sorted(glob.glob(ROOT + "/lean/Verif/Props/*.lean")):
    ns = []
    for line in open(p):
        m = re.match(r"namespace (\S+)", line)
        if m:
            ns.append(m.group(1))
        m = re.match(r"end (\S+)", line)
        if m and ns and ns[-1] == m.group(1):
            ns.pop()
        m = re.match(r"theorem (\S+)", line)
        if m:
            names[m.group(1)] = ".".join(ns + [m.group(1)])

claims = []
for line in open(ROOT + "/properties.jsonl"):
    pid = json.loads(line)["id"]
    ths = [full for n, full in names.items() if n.startswith(pid + "_")]
    finds = [names[n] for n in FINDINGS.get(pid, [])]
    if not ths and not finds:
        continue
    partial = bool(finds) or any(t.endswith("_partial") for t in ths)
    claims.append({
        "property": pid,
        "status": "partial" if partial else "proved",
        "theorems": ths + finds,
        "note": NOTES.get(pid, ""),
    })
json.dump({"claims": claims}, open(ROOT + "/MANIFEST.json", "w"), indent=1, ensure_ascii=False)
print(len(claims), "claims;", [c["property"] for c in claims if c["status"] == "partial"])
missing = [n for l in FINDINGS.values() for n in l if n not in names]
print("missing", missing)
print("unused findings", [n for n in names if n.startswith("finding_") and not any(n in l for l in FINDINGS.values())])
print("no note", [c["property"] for c in claims if not c["note"]])
