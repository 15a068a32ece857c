#!/usr/bin/env python3
"""Regenerate MANIFEST.json: theorems are found by their Cnn_ prefix in lean/Verif/Props; the notes
and statuses come from the NOTES table."""
import json, os, re, glob
root = os.path.join(os.path.dirname(os.path.abspath(__file__)), "..")
from notes import NOTES
props = [json.loads(l) for l in open(os.path.join(root, "properties.jsonl"))]
thms = {}
for f in sorted(glob.glob(os.path.join(root, "lean/Verif/Props/**/*.lean"), recursive=True)):
    ns = []
    for line in open(f):
        m = re.match(r"namespace (\S+)", line)
        if m: ns.append(m.group(1))
        m = re.match(r"end (\S+)", line)
        if m and ns and ns[-1] == m.group(1): ns.pop()
        m = re.match(r"(?:private )?theorem ((C\d{2,3})_\S+)", line)
        if m: thms.setdefault(m.group(2), []).append(".".join(ns + [m.group(1)]))
claims = []
for p in props:
    i = p["id"]
    ts = thms.get(i, [])
    if not ts: 
        if i in NOTES and NOTES[i][0] == "not_applicable":
            claims.append({"property": i, "status": "not_applicable", "theorems": [], "note": NOTES[i][1]})
        continue
    st, note = NOTES.get(i, ("proved", ""))
    claims.append({"property": i, "status": st, "theorems": ts, "note": note})
json.dump({"claims": claims}, open(os.path.join(root, "MANIFEST.json"), "w"), indent=1)
print(len(claims), "claims;", [p["id"] for p in props if p["id"] not in [c["property"] for c in claims]], "open")
