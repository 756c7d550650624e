#!/usr/bin/env python3
"""Rebuild MANIFEST.json from the theorem names (C01_..., C02_...) in lean/Verif/Props and the notes below."""
import json, os, re, glob
root = os.path.dirname(os.path.dirname(os.path.abspath(__file__)))
notes = json.load(open(os.path.join(root, "tools", "notes.json")))
thms = {}
for f in sorted(glob.glob(os.path.join(root, "lean/Verif/Props/*.lean"))):
    ns = []
    for l in open(f):
        m = re.match(r"namespace (\S+)", l)
        if m:
            ns.append(m.group(1))
        m = re.match(r"end (\S+)", l)
        if m and ns and ns[-1] == m.group(1):
            ns.pop()
        m = re.match(r"(?:noncomputable )?theorem ((C\d\d+)_\w+)", l)
        if m:
            thms.setdefault(m.group(2), []).append(".".join(ns + [m.group(1)]))
claims = []
for l in open(os.path.join(root, "properties.jsonl")):
    p = json.loads(l)["id"]
    if p not in thms:
        continue
    n = notes.get(p, {})
    status = "partial" if any(t.endswith("_partial") for t in thms[p]) else "proved"
    status = n.get("status", status)
    claims.append({"property": p, "status": status, "theorems": thms[p], "note": n.get("note", "")})
missing = [json.loads(l)["id"] for l in open(os.path.join(root, "properties.jsonl")) if json.loads(l)["id"] not in thms]
json.dump({"claims": claims}, open(os.path.join(root, "MANIFEST.json"), "w"), indent=1)
print(len(claims), "claims; no theorem yet for:", missing)
print("partial:", [c["property"] for c in claims if c["status"] == "partial"])
print("no note:", [c["property"] for c in claims if not c["note"]])
