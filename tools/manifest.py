#!/usr/bin/env python3
"""Writes MANIFEST.json. Claims are listed here; every property of properties.jsonl not listed gets
status not_applicable with a note."""
import json, os
ROOT = os.path.dirname(os.path.dirname(os.path.abspath(__file__)))
C = {}
def claim(pid, status, theorems, note):
    C[pid] = {"property": pid, "status": status, "theorems": theorems, "note": note}

exec(open(os.path.join(ROOT, "tools", "claims.py")).read())

props = [json.loads(l)["id"] for l in open(os.path.join(ROOT, "properties.jsonl"))]
out = []
for p in props:
    out.append(C.get(p, {"property": p, "status": "not_applicable", "theorems": [],
                         "note": "not modelled yet"}))
assert set(C) <= set(props), set(C) - set(props)
json.dump({"claims": out}, open(os.path.join(ROOT, "MANIFEST.json"), "w"), indent=1)
print(len(C), "claims of", len(props))
