#!/usr/bin/env python3
"""Writes ../MANIFEST.json; properties without an entry below are not claimed yet."""
import json, os
C = {}
def c(pid, status, theorems, note=""):
    C[pid] = dict(property=pid, status=status, theorems=["PT." + t for t in theorems.split()], note=note)
here = os.path.dirname(os.path.abspath(__file__))
exec(open(os.path.join(here, "claims.py")).read())
json.dump({"claims": [C[k] for k in sorted(C)]}, open(os.path.join(here, "..", "MANIFEST.json"), "w"), indent=1, ensure_ascii=False)
ids = [json.loads(l)["id"] for l in open(os.path.join(here, "..", "properties.jsonl"))]
print("claimed", len(C), "of", len(ids), "missing:", [i for i in ids if i not in C])
