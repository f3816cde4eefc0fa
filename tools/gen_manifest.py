#!/usr/bin/env python3
"""Writes MANIFEST.json from the table below (property -> status, theorems, note)."""
import json, os, re, glob
root = os.path.dirname(os.path.dirname(os.path.abspath(__file__)))
claims = {}
def c(p, status, theorems, note=""):
    claims[p] = {"property": p, "status": status, "theorems": ["Cesride." + t for t in theorems.split()], "note": note}
exec(open(os.path.join(root, "tools", "claims.py")).read())
props = [json.loads(l)["id"] for l in open(os.path.join(root, "properties.jsonl"))]
src = "\n".join(open(f).read() for f in glob.glob(root + "/lean/Verif/**/*.lean", recursive=True))
for p in props:
    if p not in claims:
        claims[p] = {"property": p, "status": "partial", "theorems": [], "note": "not yet proved"}
for cl in claims.values():
    for t in cl["theorems"]:
        n = t.split(".")[-1]
        assert re.search(r"theorem (\w+\.)*" + re.escape(n) + r"\b", src), t
json.dump({"claims": [claims[p] for p in props]}, open(os.path.join(root, "MANIFEST.json"), "w"), indent=1)
print({s: sum(1 for x in claims.values() if x["status"] == s and x["theorems"]) for s in ("proved", "partial", "not_applicable")}, "open:", [p for p in props if not claims[p]["theorems"]])
