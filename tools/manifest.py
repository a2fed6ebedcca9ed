#!/usr/bin/env python3
"""Writes /verif/MANIFEST.json from the table below."""
import json
C = {}
def c(prop, status, theorems, note):
    C[prop] = dict(property=prop, status=status, theorems=["Verif." + t for t in theorems.split()], note=note)
exec(open("/verif/tools/claims.py").read())
json.dump({"claims": [C[k] for k in sorted(C)]}, open("/verif/MANIFEST.json", "w"), indent=1, ensure_ascii=False)
print(len(C), "claims")
