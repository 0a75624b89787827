"""Regenerates MANIFEST.json from the table below."""
import json
C = {}
def c(p, status, theorems, note=""):
    C[p] = dict(property=p, status=status, theorems=theorems.split(), note=note)
exec(open('/verif/claims.py').read())
json.dump({"claims": [C[k] for k in sorted(C)]}, open('/verif/MANIFEST.json', 'w'), indent=1)
print(len(C), "claims")
