"""Writes /verif/MANIFEST.json from the table in claims.txt.

Each line of claims.txt: property | status | theorem,theorem,... | note
"""
import json, os
root = os.path.dirname(os.path.dirname(os.path.abspath(__file__)))
claims = []
for line in open(os.path.join(root, "tools", "claims.txt")):
    line = line.strip()
    if not line or line.startswith("#"):
        continue
    prop, status, thms, note = [x.strip() for x in line.split("|", 3)]
    claims.append({"property": prop, "status": status,
                   "theorems": [t.strip() for t in thms.split(",") if t.strip()], "note": note})
claims.sort(key=lambda c: c["property"])
with open(os.path.join(root, "MANIFEST.json"), "w") as f:
    json.dump({"claims": claims}, f, indent=1, ensure_ascii=False)
    f.write("\n")
print(len(claims), "claims")
