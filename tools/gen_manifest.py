#!/usr/bin/env python3
"""Write /verif/MANIFEST.json from the theorem names found in lean/Verif/Props/*.lean.

A property is `partial` if tools/status.json says so; notes come from there as well."""
import glob, json, os, re
root = os.path.dirname(os.path.dirname(os.path.abspath(__file__)))
status = json.load(open(os.path.join(root, "tools", "status.json")))
props = [json.loads(l) for l in open(os.path.join(root, "properties.jsonl"))]
names = {}
for f in sorted(glob.glob(os.path.join(root, "lean/Verif/Props/*.lean"))):
    for line in open(f):
        m = re.match(r"(?:protected )?theorem\s+((C\d+)(?:_\w*)?)", line)
        if m:
            names.setdefault(m.group(2), []).append("SmartDNN." + m.group(1))
claims = []
for p in props:
    i = p["id"]
    s = status.get(i, {})
    th = names.get(i, [])
    if not th and s.get("status") != "not_applicable":
        continue
    claims.append({"property": i, "status": s.get("status", "proved"), "theorems": th,
                   "note": s.get("note", "")})
json.dump({"claims": claims}, open(os.path.join(root, "MANIFEST.json"), "w"), indent=1)
print(len(claims), "claims;", [p["id"] for p in props if p["id"] not in {c["property"] for c in claims}], "missing")
