#!/usr/bin/env python3
"""Write MANIFEST.json.  One entry per property: status, theorems, note."""
import json, os, re
ROOT = os.path.dirname(os.path.dirname(os.path.abspath(__file__)))
NOTES = {}
exec(open(os.path.join(ROOT, "tools", "notes.py")).read())
# theorems: every theorem in Verif/Props whose name starts with the property id
thms = {}
d = os.path.join(ROOT, "lean", "Verif", "Props")
for f in sorted(os.listdir(d)):
    if f.endswith(".lean"):
        text = open(os.path.join(d, f)).read()
        ns = re.search(r"^namespace (\S+)", text, re.M).group(1) + "."
        for m in re.finditer(r"^theorem (C\d\d)(_\w+)", text, re.M):
            thms.setdefault(m.group(1), []).append(ns + m.group(1) + m.group(2))
claims = []
for line in open(os.path.join(ROOT, "properties.jsonl")):
    i = json.loads(line)["id"]
    ts = thms.get(i, [])
    note = NOTES.get(i, "")
    status = "proved" if ts and i not in PARTIAL else "partial"
    if not ts:
        note = note or "Not proved yet."
    claims.append({"property": i, "status": status, "theorems": ts, "note": note})
with open(os.path.join(ROOT, "MANIFEST.json"), "w") as f:
    f.write('{"claims": [\n' + ",\n".join("  " + json.dumps(c) for c in claims) + "\n]}\n")
print({c["property"]: c["status"] for c in claims})
