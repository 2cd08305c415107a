#!/usr/bin/env python3
"""Regenerate /verif/MANIFEST.json from the theorem names in lean/Verif/Props and the status table below."""
import glob, json, os, re
root = os.path.dirname(os.path.dirname(os.path.abspath(__file__)))
NOTES = json.load(open(os.path.join(root, "tools", "status.json")))
ths = {}
for f in sorted(glob.glob(os.path.join(root, "lean/Verif/Props/*.lean"))):
    for m in re.finditer(r"^theorem (C\d\d+)_(\w+)", open(f).read(), re.M):
        ths.setdefault(m.group(1), []).append(f"MixedNum.{m.group(1)}_{m.group(2)}")
claims = []
for l in open(os.path.join(root, "properties.jsonl")):
    pid = json.loads(l)["id"]
    if pid not in ths:
        continue
    status, note = NOTES[pid]
    claims.append({"property": pid, "status": status, "theorems": ths[pid], "note": note})
json.dump({"claims": claims}, open(os.path.join(root, "MANIFEST.json"), "w"), indent=1, ensure_ascii=False)
print(len(claims), "claims;", sum(len(c["theorems"]) for c in claims), "theorems")
