#!/usr/bin/env python3
# Writes ../MANIFEST.json: collects the theorems named Cnn_* from lean/Verif/Props and adds status and notes.
import json, os, re, glob
here = os.path.dirname(os.path.abspath(__file__))
ids = [json.loads(l)["id"] for l in open(os.path.join(here, "..", "properties.jsonl"))]
th = {}
for f in sorted(glob.glob(os.path.join(here, "..", "lean", "Verif", "Props", "*.lean"))):
    for m in re.finditer(r"^theorem ((C\d\d+)_[\w']*)", open(f).read(), re.M):
        th.setdefault(m.group(2), []).append("MUL." + m.group(1))
exec(open(os.path.join(here, "status.py")).read())   # defines PARTIAL, NOTE
claims = []
for i in ids:
    if i not in th: continue
    claims.append({"property": i, "status": "partial" if i in PARTIAL else "proved",
                   "theorems": th[i], "note": PARTIAL.get(i, NOTE.get(i, ""))})
json.dump({"claims": claims}, open(os.path.join(here, "..", "MANIFEST.json"), "w"), indent=1, ensure_ascii=False)
print(len(claims), "claims; missing:", [i for i in ids if i not in th])
