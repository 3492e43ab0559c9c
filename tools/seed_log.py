#!/usr/bin/env python3
"""Append mutation results (files of JSON lines from the scratch harness) to seeded/LOG.jsonl."""
import json, sys
out = open('/verif/seeded/LOG.jsonl', 'a')
for f in sys.argv[1:]:
    for l in open(f):
        d = json.loads(l)
        out.write(json.dumps({
            "definition": d["definition"], "file": "lean/Verif/" + d["file"],
            "edit": {"from": d["old"], "to": d["new"]}, "claim_broken": d["claim"],
            "failed_directly": d["direct"], "theorems_failed": d["dependents"],
            "theorems_tightened": d.get("tightened", []),
            **({"note": d["note"]} if "note" in d else {})}, ensure_ascii=False) + "\n")
