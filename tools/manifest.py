#!/usr/bin/env python3
"""Regenerates /verif/MANIFEST.json from tools/claims.txt.

claims.txt: blocks
  Cnn status
  theorem names (one per line, indented)
  # note text (may repeat)
"""
import json, os, re
here = os.path.dirname(os.path.abspath(__file__))
claims = []
for line in open(os.path.join(here, "claims.txt")):
    line = line.rstrip("\n")
    if not line.strip():
        continue
    m = re.match(r"^(C\d+) (proved|partial|not_applicable)$", line)
    if m:
        claims.append(dict(property=m.group(1), status=m.group(2), theorems=[], note=""))
    elif line.strip().startswith("#"):
        c = claims[-1]
        c["note"] = (c["note"] + " " + line.strip()[1:].strip()).strip()
    else:
        claims[-1]["theorems"].append(line.strip())
claims.sort(key=lambda c: c["property"])
json.dump({"claims": claims}, open(os.path.join(here, "..", "MANIFEST.json"), "w"), indent=1)
print(len(claims), "claims", sum(len(c["theorems"]) for c in claims), "theorems")
