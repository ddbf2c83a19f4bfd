"""Regenerates MANIFEST.json and lean/Verif.lean from the Lean sources.

Theorem names starting with Cnn_ are collected per property.  A property is "proved" when none of its
theorems has the suffix _partial or _refuted, "partial" otherwise.  Notes come from notes.json.
"""
import json, os, re, glob

root = os.path.dirname(os.path.dirname(os.path.abspath(__file__)))
files = sorted(glob.glob(root + "/lean/Verif/*.lean"))
thms = {}
for f in files:
    src = open(f).read()
    ns = []
    for m in re.finditer(r"^(?:namespace (\S+)|end (\S+)|theorem (C\d\d+)_(\S+))", src, re.M):
        if m.group(1):
            ns.append(m.group(1))
        elif m.group(2):
            if ns and ns[-1] == m.group(2):
                ns.pop()
        else:
            thms.setdefault(m.group(3), []).append(".".join(ns) + "." + m.group(3) + "_" + m.group(4))
notes = json.load(open(root + "/scripts/notes.json"))
claims = []
for line in open(root + "/properties.jsonl"):
    p = json.loads(line)["id"]
    n = notes.get(p, {})
    if isinstance(n, str):
        n = {"note": n}
    ts = thms.get(p, [])
    if not ts:
        status = n.get("status", "not_applicable")
    else:
        status = "partial" if any(t.endswith(("_partial", "_refuted")) for t in ts) else "proved"
    status = n.get("status", status)
    claims.append({"property": p, "status": status, "theorems": ts, "note": n.get("note", "")})
json.dump({"claims": claims}, open(root + "/MANIFEST.json", "w"), indent=1)
mods = [os.path.basename(f)[:-5] for f in files]
open(root + "/lean/Verif.lean", "w").write("".join("import Verif.%s\n" % m for m in mods))
from collections import Counter
print(Counter(c["status"] for c in claims), [c["property"] for c in claims if not c["theorems"]])
