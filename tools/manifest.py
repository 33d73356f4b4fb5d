#!/usr/bin/env python3
"""Regenerates MANIFEST.json from the theorem names in lean/Verif/Props and the notes below."""
import json, re, glob, os
root = os.path.dirname(os.path.dirname(os.path.abspath(__file__)))
notes = json.load(open(os.path.join(root, "tools", "notes.json")))
props = [json.loads(l)["id"] for l in open(os.path.join(root, "properties.jsonl")) if l.strip()]
thms = {}
for f in sorted(glob.glob(os.path.join(root, "lean/Verif/Props/**/*.lean"), recursive=True)):
    ns = []
    for line in open(f):
        m = re.match(r"namespace (\S+)", line)
        if m: ns.append(m.group(1))
        m = re.match(r"end (\S+)", line)
        if m and ns and ns[-1] == m.group(1): ns.pop()
        m = re.match(r"(?:private )?theorem (C\d{2,3})(_\S+)", line)
        if m: thms.setdefault(m.group(1), []).append(".".join(ns + [m.group(1) + m.group(2)]))
claims = []
for p in props:
    n = notes.get(p, {})
    t = thms.get(p, [])
    status = n.get("status")
    if status is None:
        status = "partial" if (not t or any(x.endswith("_partial") for x in t)) else "proved"
    if not t and status != "not_applicable":
        status, n = "partial", {"note": n.get("note", "not yet proved")}
    claims.append({"property": p, "status": status, "theorems": t, "note": n.get("note", "")})
json.dump({"claims": claims}, open(os.path.join(root, "MANIFEST.json"), "w"), indent=1, ensure_ascii=False)
print({s: sum(c["status"] == s for c in claims) for s in ("proved", "partial", "not_applicable")}, "no theorem:", [c["property"] for c in claims if not c["theorems"]])
