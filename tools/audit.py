#!/usr/bin/env python3
"""Regenerates lean/Verif/Audit.lean: the axioms of every property theorem, checked on each build.
Needs the other modules to be built."""
import json, os, re, subprocess, tempfile
root = os.path.dirname(os.path.dirname(os.path.abspath(__file__)))
lean = os.path.join(root, "lean")
names = [t for c in json.load(open(os.path.join(root, "MANIFEST.json")))["claims"] for t in c["theorems"]]
mods = sorted("Verif.Props." + f[:-5] for f in os.listdir(os.path.join(lean, "Verif/Props")) if f.endswith(".lean"))
head = "".join(f"import {m}\n" for m in mods)
with tempfile.NamedTemporaryFile("w", suffix=".lean", delete=False) as f:
    f.write(head + "set_option format.width 10000\n" + "".join(f"#print axioms {n}\n" for n in names))
out = subprocess.run(["lake", "env", "lean", f.name], cwd=lean, capture_output=True, text=True).stdout
os.unlink(f.name)
axioms = {}
for n, a in re.findall(r"'([^'\n]+)' depends on axioms: \[([^\]]*)\]", out):
    axioms[n] = [x.strip() for x in a.split(",")]
for n in re.findall(r"'([^'\n]+)' does not depend on any axioms", out):
    axioms[n] = []
missing = [n for n in names if n not in axioms]
assert not missing, missing
bad = {n: a for n, a in axioms.items() if set(a) - {"propext", "Classical.choice", "Quot.sound"}}
assert not bad, bad
with open(os.path.join(lean, "Verif/Audit.lean"), "w") as f:
    f.write(head + """/-!
# The axioms each property theorem depends on

Generated by `tools/audit.py`. The build fails if a theorem comes to depend on other axioms.
-/

set_option format.width 10000

""")
    for n in names:
        a = axioms[n]
        msg = f"'{n}' depends on axioms: [{', '.join(a)}]" if a else f"'{n}' does not depend on any axioms"
        f.write(f"/-- info: {msg} -/\n#guard_msgs (whitespace := lax) in\n#print axioms {n}\n")
from collections import Counter
print(Counter(tuple(sorted(a)) for a in axioms.values()))
