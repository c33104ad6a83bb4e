#!/usr/bin/env python3
"""Regenerates MANIFEST.json and lean/Verif/Axioms.lean from tools/claims.json, checking that every theorem exists."""
import json, os, re, sys
root = os.path.dirname(os.path.dirname(os.path.abspath(__file__)))
claims = json.load(open(os.path.join(root, "tools", "claims.json")))
ids = [json.loads(l)["id"] for l in open(os.path.join(root, "properties.jsonl")) if l.strip()]
names = set()
props = os.path.join(root, "lean", "Verif", "Props")
mods = sorted(f[:-5] for f in os.listdir(props) if f.endswith(".lean"))
allthms = []
for m in mods:
    spaces = []
    for l in open(os.path.join(props, m + ".lean")):
        g = re.match(r"namespace (\S+)", l)
        if g:
            spaces.append(g.group(1))
        g = re.match(r"end (\S+)", l)
        if g and spaces and spaces[-1] == g.group(1):
            spaces.pop()
        g = re.match(r"theorem (C\d\d_\w+)", l)
        if g:
            t = ".".join(spaces[1:] + [g.group(1)])
            names.add(t); allthms.append(t)
bad = False
for c in claims:
    for t in c["theorems"]:
        if t not in names:
            print("missing theorem", t); bad = True
done = {c["property"] for c in claims}
print("no claim yet:", [i for i in ids if i not in done])
listed = {t for c in claims for t in c["theorems"]}
print("theorems not listed:", [t for t in allthms if t not in listed])
out = []
for c in sorted(claims, key=lambda c: c["property"]):
    out.append({"property": c["property"], "status": c["status"],
                "theorems": ["Vrpy." + t for t in c["theorems"]], "note": c["note"]})
json.dump({"claims": out}, open(os.path.join(root, "MANIFEST.json"), "w"), indent=1, ensure_ascii=False)
with open(os.path.join(root, "lean", "Verif", "Axioms.lean"), "w") as f:
    for m in mods:
        f.write(f"import Verif.Props.{m}\n")
    f.write("\n/-! Axioms used by every property theorem (expected: at most propext, Classical.choice, Quot.sound). -/\n\n")
    for t in allthms:
        f.write(f"#print axioms Vrpy.{t}\n")
with open(os.path.join(root, "lean", "Verif.lean"), "w") as f:
    f.write("import Verif.Spec\n")
    for d in ["Model", "Proofs", "Props"]:
        for m in sorted(os.listdir(os.path.join(root, "lean", "Verif", d))):
            if m.endswith(".lean"):
                f.write(f"import Verif.{d}.{m[:-5]}\n")
    f.write("import Verif.Axioms\n")
sys.exit(bad)
