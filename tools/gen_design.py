#!/usr/bin/env python3
"""Writes DESIGN.md: hand-written text plus tables generated from properties.jsonl, MANIFEST.json and tools/axioms.json."""
import json, pathlib, re, collections
root = pathlib.Path(__file__).resolve().parent.parent
props = [json.loads(l) for l in open(root/"properties.jsonl")]
man = {c["property"]: c for c in json.load(open(root/"MANIFEST.json"))["claims"]}
ax = json.load(open(root/"tools/axioms.json"))
plan = json.load(open(root/"tools/plan.json"))
head = open(root/"tools/design_head.md").read()
tail = open(root/"tools/design_tail.md").read()
where = {}
for f in sorted((root/"lean/Verif/Props").glob("*.lean")):
    for m in re.finditer(r"^theorem (C\d\d_\w+'?)", f.read_text(), re.M):
        where["Laplax.Props."+m.group(1)] = f.stem
out = [head.rstrip(), "", "## 3. Property by property", ""]
for p in props:
    c = man.get(p["id"])
    out.append(f"### {p['id']} {p['title']}")
    if c is None:
        out += ["", plan[p["id"]]["why"], ""]; continue
    files = sorted({where[t] for t in c["theorems"]})
    out.append("")
    out.append(f"Status: **{c['status']}**. Theorems in " + ", ".join(f"`Props/{f}.lean`" for f in files) + ".")
    out.append("")
    out.append("*Modelled:* " + plan[p["id"]]["model"])
    out.append("")
    out.append("*Proof:* " + plan[p["id"]]["proof"])
    if c["note"] and not c["note"].startswith("Proved in full. Modelled"):
        out.append("")
        out.append("*Note:* " + c["note"])
    out.append("")
    out.append("Theorems: " + ", ".join("`"+t.split(".")[-1]+"`" for t in c["theorems"]) + ".")
    out.append("")
out += ["## 4. Axioms each theorem depends on", "",
  "From `#print axioms` (tools/gen_axioms.py, raw data in tools/axioms.json). Only Lean's three standard axioms occur.", ""]
by = collections.OrderedDict()
for c in man.values():
    for t in c["theorems"]:
        by.setdefault(tuple(ax[t]), []).append(t.split(".")[-1])
for k, ts in sorted(by.items(), key=lambda kv: (len(kv[0]), kv[0])):
    out.append(f"* {', '.join('`'+a+'`' for a in k) if k else 'no axioms'}: " + ", ".join(ts) + ".")
out += ["", tail.rstrip(), ""]
open(root/"DESIGN.md", "w").write("\n".join(out))
print("DESIGN.md", len("\n".join(out).splitlines()), "lines")
