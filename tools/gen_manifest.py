#!/usr/bin/env python3
"""Collects theorems named Cxx_* from lean/Verif/Props into MANIFEST.json."""
import json, re, pathlib
root = pathlib.Path(__file__).parent.parent
ids = [json.loads(l)["id"] for l in open(root/"properties.jsonl")]
notes = json.load(open(root/"tools/notes.json"))
plan = json.load(open(root/"tools/plan.json"))
thms = {i: [] for i in ids}
for f in sorted((root/"lean/Verif/Props").glob("*.lean")):
    ns = "Laplax.Props"
    for m in re.finditer(r"^theorem (C\d\d)_(\w+'?)", f.read_text(), re.M):
        thms.setdefault(m.group(1), []).append(f"{ns}.{m.group(1)}_{m.group(2)}")
claims = []
for i in thms:
    if not thms[i]: continue
    n = notes.get(i, {})
    partial = any(t.endswith("_partial") for t in thms[i])
    claims.append(dict(property=i, status=n.get("status", "partial" if partial else "proved"),
                       theorems=thms[i], note=n.get("note") or ("Proved in full. Modelled: " + plan[i]["model"] + " Method: " + plan[i]["proof"] if i in plan else "")))
json.dump({"claims": claims}, open(root/"MANIFEST.json", "w"), indent=1, ensure_ascii=False)
missing = [i for i in ids if not thms[i]]
print(len(claims), "claims;", sum(len(c["theorems"]) for c in claims), "theorems; missing", missing)
