"""Writes tools/axioms.json: for every manifest theorem the axioms `#print axioms` reports (run from /verif after `lake build`)."""
import json, pathlib, re, subprocess, tempfile
root = pathlib.Path(__file__).resolve().parent.parent
names = [t for c in json.load(open(root / "MANIFEST.json"))["claims"] for t in c["theorems"]]
src = "import Verif\n" + "".join(f"#print axioms {n}\n" for n in names)
with tempfile.NamedTemporaryFile("w", suffix=".lean", delete=False) as f:
    f.write(src)
out = subprocess.run(["lake", "env", "lean", f.name], cwd=root / "lean", capture_output=True, text=True).stdout
res = {}
for m in re.finditer(r"'([^']+)' (?:depends on axioms: \[([^\]]*)\]|does not depend on any axioms)", out):
    res[m.group(1)] = sorted(a.strip() for a in (m.group(2) or "").split(",") if a.strip())
assert set(res) == set(names), (set(names) - set(res), out[:500])
json.dump(res, open(root / "tools" / "axioms.json", "w"), indent=0, sort_keys=True)
print(len(res), sorted({a for v in res.values() for a in v}))
