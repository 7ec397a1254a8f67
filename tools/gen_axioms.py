#!/usr/bin/env python3
"""Write AXIOMS.md: the axioms each theorem of the manifest depends on, as reported by `#print axioms`."""
import json, os, re, subprocess, tempfile

ROOT = os.path.dirname(os.path.dirname(os.path.abspath(__file__)))
man = json.load(open(os.path.join(ROOT, "MANIFEST.json")))
names = [t for c in man["claims"] for t in c["theorems"]]
src = "import Verif\n" + "".join("#print axioms %s\n" % n for n in names)
with tempfile.NamedTemporaryFile("w", suffix=".lean", delete=False) as f:
    f.write(src)
out = subprocess.run(["lake", "env", "lean", f.name], cwd=os.path.join(ROOT, "lean"), capture_output=True, text=True)
os.unlink(f.name)
assert out.returncode == 0, out.stdout + out.stderr
txt = re.sub(r"\s+", " ", out.stdout)
axioms = {}
for m in re.finditer(r"'(\S+)' (?:depends on axioms: \[([^\]]*)\]|does not depend on any axioms)", txt):
    axioms[m.group(1)] = [a.strip() for a in m.group(2).split(",")] if m.group(2) else []
allowed = {"propext", "Classical.choice", "Quot.sound"}
rows = []
for c in man["claims"]:
    for t in c["theorems"]:
        a = axioms[t]
        assert set(a) <= allowed, (t, a)
        rows.append("| %s | `%s` | %s |" % (c["property"], t, ", ".join(a) or "none"))
with open(os.path.join(ROOT, "AXIOMS.md"), "w") as f:
    f.write("# Axioms per theorem\n\nOutput of `#print axioms`, written by `tools/gen_axioms.py`.\n\n| property | theorem | axioms |\n|---|---|---|\n")
    f.write("\n".join(rows) + "\n")
print(len(rows))
