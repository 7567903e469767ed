"""Write the axioms that each theorem of MANIFEST.json depends on into DESIGN.md."""
import json
import pathlib
import re
import subprocess
import tempfile

root = pathlib.Path(__file__).resolve().parent.parent
names = []
for c in json.load(open(root / "MANIFEST.json"))["claims"]:
    for t in c["theorems"]:
        if t not in names:
            names.append(t)
src = "import Verif\n" + "".join(f"#print axioms {n}\n" for n in names)
with tempfile.NamedTemporaryFile("w", suffix=".lean", delete=False) as f:
    f.write(src)
out = subprocess.run(["lake", "env", "lean", f.name], cwd=root / "lean", capture_output=True, text=True).stdout
found = {}
for m in re.finditer(r"'([^']+)' (?:depends on axioms: \[([^\]]*)\]|does not depend on any axioms)", out):
    found[m.group(1)] = tuple(sorted(a.strip() for a in (m.group(2) or "").split(",") if a.strip()))
missing = [n for n in names if n not in found]
assert not missing, missing
groups = {}
for n in names:
    groups.setdefault(found[n], []).append(n.removeprefix("Verif."))
text = "<!-- axioms -->\n"
for ax, ns in sorted(groups.items(), key=lambda p: len(p[0])):
    text += f"* {', '.join(f'`{a}`' for a in ax) or 'No axioms'}: " + ", ".join(f"`{n}`" for n in sorted(ns)) + ".\n"
text += "<!-- end axioms -->"
p = root / "DESIGN.md"
p.write_text(re.sub(r"<!-- axioms -->.*?<!-- end axioms -->", lambda _: text, p.read_text(), flags=re.S))
print({", ".join(k): len(v) for k, v in groups.items()})
