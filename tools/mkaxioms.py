"""Writes AXIOMS.md: the axioms each manifest theorem depends on, as Lean reports them (run after `lake build`)."""
import json, os, re, subprocess, tempfile

here = os.path.dirname(os.path.dirname(os.path.abspath(__file__)))
claims = json.load(open(os.path.join(here, "MANIFEST.json")))["claims"]
names = [t for c in claims for t in c["theorems"]]
with tempfile.NamedTemporaryFile("w", suffix=".lean", delete=False) as f:
    f.write("import Verif\n" + "".join("#print axioms %s\n" % n for n in names))
out = subprocess.run(["lake", "env", "lean", f.name], cwd=os.path.join(here, "lean"), capture_output=True, text=True).stdout
os.unlink(f.name)
out = re.sub(r"\s+", " ", out)
ax = {}
for m in re.finditer(r"'([^']+(?:'+)?)' (depends on axioms: \[([^\]]*)\]|does not depend on any axioms)", out):
    ax[m.group(1)] = m.group(3) or "none"
groups = {}
for c in claims:
    for t in c["theorems"]:
        groups.setdefault(ax.get(t, "?"), []).append((c["property"], t))
with open(os.path.join(here, "AXIOMS.md"), "w") as f:
    f.write("# Axioms of each theorem in the manifest\n\nGenerated by `tools/mkaxioms.py` from `#print axioms`.\n")
    for g in sorted(groups):
        f.write("\n## %s\n\n" % g)
        for p, t in groups[g]:
            f.write("* %s `%s`\n" % (p, t))
print({g: len(l) for g, l in groups.items()})
