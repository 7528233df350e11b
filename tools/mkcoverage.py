"""Writes COVERAGE.md: what each model file models and leaves out, from the comments that begin the files."""
import glob, os, re

here = os.path.dirname(os.path.dirname(os.path.abspath(__file__)))
out = ["# What is modelled", "", "Generated by `tools/mkcoverage.py` from the comment at the top of each model file."]
for f in sorted(glob.glob(os.path.join(here, "lean/Verif/*/*.lean"))):
    name = os.path.relpath(f, os.path.join(here, "lean"))
    s = open(f).read()
    m = re.search(r"/-!(.*?)-/", s, re.S)
    if not m or not (name.endswith("Model.lean") or "odelled" in m.group(1)) or "/Common/" in name:
        continue
    out += ["", "## " + name, "", m.group(1).strip()]
open(os.path.join(here, "COVERAGE.md"), "w").write("\n".join(out) + "\n")
