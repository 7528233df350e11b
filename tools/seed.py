#!/usr/bin/env python3
"""Apply one wrong-program edit to a scratch copy of the model, rebuild, and report what fails.

usage: seed.py FILE.json   (a list of {"def","file","old","new","edit","claim"[,"modules"]})
Appends one line per experiment to /verif/seeded/LOG.jsonl.  A survivor (nothing fails) is printed
with SURVIVED so that the theorem can be tightened.
"""
import json, os, re, shutil, subprocess, sys

ROOT = "/verif/lean"
SCRATCH = "/tmp/seed"
LOG = "/verif/seeded/LOG.jsonl"


def sync():
    shutil.rmtree(SCRATCH, ignore_errors=True)
    subprocess.check_call(["cp", "-a", ROOT, SCRATCH])


def theorem_at(path, line):
    lines = open(path).read().split("\n")
    ns = []
    name = None
    for i, l in enumerate(lines[:line], 1):
        m = re.match(r"^(?:private |protected |@\[.*\] )?(?:theorem|example|def|lemma)\b\s*([\w.'?!₁₂]*)", l)
        if m:
            name = m.group(1) or "example@%d" % i
    return name


def main():
    args = [a for a in sys.argv[1:] if not a.startswith("-")]
    nolog = "-n" in sys.argv
    exps = json.load(open(args[0]))
    for e in exps:
        sync()
        f = os.path.join(SCRATCH, e["file"])
        s = open(f).read()
        if s.count(e["old"]) < 1:
            print("NOT FOUND:", e["file"], repr(e["old"]))
            continue
        s = s.replace(e["old"], e["new"], 1)
        open(f, "w").write(s)
        targets = e.get("modules", [])
        r = subprocess.run(["lake", "build"] + targets, cwd=SCRATCH, capture_output=True, text=True, timeout=3000)
        failed = []
        for m in re.finditer(r"error: (Verif/[\w/]+\.lean):(\d+):", r.stdout + r.stderr):
            t = theorem_at(os.path.join(SCRATCH, m.group(1)), int(m.group(2)))
            t = "%s:%s" % (m.group(1)[6:-5].replace("/", "."), t)
            if t not in failed:
                failed.append(t)
        ok = r.returncode == 0
        print(("SURVIVED " if ok else "caught   ") + e["def"], "|", e["edit"], "|", failed[:6])
        if not nolog:
            with open(LOG, "a") as g:
                g.write(json.dumps({
                    "definition": e["def"], "edit": e["edit"], "claim": e["claim"],
                    "failed": failed if not ok else [],
                    "tightened": e.get("tightened", []) ,
                    "verdict": "survived" if ok else "caught",
                }) + "\n")


main()
